import Verif.Spec.BinnedNLLH
import Verif.Lemmas.PdfCongr
/- A likelihood that has been evaluated and one that has not. -/
set_option linter.unusedSectionVars false
set_option linter.unusedSimpArgs false
set_option linter.unusedVariables false
namespace Oxsx
variable {σ α : Type} [Field α] [LinearOrder α]

theorem FitSys.Equiv.refl (C : FitSys σ α) (s : σ) : C.Equiv s s := fun ds => ⟨rfl, fun _ => rfl, rfl⟩

theorem FitSys.Equiv.symm {C : FitSys σ α} {s t : σ} (h : C.Equiv s t) : C.Equiv t s :=
  fun ds => ⟨(h ds).1.symm, fun d => ((h ds).2.1 d).symm, (h ds).2.2.symm⟩

theorem FitSys.Equiv.trans {C : FitSys σ α} {s t u : σ} (h : C.Equiv s t) (h' : C.Equiv t u) : C.Equiv s u :=
  fun ds => ⟨(h ds).1.trans (h' ds).1, fun d => ((h ds).2.1 d).trans ((h' ds).2.1 d), (h ds).2.2.trans (h' ds).2.2⟩

theorem FitSys.Equiv.set {C : FitSys σ α} {s t : σ} (h : C.Equiv s t) (d : ParamDict α) :
    C.Equiv (C.setParameters s d).1 (C.setParameters t d).1 := fun ds => h (d :: ds)

theorem FitSys.Equiv.construct {C : FitSys σ α} {s t : σ} (h : C.Equiv s t) : C.construct s = C.construct t := (h []).1

theorem FitSys.Equiv.outcome {C : FitSys σ α} {s t : σ} (h : C.Equiv s t) (d : ParamDict α) :
    (C.setParameters s d).2 = (C.setParameters t d).2 := (h []).2.1 d

theorem FitSys.Equiv.params {C : FitSys σ α} {s t : σ} (h : C.Equiv s t) : C.getParameters s = C.getParameters t := (h []).2.2

namespace SysManager

/-- Responses are stored for non-empty groups only. -/
structure RespOK (m : SysManager α) : Prop where
  groups : m.groups.Sorted
  sorted : m.responses.Sorted
  keys : ∀ k r, SMap.find m.responses k = some r → ∃ p l, SMap.find m.groups k = some (p :: l)

/-- The step of the second loop of `Construct`. -/
def respStep (C : SysClass σ α) (h : Nat → σ) (rs : SMap (Matrix' α)) (g : String × List Nat) : Res (SMap (Matrix' α)) :=
  if g.1 = "" ∧ g.2.length = 0 then pure rs
  else do
    let r ← groupResponse C h g.2
    pure (rs.insert g.1 r)

theorem construct_eq (C : SysClass σ α) (m : SysManager α) (h : Nat → σ) : m.construct C h =
    (if m.countSystematics = 0 then pure (m, h) else do
      let h ← m.constructAll C h
      let rs ← Res.forFold (respStep C h) m.responses m.groups
      pure ({ m with responses := rs }, h)) := rfl

theorem constructAll_rel {C : FitSys σ α} {m : SysManager α} {h h' : Nat → σ} (hE : ∀ p, C.Equiv (h p) (h' p)) :
    Res.Rel (fun a a' => (∀ p, C.Equiv (a p) (a' p)) ∧ (∀ g ∈ m.groups, ∀ p ∈ g.2, a p = a' p))
      (m.constructAll C.toSysClass h) (m.constructAll C.toSysClass h') := by
  have inner : ∀ (l : List Nat) (a a' : Nat → σ), (∀ p, C.Equiv (a p) (a' p)) →
      Res.Rel (fun b b' => (∀ p, C.Equiv (b p) (b' p)) ∧ (∀ p ∈ l, b p = b' p) ∧ ∀ p, a p = a' p → b p = b' p)
        (Res.forFold (fun (h : Nat → σ) p => do
          let s ← C.construct (h p)
          pure (Function.update h p s)) a l)
        (Res.forFold (fun (h : Nat → σ) p => do
          let s ← C.construct (h p)
          pure (Function.update h p s)) a' l) := by
    intro l
    induction l with
    | nil => intro a a' hE; exact ⟨hE, by simp, fun p hp => hp⟩
    | cons q l ih =>
      intro a a' hE
      simp only [Res.forFold]
      rw [← (hE q).construct]
      cases hc : C.construct (a q) with
      | throw e => exact rfl
      | ub => trivial
      | ok s =>
        simp only [Res.ok_bind, Res.pure_eq]
        refine Res.Rel.mono (ih (Function.update a q s) (Function.update a' q s) ?_) ?_
        · intro p
          by_cases hp : p = q
          · subst hp; simp only [Function.update_self]; exact .refl C s
          · simp only [Function.update_of_ne hp]; exact hE p
        · rintro b b' _ _ ⟨h1, h2, h3⟩
          refine ⟨h1, ?_, ?_⟩
          · intro p hp
            rcases List.mem_cons.1 hp with hp | hp
            · subst hp; exact h3 p (by simp)
            · exact h2 p hp
          · intro p hp
            by_cases hpq : p = q
            · subst hpq; exact h3 p (by simp)
            · exact h3 p (by simp only [Function.update_of_ne hpq]; exact hp)
  unfold constructAll
  have outer : ∀ (gs : SMap (List Nat)) (a a' : Nat → σ), (∀ p, C.Equiv (a p) (a' p)) →
      Res.Rel (fun b b' => (∀ p, C.Equiv (b p) (b' p)) ∧ (∀ g ∈ gs, ∀ p ∈ g.2, b p = b' p) ∧ ∀ p, a p = a' p → b p = b' p)
        (Res.forFold (fun (h : Nat → σ) (g : String × List Nat) => Res.forFold (fun (h : Nat → σ) p => do
          let s ← C.construct (h p)
          pure (Function.update h p s)) h g.2) a gs)
        (Res.forFold (fun (h : Nat → σ) (g : String × List Nat) => Res.forFold (fun (h : Nat → σ) p => do
          let s ← C.construct (h p)
          pure (Function.update h p s)) h g.2) a' gs) := by
    intro gs
    induction gs with
    | nil => intro a a' hE; exact ⟨hE, by simp, fun p hp => hp⟩
    | cons g gs ih =>
      intro a a' hE
      rw [Res.forFold_cons, Res.forFold_cons]
      refine Res.Rel.bind (inner g.2 a a' hE) ?_
      rintro b b' ⟨h1, h2, h3⟩
      refine Res.Rel.mono (ih b b' h1) ?_
      rintro c c' _ _ ⟨k1, k2, k3⟩
      refine ⟨k1, ?_, fun p hp => k3 p (h3 p hp)⟩
      intro g' hg' p hp
      rcases List.mem_cons.1 hg' with hg' | hg'
      · subst hg'; exact k3 p (h2 p hp)
      · exact k2 g' hg' p hp
  refine Res.Rel.mono (outer m.groups h h' hE) ?_
  rintro a a' _ _ ⟨h1, h2, _⟩
  exact ⟨h1, h2⟩

theorem groupResponse_congr {C : SysClass σ α} {h h' : Nat → σ} {ps : List Nat} (hp : ∀ p ∈ ps, h p = h' p) :
    groupResponse C h ps = groupResponse C h' ps := by
  unfold groupResponse
  cases ps with
  | nil => rfl
  | cons q ps =>
    show (Res.ok q >>= _) = (Res.ok q >>= _)
    simp only [Res.ok_bind]
    rw [hp q List.mem_cons_self]
    refine Res.forFold_congr ?_ _
    intro s a ha
    rw [hp a (List.mem_cons_of_mem _ (by simpa using ha))]

theorem groupResponse_ne {C : SysClass σ α} {h : Nat → σ} {ps : List Nat} {r : Matrix' α} (hr : groupResponse C h ps = .ok r) :
    ∃ p l, ps = p :: l := by
  cases ps with
  | nil => cases hr
  | cons p l => exact ⟨p, l, rfl⟩

theorem resp_rel {C : SysClass σ α} {h h' : Nat → σ} (gs : SMap (List Nat)) (hh : ∀ g ∈ gs, ∀ p ∈ g.2, h p = h' p) :
    ∀ (rs rs' : SMap (Matrix' α)), Res.Rel (fun a b => (∀ k, SMap.find rs k = SMap.find rs' k → SMap.find a k = SMap.find b k) ∧
      ∀ g ∈ gs, g.2 ≠ [] → SMap.find a g.1 = SMap.find b g.1)
      (Res.forFold (respStep C h) rs gs) (Res.forFold (respStep C h') rs' gs) := by
  induction gs with
  | nil => intro rs rs'; exact ⟨fun k hk => hk, by simp⟩
  | cons g gs ih =>
    intro rs rs'
    rw [Res.forFold_cons, Res.forFold_cons]
    refine Res.Rel.bind (R := fun a b => (∀ k, SMap.find rs k = SMap.find rs' k → SMap.find a k = SMap.find b k) ∧
      (g.2 ≠ [] → SMap.find a g.1 = SMap.find b g.1)) ?_ ?_
    · unfold respStep
      by_cases hc : g.1 = "" ∧ g.2.length = 0
      · rw [if_pos hc, if_pos hc]
        exact ⟨fun k hk => hk, fun h => absurd (List.length_eq_zero_iff.1 hc.2) h⟩
      · rw [if_neg hc, if_neg hc, ← groupResponse_congr (fun p hp => hh g List.mem_cons_self p hp)]
        cases hr : groupResponse C h g.2 with
        | throw e => exact rfl
        | ub => trivial
        | ok r =>
          simp only [Res.ok_bind, Res.pure_eq]
          refine ⟨?_, fun _ => by rw [SMap.find_insert, SMap.find_insert, if_pos rfl, if_pos rfl]⟩
          intro k hk
          rw [SMap.find_insert, SMap.find_insert, hk]
    · rintro a b ⟨h1, h2⟩
      refine Res.Rel.mono (ih (fun g' hg' => hh g' (List.mem_cons_of_mem _ hg')) a b) ?_
      rintro c d _ _ ⟨k1, k2⟩
      refine ⟨fun k hk => k1 k (h1 k hk), ?_⟩
      intro g' hg' hne
      rcases List.mem_cons.1 hg' with hg' | hg'
      · subst hg'; exact k1 _ (h2 hne)
      · exact k2 g' hg' hne

theorem resp_inv {C : SysClass σ α} {h : Nat → σ} {groups : SMap (List Nat)} (hs : groups.Sorted) {rs rs' : SMap (Matrix' α)}
    (h0 : rs.Sorted ∧ ∀ k r, SMap.find rs k = some r → ∃ p l, SMap.find groups k = some (p :: l))
    (hf : Res.forFold (respStep C h) rs groups = .ok rs') :
    rs'.Sorted ∧ ∀ k r, SMap.find rs' k = some r → ∃ p l, SMap.find groups k = some (p :: l) := by
  refine Res.forFold_inv (fun (rs : SMap (Matrix' α)) => rs.Sorted ∧
    ∀ k r, SMap.find rs k = some r → ∃ p l, SMap.find groups k = some (p :: l)) h0 hf ?_
  rintro s g t ⟨h1, h2⟩ hg ht
  unfold respStep at ht
  by_cases hc : g.1 = "" ∧ g.2.length = 0
  · rw [if_pos hc] at ht; cases ht; exact ⟨h1, h2⟩
  · rw [if_neg hc] at ht
    obtain ⟨r, hr, ht⟩ := Res.bind_eq_ok.1 ht
    cases ht
    obtain ⟨p, l, hpl⟩ := groupResponse_ne hr
    refine ⟨SMap.sorted_insert h1 _ _, ?_⟩
    intro k r' hk
    rw [SMap.find_insert] at hk
    split at hk
    · rename_i hkg
      subst hkg
      exact ⟨p, l, by rw [← hpl]; exact SMap.find_of_mem hs hg⟩
    · exact h2 k r' hk

theorem construct_inv {C : SysClass σ α} {m m' : SysManager α} {h h' : Nat → σ} (hr : RespOK m)
    (hc : m.construct C h = .ok (m', h')) : RespOK m' ∧ m'.groups = m.groups ∧ m'.edGroups = m.edGroups ∧ m'.nGroups = m.nGroups := by
  rw [construct_eq] at hc
  split at hc
  · cases hc; exact ⟨hr, rfl, rfl, rfl⟩
  · obtain ⟨a, _, hc⟩ := Res.bind_eq_ok.1 hc
    obtain ⟨rs, hrs, hc⟩ := Res.bind_eq_ok.1 hc
    cases hc
    obtain ⟨h1, h2⟩ := resp_inv hr.groups ⟨hr.sorted, hr.keys⟩ hrs
    exact ⟨⟨hr.groups, h1, h2⟩, rfl, rfl, rfl⟩

theorem count_zero {m : SysManager α} (h : m.countSystematics = 0) {k : String} {l : List Nat} (hk : SMap.find m.groups k = some l) :
    l = [] := by
  have hm := SMap.find_mem hk
  unfold countSystematics at h
  have := List.sum_eq_zero_iff.1 h l.length (List.mem_map.2 ⟨(k, l), hm, rfl⟩)
  exact List.length_eq_zero_iff.1 this

theorem construct_rel {C : FitSys σ α} {m n : SysManager α} {h h' : Nat → σ} (hg : m.groups = n.groups)
    (he : m.edGroups = n.edGroups) (hn : m.nGroups = n.nGroups) (hm : RespOK m) (hn' : RespOK n)
    (hE : ∀ p, C.Equiv (h p) (h' p)) :
    Res.Rel (fun a b => a.1 = b.1 ∧ ∀ p, C.Equiv (a.2 p) (b.2 p))
      (m.construct C.toSysClass h) (n.construct C.toSysClass h') := by
  rw [construct_eq, construct_eq]
  have hcount : m.countSystematics = n.countSystematics := by unfold countSystematics; rw [hg]
  have hext : ∀ (rs rs' : SMap (Matrix' α)), rs = rs' → ({ m with responses := rs } : SysManager α) = { n with responses := rs' } := by
    rintro rs rs' rfl
    cases m; cases n
    simp only at hg he hn
    subst hg he hn
    rfl
  by_cases h0 : m.countSystematics = 0
  · rw [if_pos h0, if_pos (hcount ▸ h0)]
    refine ⟨?_, hE⟩
    refine hext m.responses n.responses ?_
    refine SMap.ext hm.sorted hn'.sorted ?_
    intro k
    have e1 : SMap.find m.responses k = none := by
      cases hk : SMap.find m.responses k with
      | none => rfl
      | some r =>
        obtain ⟨p, l, hp⟩ := hm.keys k r hk
        exact absurd (count_zero h0 hp) (by simp)
    have e2 : SMap.find n.responses k = none := by
      cases hk : SMap.find n.responses k with
      | none => rfl
      | some r =>
        obtain ⟨p, l, hp⟩ := hn'.keys k r hk
        exact absurd (count_zero (hcount ▸ h0) hp) (by simp)
    rw [e1, e2]
  · rw [if_neg h0, if_neg (hcount ▸ h0)]
    have hall : Res.Rel (fun a a' => (∀ p, C.Equiv (a p) (a' p)) ∧ (∀ g ∈ m.groups, ∀ p ∈ g.2, a p = a' p))
        (m.constructAll C.toSysClass h) (n.constructAll C.toSysClass h') := by
      have := constructAll_rel (m := m) (h := h) (h' := h') hE
      have e : n.constructAll C.toSysClass h' = m.constructAll C.toSysClass h' := by unfold constructAll; rw [hg]
      rw [e]; exact this
    refine Res.Rel.bind hall ?_
    rintro a a' ⟨ha, hmem⟩
    refine Res.Rel.bind (R := Eq) ?_ ?_
    · rw [← hg]
      refine Res.Rel.mono (resp_rel m.groups hmem m.responses n.responses) ?_
      rintro rs rs' hrs hrs' ⟨k1, k2⟩
      obtain ⟨s1, s2⟩ := resp_inv hm.groups ⟨hm.sorted, hm.keys⟩ hrs
      obtain ⟨t1, t2⟩ := resp_inv hm.groups (rs := n.responses) ⟨hn'.sorted, by rw [hg]; exact hn'.keys⟩ hrs'
      refine SMap.ext s1 t1 ?_
      intro k
      cases hk : SMap.find m.groups k with
      | none =>
        have e1 : SMap.find rs k = none := by
          cases hr : SMap.find rs k with
          | none => rfl
          | some r => obtain ⟨p, l, hp⟩ := s2 k r hr; rw [hk] at hp; cases hp
        have e2 : SMap.find rs' k = none := by
          cases hr : SMap.find rs' k with
          | none => rfl
          | some r => obtain ⟨p, l, hp⟩ := t2 k r hr; rw [hk] at hp; cases hp
        rw [e1, e2]
      | some l =>
        cases l with
        | cons p l => exact k2 (k, p :: l) (SMap.find_mem hk) (by simp)
        | nil =>
          have e1 : SMap.find rs k = none := by
            cases hr : SMap.find rs k with
            | none => rfl
            | some r => obtain ⟨p, l, hp⟩ := s2 k r hr; rw [hk] at hp; cases hp
          have e2 : SMap.find rs' k = none := by
            cases hr : SMap.find rs' k with
            | none => rfl
            | some r => obtain ⟨p, l, hp⟩ := t2 k r hr; rw [hk] at hp; cases hp
          rw [e1, e2]
    · rintro rs rs' rfl
      exact ⟨hext rs rs rfl, ha⟩

theorem constructAll_equiv {C : FitSys σ α} (hC : C.Refreshing) {m : SysManager α} {h h' : Nat → σ}
    (hc : m.constructAll C.toSysClass h = .ok h') (p : Nat) : C.Equiv (h' p) (h p) := by
  unfold constructAll at hc
  refine Res.forFold_inv (fun (a : Nat → σ) => ∀ p, C.Equiv (a p) (h p)) (fun p => .refl C _) hc ?_ p
  intro a g b ha _ hb
  refine Res.forFold_inv (fun (a : Nat → σ) => ∀ p, C.Equiv (a p) (h p)) ha hb ?_
  intro a q b ha _ hb p
  obtain ⟨s, hs, hb⟩ := Res.bind_eq_ok.1 hb
  cases hb
  by_cases hp : p = q
  · subst hp; simp only [Function.update_self]; exact (hC _ _ hs).trans (ha p)
  · simp only [Function.update_of_ne hp]; exact ha p

theorem construct_equiv {C : FitSys σ α} (hC : C.Refreshing) {m m' : SysManager α} {h h' : Nat → σ}
    (hc : m.construct C.toSysClass h = .ok (m', h')) (p : Nat) : C.Equiv (h' p) (h p) := by
  rw [construct_eq] at hc
  split at hc
  · cases hc; exact .refl C _
  · obtain ⟨a, ha, hc⟩ := Res.bind_eq_ok.1 hc
    obtain ⟨rs, hrs, hc⟩ := Res.bind_eq_ok.1 hc
    cases hc
    exact constructAll_equiv hC ha p

end SysManager
end Oxsx
