import Verif.Spec.Ownership
import Verif.Lemmas.Basic
import Mathlib.Data.List.Forall2
import Mathlib.Data.List.Nodup
/-
C91: objects that own their parts behave as values.
-/
set_option linter.unusedSectionVars false
set_option linter.unusedSimpArgs false
set_option linter.unusedVariables false
namespace Oxsx
variable {V : Type}

theorem FreeStore.freeAll_ok {h : FreeStore V} {l : List Nat} (hn : l.Nodup) (hl : ∀ a ∈ l, h.cell a ≠ none) :
    ∃ h', h.freeAll l = .ok h' ∧ h'.next = h.next ∧ ∀ a, h'.cell a = if a ∈ l then none else h.cell a := by
  induction l generalizing h with
  | nil => exact ⟨h, rfl, rfl, by simp⟩
  | cons a l ih =>
    obtain ⟨v, hv⟩ := Option.ne_none_iff_exists'.1 (hl a (by simp))
    obtain ⟨hna, hn⟩ := List.nodup_cons.1 hn
    obtain ⟨h', e1, e2, e3⟩ := ih (h := { h with cell := Function.update h.cell a none }) hn (by
      intro b hb
      have hne : b ≠ a := by rintro rfl; exact hna hb
      simp only [Function.update_of_ne hne]
      exact hl b (by simp [hb]))
    refine ⟨h', ?_, e2, ?_⟩
    · unfold FreeStore.freeAll FreeStore.free
      rw [hv]
      exact e1
    · intro b
      rw [e3 b]
      by_cases hba : b = a
      · subst hba; simp [hna]
      · simp [hba, Function.update_of_ne hba]

theorem FreeStore.cloneAll_ok {h : FreeStore V} {l : List Nat} {vl : List V} (hf : ∀ a, h.next ≤ a → h.cell a = none)
    (hl : List.Forall₂ (fun a v => h.cell a = some v) l vl) :
    ∃ l' h', h.cloneAll l = .ok (l', h') ∧ h.next ≤ h'.next ∧ (∀ a, a < h.next → h'.cell a = h.cell a) ∧
      (∀ a, h'.next ≤ a → h'.cell a = none) ∧ List.Forall₂ (fun a v => h'.cell a = some v) l' vl ∧ l'.Nodup ∧
      (∀ a ∈ l', h.next ≤ a) ∧ ∀ a, h.next ≤ a → h'.cell a ≠ none → a ∈ l' := by
  induction l generalizing h vl with
  | nil =>
    cases hl
    exact ⟨[], h, rfl, le_rfl, fun _ _ => rfl, hf, .nil, by simp, by simp, fun a ha hne => absurd (hf a ha) hne⟩
  | cons a l ih =>
    obtain ⟨v, vl, hav, hl', rfl⟩ := List.forall₂_cons_left_iff.1 hl
    have hlt : ∀ b w, h.cell b = some w → b < h.next := by
      intro b w hb
      by_contra hc
      rw [hf b (by omega)] at hb
      cases hb
    obtain ⟨l', h', e1, e2, e3, e4, e5, e6, e7, e8⟩ := ih (h := (h.alloc v).2) (by
      intro b hb
      have hb : h.next + 1 ≤ b := hb
      show Function.update h.cell h.next (some v) b = none
      rw [Function.update_of_ne (by omega)]
      exact hf b (by omega)) (hl'.imp (by
        intro b w hb
        show Function.update h.cell h.next (some v) b = some w
        rw [Function.update_of_ne (by have := hlt b w hb; omega)]
        exact hb))
    refine ⟨h.next :: l', h', ?_, ?_, ?_, e4, ?_, ?_, ?_, ?_⟩
    · unfold FreeStore.cloneAll FreeStore.read
      rw [hav]
      simp only [Res.ok_bind]
      rw [e1]
      rfl
    · have : h.next + 1 ≤ h'.next := e2
      omega
    · intro b hb
      rw [e3 b (by show b < h.next + 1; omega)]
      show Function.update h.cell h.next (some v) b = h.cell b
      rw [Function.update_of_ne (by omega)]
    · refine .cons ?_ e5
      rw [e3 h.next (by show h.next < h.next + 1; omega)]
      show Function.update h.cell h.next (some v) h.next = some v
      rw [Function.update_self]
    · refine List.nodup_cons.2 ⟨fun hm => ?_, e6⟩
      have : h.next + 1 ≤ h.next := e7 _ hm
      omega
    · intro b hb
      rcases List.mem_cons.1 hb with rfl | hb
      · exact le_rfl
      · have : h.next + 1 ≤ b := e7 _ hb
        omega
    · intro b hb hne
      by_cases hbn : b = h.next
      · subst hbn; simp
      · exact List.mem_cons_of_mem _ (e8 b (by show h.next + 1 ≤ b; omega) hne)

theorem FreeStore.readAll_ok {h : FreeStore V} {l : List Nat} {vl : List V} (hl : List.Forall₂ (fun a v => h.cell a = some v) l vl) :
    h.readAll l = .ok vl := by
  induction hl with
  | nil => rfl
  | cons hav _ ih =>
    unfold FreeStore.readAll FreeStore.read
    rw [hav]
    simp only [Res.ok_bind]
    rw [ih]
    rfl

/-- The objects own, each by itself, live parts that are the values `vs`. -/
structure OwnState.Owns (s : OwnState V) (vs : ValueState V) : Prop where
  dead : ∀ o, s.objs o = none → vs o = none
  alive : ∀ o l, s.objs o = some l → ∃ vl, vs o = some vl ∧ List.Forall₂ (fun a v => s.store.cell a = some v) l vl
  nodup : ∀ o l, s.objs o = some l → l.Nodup
  apart : ∀ o o' l l' a, o ≠ o' → s.objs o = some l → s.objs o' = some l' → a ∈ l → a ∉ l'
  fresh : ∀ a, s.store.next ≤ a → s.store.cell a = none

theorem OwnState.owns_start : (OwnState.start : OwnState V).Owns ValueState.start :=
  by
  refine ⟨fun _ _ => rfl, ?_, ?_, ?_, fun _ _ => rfl⟩
  · intro o l h; exact absurd h (by simp [OwnState.start])
  · intro o l h; exact absurd h (by simp [OwnState.start])
  · intro o o' l l' a _ h; exact absurd h (by simp [OwnState.start])

theorem OwnState.Owns.live {s : OwnState V} {vs : ValueState V} (h : s.Owns vs) {o : Nat} {l : List Nat} (hl : s.objs o = .some l) :
    ∀ a ∈ l, s.store.cell a ≠ Option.none ∧ a < s.store.next := by
  intro a ha
  obtain ⟨vl, _, hv⟩ := h.alive o l hl
  obtain ⟨i, hi⟩ := List.mem_iff_getElem?.1 ha
  obtain ⟨hil, _⟩ := List.getElem?_eq_some_iff.1 hi
  have hc := hv.get hil (by rw [← hv.length_eq]; exact hil)
  have hla : l.get ⟨i, hil⟩ = a := by
    have := (List.getElem?_eq_some_iff.1 hi).2
    simpa using this
  rw [hla] at hc
  refine ⟨by rw [hc]; simp, ?_⟩
  by_contra hn
  rw [h.fresh a (by omega)] at hc
  cases hc

/-- Giving object `o` other pointers keeps the invariant. -/
theorem OwnState.Owns.put {s : OwnState V} {vs : ValueState V} (h : s.Owns vs) {o : Nat} {st : FreeStore V} {l : List Nat} {vl : List V}
    (hkeep : ∀ o' k, o' ≠ o → s.objs o' = .some k → ∀ a ∈ k, st.cell a = s.store.cell a ∧ a ∉ l)
    (hl : List.Forall₂ (fun a v => st.cell a = .some v) l vl) (hn : l.Nodup) (hf : ∀ a, st.next ≤ a → st.cell a = Option.none) :
    (s.put st o l).Owns (Function.update vs o (.some vl)) := by
  refine ⟨?_, ?_, ?_, ?_, hf⟩
  · intro o' ho
    by_cases e : o' = o
    · subst e; simp [OwnState.put] at ho
    · rw [Function.update_of_ne e]
      simp only [OwnState.put, Function.update_of_ne e] at ho
      exact h.dead o' ho
  · intro o' k hk
    by_cases e : o' = o
    · subst e
      simp only [OwnState.put, Function.update_self, Option.some.injEq] at hk
      subst hk
      exact ⟨vl, by rw [Function.update_self], hl⟩
    · simp only [OwnState.put, Function.update_of_ne e] at hk
      obtain ⟨wl, w1, w2⟩ := h.alive o' k hk
      refine ⟨wl, by rw [Function.update_of_ne e]; exact w1, ?_⟩
      show List.Forall₂ (fun a v => st.cell a = .some v) k wl
      have : ∀ a ∈ k, st.cell a = s.store.cell a := fun a ha => (hkeep o' k e hk a ha).1
      clear hk hkeep w1
      induction w2 with
      | nil => exact .nil
      | cons hab _ ih =>
        exact .cons (by rw [this _ (by simp)]; exact hab) (ih (fun a ha => this a (by simp [ha])))
  · intro o' k hk
    by_cases e : o' = o
    · subst e
      simp only [OwnState.put, Function.update_self, Option.some.injEq] at hk
      subst hk; exact hn
    · simp only [OwnState.put, Function.update_of_ne e] at hk
      exact h.nodup o' k hk
  · intro o1 o2 k1 k2 a hne h1 h2 ha
    by_cases e1 : o1 = o
    · subst e1
      simp only [OwnState.put, Function.update_self, Option.some.injEq] at h1
      subst h1
      simp only [OwnState.put, Function.update_of_ne (Ne.symm hne)] at h2
      intro hb
      exact (hkeep o2 k2 (Ne.symm hne) h2 a hb).2 ha
    · simp only [OwnState.put, Function.update_of_ne e1] at h1
      by_cases e2 : o2 = o
      · subst e2
        simp only [OwnState.put, Function.update_self, Option.some.injEq] at h2
        subst h2
        exact (hkeep o1 k1 e1 h1 a ha).2
      · simp only [OwnState.put, Function.update_of_ne e2] at h2
        exact h.apart o1 o2 k1 k2 a hne h1 h2 ha

theorem OwnState.Owns.get {s : OwnState V} {vs : ValueState V} (h : s.Owns vs) {o : Nat} {vl : List V} (hv : vs.get o = .ok vl) :
    ∃ l, s.get o = .ok l ∧ s.objs o = .some l ∧ vs o = .some vl ∧ List.Forall₂ (fun a v => s.store.cell a = .some v) l vl := by
  unfold ValueState.get at hv
  cases hvo : vs o with
  | none => rw [hvo] at hv; cases hv
  | some wl =>
    rw [hvo] at hv
    cases hv
    cases hl : s.objs o with
    | none =>
      have := h.dead o hl
      rw [hvo] at this; cases this
    | some l =>
      obtain ⟨ul, u1, u2⟩ := h.alive o l hl
      rw [hvo] at u1
      cases u1
      exact ⟨l, by unfold OwnState.get; rw [hl], rfl, rfl, u2⟩

theorem OwnState.Owns.unused {s : OwnState V} {vs : ValueState V} (h : s.Owns vs) {o : Nat} (hv : ¬ (vs o).isSome) :
    s.unused o = .ok () ∧ s.objs o = .none := by
  cases hl : s.objs o with
  | none => exact ⟨by unfold OwnState.unused; rw [hl], rfl⟩
  | some l =>
    obtain ⟨ul, u1, u2⟩ := h.alive o l hl
    rw [u1] at hv
    exact absurd rfl hv


theorem Owned.congr {h h' : FreeStore V} {l : List Nat} {vl : List V} (hl : List.Forall₂ (fun a v => h.cell a = some v) l vl)
    (hc : ∀ a ∈ l, h'.cell a = h.cell a) : List.Forall₂ (fun a v => h'.cell a = some v) l vl := by
  induction hl with
  | nil => exact .nil
  | cons hab _ ih => exact .cons (by rw [hc _ (by simp)]; exact hab) (ih (fun a ha => hc a (by simp [ha])))

theorem OwnState.NoLeak.put {s : OwnState V} (h : s.NoLeak) {o : Nat} {st : FreeStore V} {l : List Nat}
    (hk : ∀ a, st.cell a ≠ none → a ∈ l ∨ (s.store.cell a ≠ none ∧ ∀ k, s.objs o = some k → a ∉ k)) : (s.put st o l).NoLeak := by
  intro a ha
  rcases hk a ha with h1 | ⟨h1, h2⟩
  · exact ⟨o, l, by simp [OwnState.put], h1⟩
  · obtain ⟨o', k, e1, e2⟩ := h a h1
    have hne : o' ≠ o := by rintro rfl; exact h2 k e1 e2
    exact ⟨o', k, by simp [OwnState.put, Function.update_of_ne hne, e1], e2⟩

/-- One call behaves as on values. -/
theorem OwnState.Owns.step {P : OwnerClass} {s : OwnState V} {vs vs' : ValueState V} {c : OwnCall V} {ob : Option (List V)}
    (h : s.Owns vs) (hc : P.Clones c) (hv : vs.step c = .ok (vs', ob)) :
    ∃ s', s.step P c = .ok (s', ob) ∧ s'.Owns vs' ∧ (P.Frees c → s.NoLeak → s'.NoLeak) := by
  have hlt : ∀ o k, s.objs o = some k → ∀ a ∈ k, a < s.store.next := fun o k hk a ha => (h.live hk a ha).2
  have hcell : ∀ a, s.store.cell a ≠ none → a < s.store.next := by
    intro a ha; by_contra hn; exact ha (h.fresh a (by omega))
  cases c with
  | construct o =>
    unfold ValueState.step at hv
    simp only at hv
    split at hv
    · cases hv
    · rename_i ho
      cases hv
      obtain ⟨u1, u2⟩ := h.unused ho
      refine ⟨s.put s.store o [], by simp only [OwnState.step]; rw [u1]; rfl, h.put (by simp) .nil (by simp) h.fresh, fun _ hnl => ?_⟩
      exact hnl.put (fun a ha => .inr ⟨ha, fun k hk => by rw [u2] at hk; cases hk⟩)
  | add o v =>
    unfold ValueState.step at hv
    obtain ⟨vl, g1, g2⟩ := Res.bind_eq_ok.1 hv
    cases g2
    obtain ⟨l, l1, l2, l3, l4⟩ := h.get g1
    have hup : ∀ a, a < s.store.next → (s.store.alloc v).2.cell a = s.store.cell a := by
      intro a ha
      show Function.update _ _ _ _ = _
      rw [Function.update_of_ne (by omega)]
    refine ⟨_, by simp only [OwnState.step]; rw [l1]; rfl, h.put ?_ ?_ ?_ ?_, fun _ hnl => hnl.put ?_⟩
    · intro o' k hne hk a ha
      have hla := hlt o' k hk a ha
      refine ⟨hup a hla, ?_⟩
      intro hm
      rcases List.mem_append.1 hm with hm | hm
      · exact h.apart o' o k l a hne hk l2 ha hm
      · have : a = s.store.next := List.mem_singleton.1 hm
        omega
    · refine List.rel_append (Owned.congr l4 (fun a ha => hup a (hlt o l l2 a ha))) (.cons ?_ .nil)
      show Function.update _ _ _ _ = _
      exact Function.update_self ..
    · refine List.nodup_append.2 ⟨h.nodup o l l2, by simp, ?_⟩
      intro a ha b hb
      have : b = s.store.next := List.mem_singleton.1 hb
      have := hlt o l l2 a ha
      omega
    · intro a ha
      have ha : s.store.next + 1 ≤ a := ha
      show Function.update _ _ _ _ = _
      rw [Function.update_of_ne (by omega)]
      exact h.fresh a (by omega)
    · intro a ha
      by_cases e : a = s.store.next
      · exact .inl (List.mem_append_right _ (List.mem_singleton.2 e))
      · have ha' : s.store.cell a ≠ none := by
          have : (s.store.alloc v).2.cell a = s.store.cell a := by
            show Function.update _ _ _ _ = _
            rw [Function.update_of_ne e]
          rwa [this] at ha
        by_cases hm : a ∈ l
        · exact .inl (List.mem_append_left _ hm)
        · exact .inr ⟨ha', fun k hk => by rw [l2] at hk; cases hk; exact hm⟩
  | set o v =>
    unfold ValueState.step at hv
    obtain ⟨vl, g1, g2⟩ := Res.bind_eq_ok.1 hv
    cases g2
    obtain ⟨l, l1, l2, l3, l4⟩ := h.get g1
    have hst : ∃ h', (if P.setFrees then s.store.freeAll l else .ok s.store) = .ok h' ∧ h'.next = s.store.next ∧
        (∀ a, a ∉ l → h'.cell a = s.store.cell a) ∧ (∀ a, s.store.cell a = none → h'.cell a = none) ∧
        (P.setFrees = true → ∀ a ∈ l, h'.cell a = none) := by
      by_cases hf : P.setFrees = true
      · obtain ⟨h', e1, e2, e3⟩ := FreeStore.freeAll_ok (h.nodup o l l2) (fun a ha => (h.live l2 a ha).1)
        refine ⟨h', by rw [if_pos hf]; exact e1, e2, fun a ha => by rw [e3, if_neg ha], fun a ha => ?_, fun _ a ha => by rw [e3, if_pos ha]⟩
        rw [e3]; split
        · rfl
        · exact ha
      · exact ⟨s.store, by rw [if_neg hf], rfl, fun _ _ => rfl, fun _ ha => ha, fun hc => absurd hc hf⟩
    obtain ⟨h', e1, e2, e3, e4, e5⟩ := hst
    have hup : ∀ a, a ≠ s.store.next → (h'.alloc v).2.cell a = h'.cell a := by
      intro a ha
      show Function.update _ _ _ _ = _
      rw [Function.update_of_ne (by rw [e2]; exact ha)]
    have hnext : (h'.alloc v).1 = s.store.next := e2
    refine ⟨_, by simp only [OwnState.step]; rw [l1]; simp only [Res.ok_bind]; rw [e1]; rfl, h.put ?_ ?_ ?_ ?_, fun hfr hnl => hnl.put ?_⟩
    · intro o' k hne hk a ha
      have hla := hlt o' k hk a ha
      rw [hup a (by omega), e3 a (h.apart o' o k l a hne hk l2 ha), hnext]
      exact ⟨rfl, by simp; omega⟩
    · refine .cons ?_ .nil
      show Function.update _ _ _ _ = _
      exact Function.update_self ..
    · simp
    · intro a ha
      have ha : h'.next + 1 ≤ a := ha
      rw [hup a (by omega)]
      exact e4 a (h.fresh a (by omega))
    · intro a ha
      by_cases e : a = s.store.next
      · exact .inl (by rw [hnext]; exact List.mem_singleton.2 e)
      · rw [hup a e] at ha
        by_cases hm : a ∈ l
        · exact absurd (e5 hfr a hm) ha
        · exact .inr ⟨by rwa [e3 a hm] at ha, fun k hk => by rw [l2] at hk; cases hk; exact hm⟩
  | modify o i v =>
    unfold ValueState.step at hv
    obtain ⟨vl, g1, g2⟩ := Res.bind_eq_ok.1 hv
    split at g2
    swap
    · cases g2
    rename_i hi
    cases g2
    obtain ⟨l, l1, l2, l3, l4⟩ := h.get g1
    have hil : i < l.length := by rw [l4.length_eq]; exact hi
    have hmem : l[i] ∈ l := List.getElem_mem hil
    obtain ⟨w, hw⟩ := Option.ne_none_iff_exists'.1 (h.live l2 _ hmem).1
    have hup : ∀ a, a ≠ l[i] → Function.update s.store.cell l[i] (some v) a = s.store.cell a :=
      fun a ha => Function.update_of_ne ha ..
    refine ⟨s.put { s.store with cell := Function.update s.store.cell l[i] (some v) } o l, ?_, h.put ?_ ?_ (h.nodup o l l2) ?_,
      fun _ hnl => hnl.put ?_⟩
    · simp only [OwnState.step]
      rw [l1]
      simp only [Res.ok_bind]
      rw [idx_of_lt hil]
      simp only [Res.ok_bind]
      unfold FreeStore.write
      rw [hw]
      rfl
    · intro o' k hne hk a ha
      have hal := h.apart o' o k l a hne hk l2 ha
      exact ⟨hup a (by rintro rfl; exact hal hmem), hal⟩
    · rw [List.forall₂_iff_get]
      refine ⟨by rw [List.length_set]; exact l4.length_eq, fun j h1 h2 => ?_⟩
      have hj : l.get ⟨j, h1⟩ = l[j] := rfl
      have hj2 : (vl.set i v).get ⟨j, h2⟩ = (vl.set i v)[j] := rfl
      rw [hj, hj2, List.getElem_set]
      show Function.update s.store.cell l[i] (some v) l[j] = _
      by_cases hij : i = j
      · subst hij
        simp
      · rw [if_neg hij, hup l[j] (fun he => hij (((h.nodup o l l2).getElem_inj_iff).1 he).symm)]
        exact l4.get h1 (by rw [← l4.length_eq]; exact h1)
    · intro a ha
      rw [show (FreeStore.cell _ a) = Function.update s.store.cell l[i] (some v) a from rfl, hup a ?_]
      · exact h.fresh a ha
      · rintro rfl
        have : s.store.next ≤ l[i] := ha
        have := hlt o l l2 _ hmem
        omega
    · intro a ha
      by_cases hm : a ∈ l
      · exact .inl hm
      · refine .inr ⟨?_, fun k hk => by rw [l2] at hk; cases hk; exact hm⟩
        have ha : Function.update s.store.cell l[i] (some v) a ≠ none := ha
        rwa [hup a (by rintro rfl; exact hm hmem)] at ha
  | look o =>
    unfold ValueState.step at hv
    obtain ⟨vl, g1, g2⟩ := Res.bind_eq_ok.1 hv
    cases g2
    obtain ⟨l, l1, l2, l3, l4⟩ := h.get g1
    exact ⟨s, by simp only [OwnState.step]; rw [l1]; simp only [Res.ok_bind]; rw [FreeStore.readAll_ok l4]; rfl, h, fun _ hnl => hnl⟩
  | copy o src =>
    unfold ValueState.step at hv
    simp only at hv
    split at hv
    · cases hv
    rename_i ho
    obtain ⟨u1, u2⟩ := h.unused ho
    obtain ⟨vl, g1, g2⟩ := Res.bind_eq_ok.1 hv
    cases g2
    obtain ⟨l, l1, l2, l3, l4⟩ := h.get g1
    obtain ⟨l', h', e1, e2, e3, e4, e5, e6, e7, e8⟩ := FreeStore.cloneAll_ok h.fresh l4
    have hc : P.copyDeep = true := hc
    refine ⟨s.put h' o l', ?_, h.put ?_ e5 e6 e4, fun _ hnl => hnl.put ?_⟩
    · simp only [OwnState.step]
      rw [u1]
      simp only [Res.ok_bind]
      rw [l1]
      simp only [Res.ok_bind]
      rw [if_pos hc, e1]
      rfl
    · intro o' k hne hk a ha
      have := hlt o' k hk a ha
      exact ⟨e3 a this, fun hm => by have := e7 a hm; omega⟩
    · intro a ha
      by_cases hm : s.store.next ≤ a
      · exact .inl (e8 a hm ha)
      · exact .inr ⟨by rwa [e3 a (by omega)] at ha, fun k hk => by rw [u2] at hk; cases hk⟩
  | assign o src =>
    unfold ValueState.step at hv
    obtain ⟨vo, g0, hv⟩ := Res.bind_eq_ok.1 hv
    obtain ⟨vl, g1, g2⟩ := Res.bind_eq_ok.1 hv
    cases g2
    obtain ⟨k, k1, k2, k3, k4⟩ := h.get g0
    obtain ⟨l, l1, l2, l3, l4⟩ := h.get g1
    rcases hc with hc | ⟨hc, hne⟩
    · obtain ⟨l', h', e1, e2, e3, e4, e5, e6, e7, e8⟩ := FreeStore.cloneAll_ok h.fresh l4
      refine ⟨s.put h' o l', ?_, h.put ?_ e5 e6 e4, fun hfr _ => ?_⟩
      · simp only [OwnState.step]
        rw [k1]
        simp only [Res.ok_bind]
        rw [l1]
        simp only [Res.ok_bind, hc]
        rw [e1]
        rfl
      · intro o' k hne hk a ha
        have := hlt o' k hk a ha
        exact ⟨e3 a this, fun hm => by have := e7 a hm; omega⟩
      · have hfr : P.assign = .cloneFreeing := hfr
        rw [hc] at hfr
        cases hfr
    · obtain ⟨h0, f1, f2, f3⟩ := FreeStore.freeAll_ok (h.nodup o k k2) (fun a ha => (h.live k2 a ha).1)
      have hapart : ∀ a ∈ l, a ∉ k := fun a ha => h.apart src o l k a (Ne.symm hne) l2 k2 ha
      have l5 : List.Forall₂ (fun a v => h0.cell a = some v) l vl :=
        Owned.congr l4 (fun a ha => by rw [f3, if_neg (hapart a ha)])
      have hfr0 : ∀ a, h0.next ≤ a → h0.cell a = none := by
        intro a ha
        rw [f3]
        split
        · rfl
        · exact h.fresh a (by omega)
      obtain ⟨l', h', e1, e2, e3, e4, e5, e6, e7, e8⟩ := FreeStore.cloneAll_ok hfr0 l5
      refine ⟨s.put h' o l', ?_, h.put ?_ e5 e6 e4, fun hfr hnl => hnl.put ?_⟩
      · simp only [OwnState.step]
        rw [k1]
        simp only [Res.ok_bind]
        rw [l1]
        simp only [Res.ok_bind, hc]
        rw [f1]
        simp only [Res.ok_bind]
        have : (s.put h0 o []).get src = .ok l := by
          unfold OwnState.get OwnState.put
          simp only [Function.update_of_ne (Ne.symm hne), l2]
        rw [this]
        simp only [Res.ok_bind]
        rw [e1]
        rfl
      · intro o' m hne' hm a ha
        have hla := hlt o' m hm a ha
        refine ⟨?_, fun hm => by have := e7 a hm; omega⟩
        rw [e3 a (by omega), f3, if_neg (h.apart o' o m k a hne' hm k2 ha)]
      · intro a ha
        by_cases hm : h0.next ≤ a
        · exact .inl (e8 a hm ha)
        · rw [e3 a (by omega), f3] at ha
          split at ha
          · exact absurd rfl ha
          · rename_i hk
            exact .inr ⟨ha, fun k' hk' => by rw [k2] at hk'; cases hk'; exact hk⟩
  | destroy o =>
    unfold ValueState.step at hv
    obtain ⟨vl, g1, g2⟩ := Res.bind_eq_ok.1 hv
    cases g2
    obtain ⟨l, l1, l2, l3, l4⟩ := h.get g1
    obtain ⟨h', e1, e2, e3⟩ := FreeStore.freeAll_ok (h.nodup o l l2) (fun a ha => (h.live l2 a ha).1)
    refine ⟨⟨h', Function.update s.objs o none⟩, by simp only [OwnState.step]; rw [l1]; simp only [Res.ok_bind]; rw [e1]; rfl,
      ⟨?_, ?_, ?_, ?_, ?_⟩, fun _ hnl => ?_⟩
    · intro o' ho
      by_cases e : o' = o
      · subst e; rw [Function.update_self]
      · rw [Function.update_of_ne e]
        simp only [Function.update_of_ne e] at ho
        exact h.dead o' ho
    · intro o' k hk
      by_cases e : o' = o
      · subst e; simp at hk
      · simp only [Function.update_of_ne e] at hk ⊢
        obtain ⟨wl, w1, w2⟩ := h.alive o' k hk
        exact ⟨wl, w1, Owned.congr w2 (fun a ha => by rw [e3, if_neg (h.apart o' o k l a e hk l2 ha)])⟩
    · intro o' k hk
      by_cases e : o' = o
      · subst e; simp at hk
      · simp only [Function.update_of_ne e] at hk
        exact h.nodup o' k hk
    · intro o1 o2 m1 m2 a hne h1 h2 ha
      by_cases q1 : o1 = o
      · subst q1; simp at h1
      by_cases q2 : o2 = o
      · subst q2; simp at h2
      simp only [Function.update_of_ne q1] at h1
      simp only [Function.update_of_ne q2] at h2
      exact h.apart o1 o2 m1 m2 a hne h1 h2 ha
    · intro a ha
      show h'.cell a = none
      rw [e3]
      split
      · rfl
      · exact h.fresh a (by rw [← e2]; exact ha)
    · intro a ha
      have ha : h'.cell a ≠ none := ha
      rw [e3] at ha
      split at ha
      · exact absurd rfl ha
      · rename_i hal
        obtain ⟨o', k, q1, q2⟩ := hnl a ha
        have hne : o' ≠ o := by rintro rfl; rw [l2] at q1; cases q1; exact hal q2
        exact ⟨o', k, by simp only [Function.update_of_ne hne]; exact q1, q2⟩

theorem OwnState.Owns.run {P : OwnerClass} {cs : List (OwnCall V)} : ∀ {s : OwnState V} {vs vs' : ValueState V} {obs : List (List V)},
    s.Owns vs → (∀ c ∈ cs, P.Clones c) → vs.run cs = .ok (vs', obs) →
    ∃ s', s.run P cs = .ok (s', obs) ∧ s'.Owns vs' ∧ ((∀ c ∈ cs, P.Frees c) → s.NoLeak → s'.NoLeak) := by
  induction cs with
  | nil =>
    intro s vs vs' obs h _ hv
    cases hv
    exact ⟨s, rfl, h, fun _ hn => hn⟩
  | cons c cs ih =>
    intro s vs vs' obs h hc hv
    unfold ValueState.run at hv
    obtain ⟨⟨vs1, ob⟩, v1, hv⟩ := Res.bind_eq_ok.1 hv
    obtain ⟨⟨vs2, obs'⟩, v2, hv⟩ := Res.bind_eq_ok.1 hv
    cases hv
    obtain ⟨s1, a1, a2, a3⟩ := h.step (hc c (by simp)) v1
    obtain ⟨s2, b1, b2, b3⟩ := ih a2 (fun c' h' => hc c' (by simp [h'])) v2
    refine ⟨s2, ?_, b2, fun hf hn => b3 (fun c' h' => hf c' (by simp [h'])) (a3 (hf c (by simp)) hn)⟩
    unfold OwnState.run
    rw [a1]
    simp only [Res.ok_bind]
    rw [b1]
    rfl

theorem OwnState.run_append {P : OwnerClass} {cs ds : List (OwnCall V)} : ∀ {s s' : OwnState V} {obs : List (List V)},
    s.run P cs = .ok (s', obs) → s.run P (cs ++ ds) = s'.run P ds >>= fun q => .ok (q.1, obs ++ q.2) := by
  induction cs with
  | nil =>
    intro s s' obs h
    cases h
    show s.run P ds = _
    cases s.run P ds <;> rfl
  | cons c cs ih =>
    intro s s' obs h
    unfold OwnState.run at h
    obtain ⟨r, r1, h⟩ := Res.bind_eq_ok.1 h
    obtain ⟨q, q1, h⟩ := Res.bind_eq_ok.1 h
    cases h
    rw [List.cons_append, OwnState.run.eq_2, r1]
    simp only [Res.ok_bind]
    rw [ih q1]
    cases q.1.run P ds with
    | ok x => simp [Res.ok_bind]
    | throw e => rfl
    | ub => rfl

/-- C91: any program with objects of the class, in which the class copies by cloning, behaves as the program on values: no pointer is
deleted twice or used after it was deleted, no object is changed through another, and every look sees what the value holds. -/
theorem C91_value_semantics_partial {P : OwnerClass} {cs : List (OwnCall V)} {vs : ValueState V} {obs : List (List V)}
    (hc : ∀ c ∈ cs, P.Clones c) (hv : ValueState.start.run cs = .ok (vs, obs)) :
    ∃ s, OwnState.start.run P cs = .ok (s, obs) ∧ ∀ o, s.objs o = none ↔ vs o = none := by
  obtain ⟨s, h1, h2, _⟩ := OwnState.owns_start.run hc hv
  refine ⟨s, h1, fun o => ⟨h2.dead o, fun hn => ?_⟩⟩
  cases ho : s.objs o with
  | none => rfl
  | some l =>
    obtain ⟨vl, v1, _⟩ := h2.alive o l ho
    rw [hn] at v1
    cases v1

/-- C91: the kernels of the Metropolis step and of the event smearing may be copied and assigned freely, also to themselves. -/
theorem C91_kernels {P : OwnerClass} (hP : P = .jumpPDF ∨ P = .eventConvolution) {cs : List (OwnCall V)} {vs : ValueState V}
    {obs : List (List V)} (hv : ValueState.start.run cs = .ok (vs, obs)) : ∃ s, OwnState.start.run P cs = .ok (s, obs) := by
  have hc : ∀ c ∈ cs, P.Clones c := by
    intro c _
    cases c <;> rcases hP with rfl | rfl <;> simp [OwnerClass.Clones, OwnerClass.jumpPDF, OwnerClass.eventConvolution]
  obtain ⟨s, h, _⟩ := C91_value_semantics_partial hc hv
  exact ⟨s, h⟩

/-- C91: cut collections behave as values, and leak nothing, in every program that does not assign one to itself. -/
theorem C91_cut_collection_partial {cs : List (OwnCall V)} {vs : ValueState V} {obs : List (List V)}
    (hself : ∀ o, OwnCall.assign o o ∉ cs) (hv : ValueState.start.run cs = .ok (vs, obs)) :
    ∃ s, OwnState.start.run .cutCollection cs = .ok (s, obs) ∧ s.NoLeak := by
  obtain ⟨s, h1, _, h3⟩ := OwnState.owns_start.run (P := .cutCollection) (cs := cs) (by
    intro c hc
    cases c with
    | assign o src =>
      exact .inr ⟨rfl, by rintro rfl; exact hself o hc⟩
    | _ => simp [OwnerClass.Clones, OwnerClass.cutCollection]) hv
  refine ⟨s, h1, h3 (fun c _ => by cases c <;> simp [OwnerClass.Frees, OwnerClass.cutCollection]) ?_⟩
  intro a ha
  exact absurd rfl ha

/-- C91: a program that forgets nothing and destroys every object gives all its memory back. -/
theorem C91_all_freed_partial {P : OwnerClass} {cs : List (OwnCall V)} {vs : ValueState V} {obs : List (List V)}
    (hc : ∀ c ∈ cs, P.Clones c) (hf : ∀ c ∈ cs, P.Frees c) (hv : ValueState.start.run cs = .ok (vs, obs)) (hend : ∀ o, vs o = none) :
    ∃ s, OwnState.start.run P cs = .ok (s, obs) ∧ ∀ a, s.store.cell a = none := by
  obtain ⟨s, h1, h2, h3⟩ := OwnState.owns_start.run hc hv
  refine ⟨s, h1, fun a => ?_⟩
  by_contra ha
  obtain ⟨o, l, q1, _⟩ := h3 hf (fun a ha => absurd rfl ha) a ha
  obtain ⟨vl, v1, _⟩ := h2.alive o l q1
  rw [hend o] at v1
  cases v1

theorem FreeStore.freeAll_dead {h : FreeStore V} {l : List Nat} {a : Nat} (ha : a ∈ l) (hc : h.cell a = none) : h.freeAll l = .ub := by
  induction l generalizing h with
  | nil => cases ha
  | cons b l ih =>
    unfold FreeStore.freeAll FreeStore.free
    cases hb : h.cell b with
    | none => rfl
    | some v =>
      simp only [Res.ok_bind]
      rcases List.mem_cons.1 ha with rfl | ha
      · rw [hc] at hb; cases hb
      · exact ih ha (by
          show Function.update _ _ _ _ = _
          by_cases e : a = b
          · subst e; rw [Function.update_self]
          · rw [Function.update_of_ne e]; exact hc)

theorem FreeStore.readAll_dead {h : FreeStore V} {l : List Nat} {a : Nat} (ha : a ∈ l) (hc : h.cell a = none) : h.readAll l = .ub := by
  induction l with
  | nil => cases ha
  | cons b l ih =>
    unfold FreeStore.readAll FreeStore.read
    cases hb : h.cell b with
    | none => rfl
    | some v =>
      simp only [Res.ok_bind]
      rcases List.mem_cons.1 ha with rfl | ha
      · rw [hc] at hb; cases hb
      · rw [ih ha]; rfl

/-- What happens when one of two objects that hold the same pointers is destroyed. -/
theorem OwnState.shared_dies {P : OwnerClass} {s : OwnState V} {o o' : Nat} {l : List Nat} (hne : o ≠ o') (ho : s.objs o = some l)
    (ho' : s.objs o' = some l) (hl : l ≠ []) (hn : l.Nodup) (hc : ∀ a ∈ l, s.store.cell a ≠ none) :
    s.run P [.destroy o, .destroy o'] = .ub ∧ s.run P [.destroy o, .look o'] = .ub := by
  obtain ⟨h', e1, e2, e3⟩ := FreeStore.freeAll_ok hn hc
  obtain ⟨a, ha⟩ := List.exists_mem_of_ne_nil l hl
  have hdead : h'.cell a = none := by rw [e3, if_pos ha]
  have h1 : s.step P (.destroy o) = .ok (⟨h', Function.update s.objs o none⟩, none) := by
    simp only [OwnState.step, OwnState.get, ho]
    simp only [Res.ok_bind, e1]
  have h2 : OwnState.get ⟨h', Function.update s.objs o none⟩ o' = .ok l := by
    unfold OwnState.get
    simp only [Function.update_of_ne (Ne.symm hne), ho']
  constructor <;> unfold OwnState.run <;> rw [h1] <;> simp only [Res.ok_bind] <;> unfold OwnState.run <;>
    simp only [OwnState.step, h2, Res.ok_bind]
  · rw [FreeStore.freeAll_dead ha hdead]; rfl
  · rw [FreeStore.readAll_dead ha hdead]; rfl

/-- C91: the classes with the compiler's copy — composite distributions, distribution managers, convolutions, conditional kernels — do
not: whatever the program did before, copying an object that owns something and destroying both deletes twice, and reading the one after
destroying the other reads what is gone. -/
theorem C91_shallow_copy_wrong {P : OwnerClass} (hP : P.copyDeep = false) {cs : List (OwnCall V)} {vs : ValueState V} {obs : List (List V)}
    (hc : ∀ c ∈ cs, P.Clones c) (hv : ValueState.start.run cs = .ok (vs, obs)) {o src : Nat} {v : V} {vl : List V}
    (hsrc : vs src = some (v :: vl)) (ho : vs o = none) :
    OwnState.start.run P (cs ++ [.copy o src, .destroy src, .destroy o]) = .ub ∧
    OwnState.start.run P (cs ++ [.copy o src, .destroy o, .look src]) = .ub := by
  obtain ⟨s, h1, h2, _⟩ := OwnState.owns_start.run hc hv
  obtain ⟨u1, u2⟩ := h2.unused (o := o) (by simp [ho])
  obtain ⟨l, l1, l2, l3, l4⟩ := h2.get (o := src) (vl := v :: vl) (by unfold ValueState.get; rw [hsrc])
  have hne : src ≠ o := by rintro rfl; rw [hsrc] at ho; cases ho
  have hst : s.step P (.copy o src) = .ok (s.put s.store o l, none) := by
    simp only [OwnState.step, u1, l1, Res.ok_bind, hP]
    rfl
  have g1 : (s.put s.store o l).objs o = some l := by simp [OwnState.put]
  have g2 : (s.put s.store o l).objs src = some l := by
    simp only [OwnState.put, Function.update_of_ne hne, l2]
  have hnil : l ≠ [] := by rintro rfl; cases l4
  have hlive : ∀ a ∈ l, (s.put s.store o l).store.cell a ≠ none := fun a ha => (h2.live l2 a ha).1
  refine ⟨?_, ?_⟩
  · rw [OwnState.run_append h1]
    rw [show s.run P [.copy o src, .destroy src, .destroy o] = .ub from ?_]
    · rfl
    · rw [OwnState.run.eq_2, hst]
      simp only [Res.ok_bind]
      rw [(OwnState.shared_dies (P := P) hne g2 g1 hnil (h2.nodup src l l2) hlive).1]
      rfl
  · rw [OwnState.run_append h1]
    rw [show s.run P [.copy o src, .destroy o, .look src] = .ub from ?_]
    · rfl
    · rw [OwnState.run.eq_2, hst]
      simp only [Res.ok_bind]
      rw [(OwnState.shared_dies (P := P) (Ne.symm hne) g1 g2 hnil (h2.nodup src l l2) hlive).2]
      rfl

/-- C91: nor do those with the compiler's assignment, analytic distributions among them. -/
theorem C91_shallow_assign_wrong {P : OwnerClass} (hP : P.assign = .pointers) {cs : List (OwnCall V)} {vs : ValueState V}
    {obs : List (List V)} (hc : ∀ c ∈ cs, P.Clones c) (hv : ValueState.start.run cs = .ok (vs, obs)) {o src : Nat} (hne : o ≠ src) {v : V}
    {vl wl : List V} (hsrc : vs src = some (v :: vl)) (ho : vs o = some wl) :
    OwnState.start.run P (cs ++ [.assign o src, .destroy src, .destroy o]) = .ub ∧
    OwnState.start.run P (cs ++ [.assign o src, .destroy o, .look src]) = .ub := by
  obtain ⟨s, h1, h2, _⟩ := OwnState.owns_start.run hc hv
  obtain ⟨k, k1, k2, k3, k4⟩ := h2.get (o := o) (vl := wl) (by unfold ValueState.get; rw [ho])
  obtain ⟨l, l1, l2, l3, l4⟩ := h2.get (o := src) (vl := v :: vl) (by unfold ValueState.get; rw [hsrc])
  have hst : s.step P (.assign o src) = .ok (s.put s.store o l, none) := by
    simp only [OwnState.step, k1, l1, Res.ok_bind, hP]
  have g1 : (s.put s.store o l).objs o = some l := by simp [OwnState.put]
  have g2 : (s.put s.store o l).objs src = some l := by
    simp only [OwnState.put, Function.update_of_ne (Ne.symm hne), l2]
  have hnil : l ≠ [] := by rintro rfl; cases l4
  have hlive : ∀ a ∈ l, (s.put s.store o l).store.cell a ≠ none := fun a ha => (h2.live l2 a ha).1
  refine ⟨?_, ?_⟩
  · rw [OwnState.run_append h1]
    rw [show s.run P [.assign o src, .destroy src, .destroy o] = .ub from ?_]
    · rfl
    · rw [OwnState.run.eq_2, hst]
      simp only [Res.ok_bind]
      rw [(OwnState.shared_dies (P := P) (Ne.symm hne) g2 g1 hnil (h2.nodup src l l2) hlive).1]
      rfl
  · rw [OwnState.run_append h1]
    rw [show s.run P [.assign o src, .destroy o, .look src] = .ub from ?_]
    · rfl
    · rw [OwnState.run.eq_2, hst]
      simp only [Res.ok_bind]
      rw [(OwnState.shared_dies (P := P) hne g1 g2 hnil (h2.nodup src l l2) hlive).2]
      rfl

/-- C91: a cut collection assigned to itself loses its cuts, whatever the program did before. -/
theorem C91_self_assign_wrong {cs : List (OwnCall V)} {vs : ValueState V} {obs : List (List V)}
    (hself : ∀ o, OwnCall.assign o o ∉ cs) (hv : ValueState.start.run cs = .ok (vs, obs)) {o : Nat} {vl : List V} (ho : vs o = some vl) :
    ∃ s, OwnState.start.run .cutCollection (cs ++ [.assign o o, .look o]) = .ok (s, obs ++ [[]]) := by
  obtain ⟨s, h1, h2, _⟩ := OwnState.owns_start.run (P := .cutCollection) (cs := cs) (by
    intro c hc
    cases c with
    | assign o src => exact .inr ⟨rfl, by rintro rfl; exact hself o hc⟩
    | _ => simp [OwnerClass.Clones, OwnerClass.cutCollection]) hv
  obtain ⟨l, l1, l2, l3, l4⟩ := h2.get (o := o) (vl := vl) (by unfold ValueState.get; rw [ho])
  obtain ⟨h', e1, e2, e3⟩ := FreeStore.freeAll_ok (h2.nodup o l l2) (fun a ha => (h2.live l2 a ha).1)
  have hg : ∀ st, (s.put st o []).get o = .ok [] := by intro st; simp [OwnState.get, OwnState.put]
  have hst : s.step .cutCollection (.assign o o) = .ok (s.put h' o [], none) := by
    simp only [OwnState.step, l1, Res.ok_bind, OwnerClass.cutCollection, e1, hg]
    rfl
  refine ⟨s.put h' o [], ?_⟩
  rw [OwnState.run_append h1, OwnState.run.eq_2, hst]
  simp only [Res.ok_bind]
  rw [OwnState.run.eq_2]
  simp only [OwnState.step, hg, Res.ok_bind]
  rfl

/-- C91: assignments that clone without deleting lose track of what the object owned, whatever the program did before. -/
theorem C91_assign_leaks_wrong {P : OwnerClass} (hP : P.assign = .cloneForgetting) {cs : List (OwnCall V)} {vs : ValueState V}
    {obs : List (List V)} (hc : ∀ c ∈ cs, P.Clones c) (hv : ValueState.start.run cs = .ok (vs, obs)) {o src : Nat} {v : V}
    {vl wl : List V} (ho : vs o = some (v :: vl)) (hsrc : vs src = some wl) :
    ∃ s, OwnState.start.run P (cs ++ [.assign o src]) = .ok (s, obs) ∧ ¬ s.NoLeak := by
  obtain ⟨s, h1, h2, _⟩ := OwnState.owns_start.run hc hv
  obtain ⟨k, k1, k2, k3, k4⟩ := h2.get (o := o) (vl := v :: vl) (by unfold ValueState.get; rw [ho])
  obtain ⟨l, l1, l2, l3, l4⟩ := h2.get (o := src) (vl := wl) (by unfold ValueState.get; rw [hsrc])
  obtain ⟨l', h', e1, e2, e3, e4, e5, e6, e7, e8⟩ := FreeStore.cloneAll_ok h2.fresh l4
  have hst : s.step P (.assign o src) = .ok (s.put h' o l', none) := by
    simp only [OwnState.step, k1, l1, Res.ok_bind, hP, e1]
  refine ⟨s.put h' o l', ?_, fun hnl => ?_⟩
  · rw [OwnState.run_append h1, OwnState.run.eq_2, hst]
    simp [OwnState.run]
  · obtain ⟨a, ha⟩ := List.exists_mem_of_ne_nil k (by rintro rfl; cases k4)
    obtain ⟨q1, q2⟩ := h2.live k2 a ha
    obtain ⟨o', m, m1, m2⟩ := hnl a (by show h'.cell a ≠ none; rw [e3 a q2]; exact q1)
    by_cases e : o' = o
    · subst e
      simp only [OwnState.put, Function.update_self, Option.some.injEq] at m1
      subst m1
      have := e7 a m2
      omega
    · simp only [OwnState.put, Function.update_of_ne e] at m1
      exact h2.apart o' o m k a e m1 k2 m2 ha

/-- C91: replacing the kernel of an event convolution loses track of the old one, whatever the program did before. -/
theorem C91_set_leaks_wrong {P : OwnerClass} (hP : P.setFrees = false) {cs : List (OwnCall V)} {vs : ValueState V}
    {obs : List (List V)} (hc : ∀ c ∈ cs, P.Clones c) (hv : ValueState.start.run cs = .ok (vs, obs)) {o : Nat} {v w : V}
    {vl : List V} (ho : vs o = some (v :: vl)) :
    ∃ s, OwnState.start.run P (cs ++ [.set o w]) = .ok (s, obs) ∧ ¬ s.NoLeak := by
  obtain ⟨s, h1, h2, _⟩ := OwnState.owns_start.run hc hv
  obtain ⟨k, k1, k2, k3, k4⟩ := h2.get (o := o) (vl := v :: vl) (by unfold ValueState.get; rw [ho])
  have hst : s.step P (.set o w) = .ok (s.put (s.store.alloc w).2 o [(s.store.alloc w).1], none) := by
    simp only [OwnState.step, k1, Res.ok_bind, hP]
    rfl
  refine ⟨s.put (s.store.alloc w).2 o [(s.store.alloc w).1], ?_, fun hnl => ?_⟩
  · rw [OwnState.run_append h1, OwnState.run.eq_2, hst]
    simp [OwnState.run]
  · obtain ⟨a, ha⟩ := List.exists_mem_of_ne_nil k (by rintro rfl; cases k4)
    obtain ⟨q1, q2⟩ := h2.live k2 a ha
    obtain ⟨o', m, m1, m2⟩ := hnl a (by
      show Function.update s.store.cell s.store.next (some w) a ≠ none
      rw [Function.update_of_ne (by omega)]; exact q1)
    by_cases e : o' = o
    · subst e
      simp only [OwnState.put, Function.update_self, Option.some.injEq] at m1
      subst m1
      have : a = s.store.next := List.mem_singleton.1 m2
      omega
    · simp only [OwnState.put, Function.update_of_ne e] at m1
      exact h2.apart o' o m k a e m1 k2 m2 ha

/-- A program that copies a cut collection, changes the copy, assigns it back and destroys everything. -/
def exOwnProgram : List (OwnCall Nat) :=
  [.construct 0, .add 0 10, .add 0 11, .copy 1 0, .modify 1 0 20, .look 0, .look 1, .assign 0 1, .add 1 12, .look 0, .look 1,
   .destroy 0, .look 1, .destroy 1]

/-- On values the original keeps its parts until it is assigned, and then has those of the copy. -/
example : ((ValueState.start.run exOwnProgram).toOption.map (·.2)) = some [[10, 11], [20, 11], [20, 11], [20, 11, 12], [20, 11, 12]] := rfl

/-- … and the cut collections do the same. -/
example : ((OwnState.start.run .cutCollection exOwnProgram).toOption.map (·.2)) =
    some [[10, 11], [20, 11], [20, 11], [20, 11, 12], [20, 11, 12]] := rfl

/-- The hypotheses hold of it. -/
example : (∀ c ∈ exOwnProgram, OwnerClass.Clones .cutCollection c) ∧ (∀ c ∈ exOwnProgram, OwnerClass.Frees .cutCollection c) ∧
    ∀ o, OwnCall.assign o o ∉ exOwnProgram := by
  refine ⟨?_, ?_, ?_⟩ <;> simp [exOwnProgram, OwnerClass.Clones, OwnerClass.Frees, OwnerClass.cutCollection]

/-- Every class met in the wrong cases is one of the repository's. -/
example : OwnerClass.compositeED.copyDeep = false ∧ OwnerClass.edManager.copyDeep = false ∧ OwnerClass.convolution.copyDeep = false ∧
    OwnerClass.varyingCDF.copyDeep = false ∧ OwnerClass.analyticED.assign = .pointers ∧ OwnerClass.jumpPDF.assign = .cloneForgetting ∧
    OwnerClass.eventConvolution.setFrees = false := ⟨rfl, rfl, rfl, rfl, rfl, rfl, rfl⟩

/-- A composite distribution that owns two parts, and one number not used yet. -/
example : ∃ vs : ValueState Nat, ValueState.start.run [.construct 0, .add 0 10, .add 0 11, .construct 1] = .ok (vs, []) ∧
    vs 0 = some [10, 11] ∧ vs 1 = some [] ∧ vs 2 = none := ⟨_, rfl, rfl, rfl, rfl⟩

end Oxsx
