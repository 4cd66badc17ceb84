import Verif.Lemmas.PdfManager
import Verif.Lemmas.Rel
/- The calls a likelihood makes on the distribution manager depend on the configuration only. -/
set_option linter.unusedSectionVars false
set_option linter.unusedSimpArgs false
set_option linter.unusedVariables false
namespace Oxsx
variable {α : Type} [Field α] [LinearOrder α]
namespace PdfManager

/-- Same configuration; working distributions and derived normalisations may differ. -/
structure Same (m n : PdfManager α) : Prop where
  orig : m.orig = n.orig
  status : m.status = n.status
  fit : m.fitNorms = n.fitNorms
  alld : m.allDirect = n.allDirect
  params : m.params = n.params
  wlen : m.work.length = n.work.length
  nlen : m.norms.length = n.norms.length
  dnorms : m.allDirect = true → m.norms = n.norms

theorem Same.refl (m : PdfManager α) : Same m m := ⟨rfl, rfl, rfl, rfl, rfl, rfl, rfl, fun _ => rfl⟩

theorem Same.symm {m n : PdfManager α} (h : Same m n) : Same n m :=
  ⟨h.orig.symm, h.status.symm, h.fit.symm, h.alld.symm, h.params.symm, h.wlen.symm, h.nlen.symm,
    fun ha => (h.dnorms (h.alld.trans ha)).symm⟩

theorem Same.trans {m n k : PdfManager α} (h : Same m n) (h' : Same n k) : Same m k :=
  ⟨h.orig.trans h'.orig, h.status.trans h'.status, h.fit.trans h'.fit, h.alld.trans h'.alld, h.params.trans h'.params,
    h.wlen.trans h'.wlen, h.nlen.trans h'.nlen, fun ha => (h.dnorms ha).trans (h'.dnorms (h.alld ▸ ha))⟩

/-- The normalisations agree at the positions in `X`. -/
def AgreeN (X : Nat → Prop) (m n : PdfManager α) : Prop := ∀ i, X i → m.norms[i]? = n.norms[i]?

theorem ext' {m n : PdfManager α} (h : Same m n) (hw : m.work = n.work) (hn : m.norms = n.norms) : m = n := by
  cases m; cases n
  have h1 := h.orig
  have h2 := h.status
  have h3 := h.fit
  have h4 := h.alld
  have h5 := h.params
  simp only at h1 h2 h3 h4 h5 hw hn
  subst h1 h2 h3 h4 h5 hw hn
  rfl

theorem reassert_rel {m n : PdfManager α} (h : Same m n) (b : Bool) (X : Nat → Prop) (hX : AgreeN X m n) :
    Res.Rel (fun m' n' => Same m' n' ∧ m'.work = m.work ∧ n'.work = n.work ∧
      AgreeN (fun i => X i ∨ m.status[i]? = some (if b then NormStatus.direct else NormStatus.indirect)) m' n')
      (m.reassertNorms b) (n.reassertNorms b) := by
  unfold reassertNorms
  by_cases ha : m.allDirect = true
  · rw [if_pos ha, if_pos (show n.allDirect = true from h.alld ▸ ha)]
    exact ⟨h, rfl, rfl, fun i _ => by rw [h.dnorms ha]⟩
  · rw [if_neg ha, if_neg (show ¬ n.allDirect = true from h.alld ▸ ha)]
    generalize ht : (if b then NormStatus.direct else NormStatus.indirect) = t
    have hloop : Res.Rel (fun (s t' : List α × Nat) => s.1.length = m.norms.length ∧ t'.1.length = m.norms.length ∧ s.2 = t'.2 ∧
        ∀ i, (X i ∨ (i < m.norms.length ∧ m.status[i]? = some t)) → s.1[i]? = t'.1[i]?)
        (Res.forFold (m.reassertStep b) (m.norms, 0) (List.range m.norms.length))
        (Res.forFold (n.reassertStep b) (n.norms, 0) (List.range m.norms.length)) := by
      refine Res.Rel.forFold_range (fun k (s t' : List α × Nat) => s.1.length = m.norms.length ∧
        t'.1.length = m.norms.length ∧ s.2 = t'.2 ∧
        ∀ i, (X i ∨ (i < k ∧ m.status[i]? = some t)) → s.1[i]? = t'.1[i]?) _ ⟨rfl, h.nlen.symm, rfl, ?_⟩ ?_
      · rintro i (hi | ⟨hi, _⟩)
        · exact hX i hi
        · omega
      · rintro k ⟨s, j⟩ ⟨s', j'⟩ hk ⟨hl1, hl2, hj, hag⟩
        simp only at hl1 hl2 hj hag
        subst hj
        unfold reassertStep
        rw [ht, ← h.status, ← h.fit]
        cases hst : at_ m.status k with
        | throw e => exact rfl
        | ub => trivial
        | ok st =>
          have hst' := at_ok.1 hst
          simp only [Res.ok_bind]
          by_cases hc : st = t
          · rw [if_pos hc, if_pos hc]
            cases hv : at_ m.fitNorms j with
            | throw e => exact rfl
            | ub => trivial
            | ok v =>
              simp only [Res.ok_bind]
              rw [setIdx_of_lt (by omega), setIdx_of_lt (by omega)]
              refine ⟨by simpa using hl1, by simpa using hl2, rfl, ?_⟩
              intro i hi
              simp only [List.getElem?_set]
              by_cases hik : k = i
              · subst hik
                rw [if_pos rfl, if_pos rfl, if_pos (by omega), if_pos (by omega)]
              · rw [if_neg hik, if_neg hik]
                refine hag i ?_
                rcases hi with hi | ⟨hi, he⟩
                · exact Or.inl hi
                · exact Or.inr ⟨by omega, he⟩
          · rw [if_neg hc, if_neg hc]
            refine ⟨hl1, hl2, rfl, ?_⟩
            intro i hi
            refine hag i ?_
            rcases hi with hi | ⟨hi, he⟩
            · exact Or.inl hi
            · refine Or.inr ⟨?_, he⟩
              rcases Nat.lt_succ_iff_lt_or_eq.1 hi with h' | h'
              · exact h'
              · subst h'
                rw [hst'] at he
                exact absurd (Option.some.inj he) hc
    rw [← h.nlen]
    refine Res.Rel.bind hloop ?_
    rintro ⟨s, j⟩ ⟨s', j'⟩ ⟨hl1, hl2, hj, hag⟩
    simp only at hl1 hl2 hag
    refine ⟨⟨h.orig, h.status, h.fit, h.alld, h.params, h.wlen, by simp [hl1, hl2], fun h' => absurd h' ha⟩, rfl, rfl, ?_⟩
    rintro i (hi | hi)
    · exact hag i (Or.inl hi)
    · by_cases hil : i < m.norms.length
      · exact hag i (Or.inr ⟨hil, hi⟩)
      · show s[i]? = s'[i]?
        rw [List.getElem?_eq_none (by omega), List.getElem?_eq_none (by omega)]

/-- The distribution at `j` is one the systematic manager distorts. -/
def Registered (sm : SysManager α) (orig : List (BinnedED α)) (j : Nat) : Prop :=
  ∃ o gs, orig[j]? = some o ∧ SMap.find sm.edGroups o.name = some gs

theorem distort_rel (sm : SysManager α) (orig : List (BinnedED α)) (w w' : List (BinnedED α)) (hl : w.length = w'.length)
    (ns : Option (List α)) (Y : Nat → Prop) (hY : ∀ j, Y j → w[j]? = w'[j]?) :
    Res.Rel (fun (s t : List (BinnedED α) × Option (List α)) => s.2 = t.2 ∧ s.1.length = w.length ∧ t.1.length = w.length ∧
      ∀ j, (Y j ∨ Registered sm orig j) → s.1[j]? = t.1[j]?)
      (sm.distortEDs orig w ns) (sm.distortEDs orig w' ns) := by
  unfold SysManager.distortEDs
  rw [← hl]
  refine Res.Rel.mono (Res.Rel.forFold_range (fun k (s t : List (BinnedED α) × Option (List α)) => s.2 = t.2 ∧
      s.1.length = w.length ∧ t.1.length = w.length ∧
      ∀ j, (Y j ∨ (j < k ∧ Registered sm orig j)) → s.1[j]? = t.1[j]?) _ ⟨rfl, rfl, hl.symm, ?_⟩ ?_) ?_
  · rintro j (hj | ⟨hj, _⟩)
    · exact hY j hj
    · omega
  · rintro k ⟨s, ns1⟩ ⟨s', ns2⟩ hk ⟨hn, hl1, hl2, hag⟩
    simp only at hn hl1 hl2 hag
    subst hn
    cases ho : at_ orig k with
    | throw e => exact rfl
    | ub => trivial
    | ok o =>
      have ho' := at_ok.1 ho
      simp only [Res.ok_bind]
      cases hf : SMap.find sm.edGroups o.name with
      | none =>
        refine ⟨rfl, hl1, hl2, ?_⟩
        rintro j (hj | ⟨hj, hr⟩)
        · exact hag j (Or.inl hj)
        · refine hag j (Or.inr ⟨?_, hr⟩)
          rcases Nat.lt_succ_iff_lt_or_eq.1 hj with h' | h'
          · exact h'
          · subst h'
            obtain ⟨o', gs, h1, h2⟩ := hr
            rw [ho'] at h1; cases h1
            rw [hf] at h2; cases h2
      | some gs =>
        simp only
        cases hd : sm.distort o gs with
        | throw e => exact rfl
        | ub => trivial
        | ok d =>
          simp only [Res.ok_bind]
          rw [setIdx_of_lt (by omega), setIdx_of_lt (by omega)]
          simp only [Res.ok_bind]
          have hagree : ∀ j, (Y j ∨ (j < k + 1 ∧ Registered sm orig j)) → (s.set k d)[j]? = (s'.set k d)[j]? := by
            intro j hj
            simp only [List.getElem?_set]
            by_cases hjk : k = j
            · subst hjk
              rw [if_pos rfl, if_pos rfl, if_pos (by omega), if_pos (by omega)]
            · rw [if_neg hjk, if_neg hjk]
              refine hag j ?_
              rcases hj with hj | ⟨hj, hr⟩
              · exact Or.inl hj
              · exact Or.inr ⟨by omega, hr⟩
          cases ns1 with
          | none => exact ⟨rfl, by simpa using hl1, by simpa using hl2, hagree⟩
          | some l =>
            simp only
            cases hsl : setIdx l k d.hist.integral with
            | throw e => exact rfl
            | ub => trivial
            | ok l' => exact ⟨rfl, by simpa using hl1, by simpa using hl2, hagree⟩
  · rintro ⟨s, ns1⟩ ⟨s', ns2⟩ _ _ ⟨hn, hl1, hl2, hag⟩
    refine ⟨hn, hl1, hl2, ?_⟩
    rintro j (hj | hj)
    · exact hag j (Or.inl hj)
    · by_cases hjl : j < w.length
      · exact hag j (Or.inr ⟨hjl, hj⟩)
      · rw [List.getElem?_eq_none (by simpa [hl1] using hjl), List.getElem?_eq_none (by simpa [hl2] using hjl)]

theorem sysNorm_rel {m n : PdfManager α} (h : Same m n) (ns a a' : List α) (hl : a.length = a'.length) (hns : ns.length = a.length)
    (X : Nat → Prop) (hX : ∀ i, X i → a[i]? = a'[i]?) (hind : ∀ i, m.status[i]? = some NormStatus.indirect → X i) :
    Res.Rel (fun (s t : List α) => s.length = a.length ∧ t.length = a.length ∧
      ∀ i, (X i ∨ m.status[i]? = some NormStatus.off) → s[i]? = t[i]?)
      (Res.forFold (m.sysNormStep ns) a (List.range ns.length)) (Res.forFold (n.sysNormStep ns) a' (List.range ns.length)) := by
  refine Res.Rel.mono (Res.Rel.forFold_range (fun k (s t : List α) => s.length = a.length ∧ t.length = a.length ∧
      ∀ i, (X i ∨ (i < k ∧ m.status[i]? = some NormStatus.off)) → s[i]? = t[i]?) _ ⟨rfl, hl.symm, ?_⟩ ?_) ?_
  · rintro i (hi | ⟨hi, _⟩)
    · exact hX i hi
    · omega
  · rintro k s s' hk ⟨hl1, hl2, hag⟩
    unfold sysNormStep
    rw [← h.status]
    cases hst : at_ m.status k with
    | throw e => exact rfl
    | ub => trivial
    | ok st =>
      have hst' := at_ok.1 hst
      simp only [Res.ok_bind]
      rw [at_of_lt hk]
      have hcase : ∀ v : α, ∀ i, (X i ∨ (i < k + 1 ∧ m.status[i]? = some NormStatus.off)) → (s.set k v)[i]? = (s'.set k v)[i]? := by
        intro v i hi
        simp only [List.getElem?_set]
        by_cases hik : k = i
        · subst hik
          rw [if_pos rfl, if_pos rfl, if_pos (by omega), if_pos (by omega)]
        · rw [if_neg hik, if_neg hik]
          refine hag i ?_
          rcases hi with hi | ⟨hi, he⟩
          · exact Or.inl hi
          · exact Or.inr ⟨by omega, he⟩
      cases st with
      | direct =>
        refine ⟨hl1, hl2, ?_⟩
        rintro i (hi | ⟨hi, he⟩)
        · exact hag i (Or.inl hi)
        · refine hag i (Or.inr ⟨?_, he⟩)
          rcases Nat.lt_succ_iff_lt_or_eq.1 hi with h' | h'
          · exact h'
          · subst h'; rw [hst'] at he; cases he
      | off =>
        simp only [Res.ok_bind]
        rw [setIdx_of_lt (by omega), setIdx_of_lt (by omega)]
        exact ⟨by simpa using hl1, by simpa using hl2, hcase _⟩
      | indirect =>
        simp only [Res.ok_bind]
        have hk' : s[k]? = s'[k]? := hag k (Or.inl (hind k hst'))
        have e1 : s[k]? = some s[k] := by simp [show k < s.length by omega]
        rw [show idx s k = .ok s[k] from idx_ok.2 e1, show idx s' k = .ok s[k] from idx_ok.2 (hk' ▸ e1)]
        simp only [Res.ok_bind]
        rw [setIdx_of_lt (by omega), setIdx_of_lt (by omega)]
        exact ⟨by simpa using hl1, by simpa using hl2, hcase _⟩
  · rintro s s' _ _ ⟨hl1, hl2, hag⟩
    refine ⟨hl1, hl2, ?_⟩
    rintro i (hi | hi)
    · exact hag i (Or.inl hi)
    · by_cases hil : i < ns.length
      · exact hag i (Or.inr ⟨hil, hi⟩)
      · rw [List.getElem?_eq_none (by omega), List.getElem?_eq_none (by omega)]

theorem apply_rel {m n : PdfManager α} (h : Same m n) (sm : SysManager α) (X Y : Nat → Prop) (hX : AgreeN X m n)
    (hind : ∀ i, m.status[i]? = some NormStatus.indirect → X i) (hwn : m.norms.length = m.work.length)
    (hY : ∀ j, Y j → m.work[j]? = n.work[j]?) :
    Res.Rel (fun m' n' => Same m' n' ∧ m'.norms.length = m'.work.length ∧
      (∀ j, (Y j ∨ (sm.countSystematics ≠ 0 ∧ Registered sm m.orig j)) → m'.work[j]? = n'.work[j]?) ∧
      (sm.countSystematics = 0 → m' = m ∧ n' = n) ∧
      AgreeN (fun i => X i ∨ (sm.countSystematics ≠ 0 ∧ m.status[i]? = some NormStatus.off)) m' n')
      (m.applySystematics sm) (n.applySystematics sm) := by
  unfold applySystematics
  by_cases h0 : sm.countSystematics = 0
  · rw [if_pos h0, if_pos h0]
    refine ⟨h, hwn, ?_, fun _ => ⟨rfl, rfl⟩, ?_⟩
    · rintro j (hj | ⟨hj, _⟩)
      · exact hY j hj
      · exact absurd h0 hj
    · rintro i (hi | ⟨hi, _⟩)
      · exact hX i hi
      · exact absurd h0 hi
  · rw [if_neg h0, if_neg h0]
    by_cases ha : m.allDirect = true
    · rw [if_pos ha, if_pos (show n.allDirect = true from h.alld ▸ ha), ← h.orig]
      refine Res.Rel.bind (distort_rel sm m.orig m.work n.work h.wlen none Y hY) ?_
      rintro ⟨w, s⟩ ⟨w', s'⟩ ⟨hn, hl1, hl2, hag⟩
      refine ⟨⟨rfl, h.status, h.fit, h.alld, h.params, by simp only at hl1 hl2 ⊢; omega, h.nlen, h.dnorms⟩,
        by simp only at hl1 ⊢; omega, ?_, fun h' => absurd h' h0, fun i _ => by show m.norms[i]? = n.norms[i]?; rw [h.dnorms ha]⟩
      rintro j (hj | ⟨_, hj⟩)
      · exact hag j (Or.inl hj)
      · exact hag j (Or.inr hj)
    · rw [if_neg ha, if_neg (show ¬ n.allDirect = true from h.alld ▸ ha), ← h.orig, ← h.nlen]
      refine Res.Rel.bind (R := fun (s t : List (BinnedED α) × Option (List α)) => s.2 = t.2 ∧ s.1.length = m.work.length ∧
        t.1.length = m.work.length ∧ (∀ j, (Y j ∨ Registered sm m.orig j) → s.1[j]? = t.1[j]?) ∧
        s.2.map List.length = some m.norms.length) ?_ ?_
      · refine Res.Rel.mono (distort_rel sm m.orig m.work n.work h.wlen _ Y hY) ?_
        rintro ⟨w, s⟩ ⟨w', s'⟩ he _ ⟨hn, hl1, hl2, hag⟩
        refine ⟨hn, hl1, hl2, hag, ?_⟩
        rw [(distortEDs_len he).2]; simp
      · rintro ⟨w, s⟩ ⟨w', s'⟩ ⟨hn, hl1, hl2, hag, hlen⟩
        simp only at hn hl1 hl2 hag hlen
        subst hn
        obtain ⟨l, rfl⟩ : ∃ l, s = some l := by
          cases s with
          | none => cases hlen
          | some l => exact ⟨l, rfl⟩
        simp only [Option.map_some, Option.some.injEq] at hlen
        simp only [Option.getD_some]
        refine Res.Rel.bind (sysNorm_rel h l m.norms n.norms h.nlen hlen X hX hind) ?_
        intro s s' ⟨k1, k2, k3⟩
        refine ⟨⟨rfl, h.status, h.fit, h.alld, h.params, by simp only; omega, by simp only; omega, fun h' => absurd h' ha⟩,
          by simp only; omega, ?_, fun h' => absurd h' h0, ?_⟩
        · rintro j (hj | ⟨_, hj⟩)
          · exact hag j (Or.inl hj)
          · exact hag j (Or.inr hj)
        · rintro i (hi | ⟨_, hi⟩)
          · exact k3 i (Or.inl hi)
          · exact k3 i (Or.inr hi)

/-- What `AssertDimensions` does to one distribution. -/
def toDims (obs : List String) (d : BinnedED α) : Res (BinnedED α) :=
  if d.obs.names ≠ obs then d.marginalise obs else pure d

theorem assert_rel {m n : PdfManager α} (h : Same m n) (obs : List String)
    (hw : ∀ j : Nat, (m.work[j]?).map (toDims obs) = (n.work[j]?).map (toDims obs)) :
    Res.Rel (fun m' n' => Same m' n' ∧ m'.work = n'.work ∧ m'.norms = m.norms ∧ n'.norms = n.norms ∧ m'.work.length = m.work.length)
      (m.assertDimensions obs) (n.assertDimensions obs) := by
  unfold assertDimensions
  have hl : m.work.map (toDims obs) = n.work.map (toDims obs) := by
    apply List.ext_getElem?
    intro j
    rw [List.getElem?_map, List.getElem?_map]; exact hw j
  have he : Res.traverse (toDims obs) m.work = Res.traverse (toDims obs) n.work := by
    have e1 := Res.traverse_map (fun x : Res (BinnedED α) => x) (toDims obs) m.work
    have e2 := Res.traverse_map (fun x : Res (BinnedED α) => x) (toDims obs) n.work
    rw [← e1, ← e2, hl]
  show Res.Rel _ (Res.traverse (toDims obs) m.work >>= fun w => pure { m with work := w })
    (Res.traverse (toDims obs) n.work >>= fun w => pure { n with work := w })
  rw [← he]
  cases ht : Res.traverse (toDims obs) m.work with
  | throw e => exact rfl
  | ub => trivial
  | ok w =>
    exact ⟨⟨h.orig, h.status, h.fit, h.alld, h.params, rfl, h.nlen, h.dnorms⟩, rfl, rfl, rfl, Res.traverse_length ht⟩

theorem shrink_rel {m n : PdfManager α} (h : Same m n) (hw : m.work = n.work) (hwn : m.norms.length = m.work.length)
    (s : Shrinker α) (hX : AgreeN (fun i => m.status[i]? ≠ some NormStatus.direct) m n) :
    Res.Rel (fun m' n' => Same m' n' ∧ m'.work = n'.work ∧ AgreeN (fun i => m.status[i]? ≠ some NormStatus.direct) m' n' ∧
      m'.status = m.status)
      (m.applyShrink s) (n.applyShrink s) := by
  unfold applyShrink
  by_cases hb : s.buffers = []
  · rw [if_pos hb, if_pos hb]
    exact ⟨h, hw, hX, rfl⟩
  · rw [if_neg hb, if_neg hb, ← hw, ← h.orig]
    simp only
    cases at_ m.work 0 with
    | throw e => exact rfl
    | ub => trivial
    | ok w0 =>
      simp only [Res.ok_bind]
      cases at_ m.orig 0 with
      | throw e => exact rfl
      | ub => trivial
      | ok o0 =>
        simp only [Res.ok_bind]
        split
        · exact ⟨h, hw, hX, rfl⟩
        · split
          · exact rfl
          · refine Res.Rel.mono (Res.Rel.forFold_range (fun k (a b : PdfManager α) => Same a b ∧ a.work = b.work ∧
              a.norms.length = m.work.length ∧ a.work.length = m.work.length ∧ a.status = m.status ∧
              AgreeN (fun i => m.status[i]? ≠ some NormStatus.direct) a b) _ ⟨h, hw, hwn, rfl, rfl, hX⟩ ?_) ?_
            · rintro k a b hk ⟨hab, hwab, hnl, hwl, hsm, hag⟩
              unfold shrinkStep
              rw [← hwab, ← hab.status]
              cases hw0 : at_ a.work k with
              | throw e => exact rfl
              | ub => trivial
              | ok w =>
                simp only [Res.ok_bind]
                cases hsd : s.shrinkDist w with
                | throw e => exact rfl
                | ub => trivial
                | ok w' =>
                  simp only [Res.ok_bind]
                  cases hst : at_ a.status k with
                  | throw e => exact rfl
                  | ub => trivial
                  | ok st =>
                    have hst' := at_ok.1 hst
                    simp only [Res.ok_bind]
                    have hkn : k < a.norms.length := by omega
                    have hknb : k < b.norms.length := by rw [← hab.nlen]; omega
                    have hagree : ∀ v : α, ∀ i : Nat, m.status[i]? ≠ some NormStatus.direct → (a.norms.set k v)[i]? = (b.norms.set k v)[i]? := by
                      intro v i hi
                      simp only [List.getElem?_set]
                      by_cases hik : k = i
                      · subst hik
                        rw [if_pos rfl, if_pos rfl, if_pos hkn, if_pos hknb]
                      · rw [if_neg hik, if_neg hik]; exact hag i hi
                    have hdn : ∀ v : α, a.allDirect = true → a.norms.set k v = b.norms.set k v := by
                      intro v h'; rw [hab.dnorms h']
                    cases st with
                    | direct =>
                      simp only
                      rw [setIdx_of_lt (by omega)]
                      simp only [Res.ok_bind]
                      exact ⟨⟨hab.orig, rfl, hab.fit, hab.alld, hab.params, rfl, hab.nlen, hab.dnorms⟩, rfl, hnl,
                        by simpa using hwl, hsm, hag⟩
                    | off =>
                      simp only
                      rw [setIdx_of_lt (by omega), setIdx_of_lt hkn, setIdx_of_lt hknb]
                      simp only [Res.ok_bind]
                      exact ⟨⟨hab.orig, rfl, hab.fit, hab.alld, hab.params, rfl, by simpa using hab.nlen, hdn _⟩, rfl,
                        by simpa using hnl, by simpa using hwl, hsm, hagree _⟩
                    | indirect =>
                      simp only
                      rw [setIdx_of_lt (by omega)]
                      simp only [Res.ok_bind]
                      have e1 : a.norms[k]? = some a.norms[k] := by simp [hkn]
                      have e2 := hag k (by show m.status[k]? ≠ _; rw [← hsm, hst']; simp)
                      rw [show idx a.norms k = .ok a.norms[k] from idx_ok.2 e1,
                        show idx b.norms k = .ok a.norms[k] from idx_ok.2 (e2 ▸ e1)]
                      simp only [Res.ok_bind]
                      rw [setIdx_of_lt hkn, setIdx_of_lt hknb]
                      simp only [Res.ok_bind]
                      exact ⟨⟨hab.orig, rfl, hab.fit, hab.alld, hab.params, rfl, by simpa using hab.nlen, hdn _⟩, rfl,
                        by simpa using hnl, by simpa using hwl, hsm, hagree _⟩
            · rintro a b _ _ ⟨h1, h2, _, _, h4, h3⟩
              exact ⟨h1, h2, h3, h4⟩

/-- The working distribution at `j` is not written by the systematics. -/
def Kept (sm : SysManager α) (orig : List (BinnedED α)) (j : Nat) : Prop := sm.countSystematics = 0 ∨ ¬ Registered sm orig j

theorem distort_kept {sm : SysManager α} {orig w w' : List (BinnedED α)} {ns ns' : Option (List α)}
    (h : sm.distortEDs orig w ns = .ok (w', ns')) {j : Nat} (hj : ¬ Registered sm orig j) : w'[j]? = w[j]? := by
  unfold SysManager.distortEDs at h
  refine Res.forFold_inv (fun (s : List (BinnedED α) × Option (List α)) => s.1[j]? = w[j]?) rfl h ?_
  rintro ⟨s, n⟩ k ⟨t, n'⟩ hs hk ht
  obtain ⟨o, ho, ht⟩ := Res.bind_eq_ok.1 ht
  have ho' := at_ok.1 ho
  cases hf : SMap.find sm.edGroups o.name with
  | none => rw [hf] at ht; cases ht; exact hs
  | some gs =>
    rw [hf] at ht
    simp only at ht
    obtain ⟨d, hd, ht⟩ := Res.bind_eq_ok.1 ht
    obtain ⟨l, hl, ht⟩ := Res.bind_eq_ok.1 ht
    have hkj : k ≠ j := by
      intro hkj; subst hkj
      exact hj ⟨o, gs, ho', hf⟩
    have hl' : l[j]? = s[j]? := by
      unfold setIdx at hl
      split at hl
      · cases hl; rw [List.getElem?_set_ne hkj]
      · cases hl
    cases n with
    | none => cases ht; simp only at hs ⊢; rw [hl', hs]
    | some n =>
      simp only at ht
      obtain ⟨l2, _, ht⟩ := Res.bind_eq_ok.1 ht
      cases ht; simp only at hs ⊢; rw [hl', hs]

theorem apply_kept {m m' : PdfManager α} {sm : SysManager α} (h : m.applySystematics sm = .ok m') {j : Nat}
    (hj : Kept sm m.orig j) : m'.work[j]? = m.work[j]? := by
  unfold applySystematics at h
  by_cases h0 : sm.countSystematics = 0
  · rw [if_pos h0] at h; cases h; rfl
  · rw [if_neg h0] at h
    have hr : ¬ Registered sm m.orig j := hj.resolve_left h0
    by_cases ha : m.allDirect = true
    · rw [if_pos ha] at h
      obtain ⟨⟨w, n⟩, hw, h⟩ := Res.bind_eq_ok.1 h
      cases h
      exact distort_kept hw hr
    · rw [if_neg ha] at h
      obtain ⟨⟨w, n⟩, hw, h⟩ := Res.bind_eq_ok.1 h
      simp only at h
      obtain ⟨ns, _, h⟩ := Res.bind_eq_ok.1 h
      cases h
      exact distort_kept hw hr

/-- Two managers a likelihood cannot tell apart. -/
structure Agree (sm : SysManager α) (obs : List String) (m n : PdfManager α) : Prop where
  same : Same m n
  len : m.norms.length = m.work.length
  slen : m.status.length = m.work.length
  off : sm.countSystematics = 0 → ∀ i : Nat, m.status[i]? = some NormStatus.off → m.norms[i]? = n.norms[i]?
  works : ∀ j : Nat, Kept sm m.orig j → (m.work[j]?).map (toDims obs) = (n.work[j]?).map (toDims obs)

/-- The calls after the systematics have been constructed. -/
def late (sm : SysManager α) (obs : List String) (s : Shrinker α) (m : PdfManager α) : Res (PdfManager α) := do
  let m ← m.applySystematics sm
  let m ← m.assertDimensions obs
  m.applyShrink s

/-- Two managers before the loop over bins: they differ at most in normalisations of status `direct`. -/
structure Ready (m n : PdfManager α) : Prop where
  same : Same m n
  work : m.work = n.work
  norms : AgreeN (fun i => m.status[i]? ≠ some NormStatus.direct) m n

theorem early_rel {sm : SysManager α} {obs : List String} {m n : PdfManager α} (h : Agree sm obs m n) :
    Res.Rel (fun m' n' => Agree sm obs m' n' ∧ AgreeN (fun i => m'.status[i]? = some NormStatus.indirect) m' n')
      (m.reassertNorms false) (n.reassertNorms false) := by
  refine Res.Rel.mono (reassert_rel h.same false (fun i => sm.countSystematics = 0 ∧ m.status[i]? = some NormStatus.off)
    (fun i hi => h.off hi.1 i hi.2)) ?_
  rintro m' n' hm hn ⟨hs, hw1, hw2, hag⟩
  have e : m'.status = m.status ∧ m'.orig = m.orig ∧ m'.norms.length = m.norms.length := by
    unfold reassertNorms at hm
    split at hm
    · cases hm; exact ⟨rfl, rfl, rfl⟩
    · obtain ⟨⟨ns, j⟩, hl, hm⟩ := Res.bind_eq_ok.1 hm
      cases hm
      refine ⟨rfl, rfl, ?_⟩
      refine Res.forFold_inv (fun (s : List α × Nat) => s.1.length = m.norms.length) rfl hl ?_
      rintro ⟨s, k⟩ i ⟨t, k'⟩ hs' _ ht
      unfold reassertStep at ht
      obtain ⟨st, _, ht⟩ := Res.bind_eq_ok.1 ht
      by_cases hst : st = (if false = true then NormStatus.direct else NormStatus.indirect)
      · rw [if_pos hst] at ht
        obtain ⟨v, _, ht⟩ := Res.bind_eq_ok.1 ht
        obtain ⟨l, hl', ht⟩ := Res.bind_eq_ok.1 ht
        cases ht
        simp only at hs' ⊢
        rw [setIdx_len hl', hs']
      · rw [if_neg hst] at ht
        cases ht; exact hs'
  refine ⟨⟨hs, by rw [e.2.2, hw1]; exact h.len, by rw [e.1, hw1]; exact h.slen, ?_, ?_⟩, ?_⟩
  · intro h0 i hi
    exact hag i (Or.inl ⟨h0, e.1 ▸ hi⟩)
  · intro j hj
    rw [hw1, hw2]; exact h.works j (e.2.1 ▸ hj)
  · intro i hi
    exact hag i (Or.inr (e.1 ▸ hi))

theorem apply_fixed {m m' : PdfManager α} {sm : SysManager α} (h : m.applySystematics sm = .ok m') :
    m'.status = m.status ∧ m'.orig = m.orig := by
  unfold applySystematics at h
  split at h
  · cases h; exact ⟨rfl, rfl⟩
  · split at h
    · obtain ⟨⟨w, n⟩, hw, h⟩ := Res.bind_eq_ok.1 h
      cases h; exact ⟨rfl, rfl⟩
    · obtain ⟨⟨w, n⟩, hw, h⟩ := Res.bind_eq_ok.1 h
      simp only at h
      obtain ⟨ns, _, h⟩ := Res.bind_eq_ok.1 h
      cases h; exact ⟨rfl, rfl⟩

theorem late_rel {sm : SysManager α} {obs : List String} {m n : PdfManager α} (h : Agree sm obs m n)
    (hi : AgreeN (fun i => m.status[i]? = some NormStatus.indirect) m n) (s : Shrinker α) :
    Res.Rel Ready (late sm obs s m) (late sm obs s n) := by
  unfold late
  have hout : ∀ i : Nat, m.status[i]? = none → ∀ a : List α, a.length = m.norms.length → a[i]? = none := by
    intro i hst a ha
    have hl := List.getElem?_eq_none_iff.1 hst
    exact List.getElem?_eq_none (by have := h.slen; have := h.len; omega)
  refine Res.Rel.bind (R := fun m' n' => Same m' n' ∧ m'.norms.length = m'.work.length ∧
    (∀ j : Nat, (m'.work[j]?).map (toDims obs) = (n'.work[j]?).map (toDims obs)) ∧
    AgreeN (fun i => m'.status[i]? ≠ some NormStatus.direct) m' n') ?_ ?_
  · refine Res.Rel.mono (apply_rel h.same sm
      (fun i => m.status[i]? = some NormStatus.indirect ∨ (sm.countSystematics = 0 ∧ m.status[i]? ≠ some NormStatus.direct) ∨
        m.status[i]? = none)
      (fun _ => False) ?_ (fun i hi => Or.inl hi) h.len (fun j hj => hj.elim)) ?_
    · rintro i (h1 | ⟨h0, h1⟩ | h1)
      · exact hi i h1
      · cases hst : m.status[i]? with
        | none => rw [hout i hst _ rfl, hout i hst _ h.same.nlen.symm]
        | some st =>
          cases st with
          | direct => exact absurd hst h1
          | off => exact h.off h0 i hst
          | indirect => exact hi i hst
      · rw [hout i h1 _ rfl, hout i h1 _ h.same.nlen.symm]
    · rintro m' n' hm hn ⟨hs, hl, hw, hz, hag⟩
      obtain ⟨e1, e2⟩ := apply_fixed hm
      refine ⟨hs, hl, ?_, ?_⟩
      · intro j
        by_cases hk : Kept sm m.orig j
        · rw [apply_kept hm hk, apply_kept hn (h.same.orig ▸ hk)]; exact h.works j hk
        · unfold Kept at hk
          push Not at hk
          rw [hw j (Or.inr hk)]
      · intro i hi'
        simp only [e1] at hi'
        refine hag i ?_
        cases hst : m.status[i]? with
        | none => exact Or.inl (Or.inr (Or.inr hst))
        | some st =>
          cases st with
          | direct => exact absurd hst hi'
          | indirect => exact Or.inl (Or.inl hst)
          | off =>
            by_cases h0 : sm.countSystematics = 0
            · exact Or.inl (Or.inr (Or.inl ⟨h0, by rw [hst]; simp⟩))
            · exact Or.inr ⟨h0, hst⟩
  · rintro m' n' ⟨hs, hl, hw, hag⟩
    refine Res.Rel.bind (R := fun m2 n2 => Same m2 n2 ∧ m2.work = n2.work ∧ m2.norms.length = m2.work.length ∧
      AgreeN (fun i => m2.status[i]? ≠ some NormStatus.direct) m2 n2) ?_ ?_
    · refine Res.Rel.mono (assert_rel hs obs hw) ?_
      rintro m2 n2 hm2 _ ⟨hs2, hw2, hn1, hn2, hl2⟩
      refine ⟨hs2, hw2, by rw [hn1, hl, hl2], ?_⟩
      have : m2.status = m'.status := by
        unfold assertDimensions at hm2
        obtain ⟨w, _, hm2⟩ := Res.bind_eq_ok.1 hm2
        cases hm2; rfl
      intro i hi'
      simp only [this] at hi'
      rw [hn1, hn2]; exact hag i hi'
    · rintro m2 n2 ⟨hs2, hw2, hl2, hag2⟩
      refine Res.Rel.mono (shrink_rel hs2 hw2 hl2 s hag2) ?_
      rintro m3 n3 _ _ ⟨h1, h2, h3, h4⟩
      exact ⟨h1, h2, fun i hi' => h3 i (h4 ▸ hi')⟩

/-- One call of `BinProbability` makes them equal. -/
theorem bin_rel {m n : PdfManager α} (h : Ready m n) (bin : Nat) :
    m.binProbability bin = n.binProbability bin := by
  have : m.reassertNorms true = n.reassertNorms true := by
    refine Res.Rel.eq (Res.Rel.mono (reassert_rel h.same true _ h.norms) ?_)
    rintro m' n' hm hn ⟨h1, h2, h3, h4⟩
    refine ext' h1 (by rw [h2, h3]; exact h.work) ?_
    apply List.ext_getElem?
    intro i
    refine h4 i ?_
    by_cases hd : m.status[i]? = some NormStatus.direct
    · exact Or.inr hd
    · exact Or.inl hd
  unfold binProbability
  rw [this]

/-! ### Parameters -/

theorem regOf_refs (c : Nat) (names : List String) {k : String} {r : Ref} (h : SMap.find (regOf c names) k = some r) :
    ∃ i, r = .elem c i := by
  have aux : ∀ (l : List (String × Nat)) (m : ParamManager), (∀ k r, SMap.find m k = some r → ∃ i, r = Ref.elem c i) →
      ∀ k r, SMap.find (l.foldl (fun (m : ParamManager) p => m.insert p.1 (.elem c p.2)) m) k = some r → ∃ i, r = Ref.elem c i := by
    intro l
    induction l with
    | nil => intro m hm; exact hm
    | cons p l ih =>
      intro m hm
      simp only [List.foldl_cons]
      refine ih _ ?_
      intro k r hk
      rw [SMap.find_insert] at hk
      split at hk
      · cases hk; exact ⟨_, rfl⟩
      · exact hm k r hk
  exact aux _ _ (by intro k r h; cases h) k r h

theorem setOne_congr {p : ParamManager} {c : Nat} (hp : ∀ k r, SMap.find p k = some r → ∃ i, r = Ref.elem c i) (d : ParamDict α)
    {s t : Store α} (h : s.cont c = t.cont c) (n : String) :
    Res.Rel (fun s' t' => s'.cont c = t'.cont c ∧ ∀ c', c' ≠ c → s'.cont c' = s.cont c' ∧ t'.cont c' = t.cont c')
      (p.setOne d s n) (p.setOne d t n) := by
  unfold ParamManager.setOne
  cases hr : SMap.find p n with
  | none => exact rfl
  | some r =>
    cases SMap.find d n with
    | none => exact rfl
    | some v =>
      obtain ⟨i, rfl⟩ := hp n r hr
      simp only [Ref.set, ← h]
      by_cases hi : i ≥ (s.cont c).length
      · rw [if_pos hi, if_pos hi]; exact rfl
      · rw [if_neg hi, if_neg hi]
        refine ⟨by simp, ?_⟩
        intro c' hc
        simp [Function.update_of_ne hc]

theorem setLoop_congr {p : ParamManager} {c : Nat} (hp : ∀ k r, SMap.find p k = some r → ∃ i, r = Ref.elem c i) (d : ParamDict α)
    (ns : List String) : ∀ {s t : Store α}, s.cont c = t.cont c → (p.setLoop d s ns).2 = (p.setLoop d t ns).2 ∧
      (p.setLoop d s ns).1.cont c = (p.setLoop d t ns).1.cont c ∧
      ∀ c', c' ≠ c → (p.setLoop d s ns).1.cont c' = s.cont c' ∧ (p.setLoop d t ns).1.cont c' = t.cont c' := by
  induction ns with
  | nil => intro s t h; exact ⟨rfl, h, fun _ _ => ⟨rfl, rfl⟩⟩
  | cons n ns ih =>
    intro s t h
    have h1 := setOne_congr hp d h n
    simp only [ParamManager.setLoop]
    cases hs : p.setOne d s n with
    | ok s' =>
      rw [hs] at h1
      obtain ⟨t', ht, h2, h3⟩ := Res.Rel.ok_left h1 rfl
      rw [ht]
      obtain ⟨a, b, e⟩ := ih h2
      refine ⟨a, b, ?_⟩
      intro c' hc
      obtain ⟨e1, e2⟩ := e c' hc
      obtain ⟨f1, f2⟩ := h3 c' hc
      exact ⟨e1.trans f1, e2.trans f2⟩
    | throw e =>
      rw [hs] at h1
      cases ht : p.setOne d t n with
      | ok _ => rw [ht] at h1; exact h1.elim
      | throw e' => rw [ht] at h1; cases h1; exact ⟨rfl, h, fun _ _ => ⟨rfl, rfl⟩⟩
      | ub => rw [ht] at h1; exact h1.elim
    | ub =>
      rw [hs] at h1
      cases ht : p.setOne d t n with
      | ok _ => rw [ht] at h1; exact h1.elim
      | throw e' => rw [ht] at h1; exact h1.elim
      | ub => exact ⟨rfl, h, fun _ _ => ⟨rfl, rfl⟩⟩

/-- The container the parameters refer to. -/
def slot (m : PdfManager α) : Nat := if m.allDirect then 0 else 1

theorem Same.slot_eq {m n : PdfManager α} (h : Same m n) : slot m = slot n := by unfold slot; rw [h.alld]

theorem Same.cont {m n : PdfManager α} (h : Same m n) : m.store.cont (slot m) = n.store.cont (slot m) := by
  unfold slot
  by_cases ha : m.allDirect = true
  · rw [if_pos ha]; exact h.dnorms ha
  · rw [if_neg ha]; exact h.fit

theorem getParameters_congr {log : List (BinnedED α × NormStatus)} {m n : PdfManager α} (h : Same m n) (hi : Inv log m) :
    m.getParameters = n.getParameters := by
  unfold PdfManager.getParameters ParamManager.getParameters
  rw [← h.params]
  refine Res.forFold_congr ?_ _
  intro s p hp
  have hp' := hp
  rw [hi.params] at hp'
  have hs := regOf_sorted (if m.allDirect then 0 else 1) (PdfLog.fitted log)
  obtain ⟨i, hr⟩ := regOf_refs _ _ (SMap.find_of_mem hs (show (p.1, p.2) ∈ _ from hp'))
  rw [hr]
  show (at_ (m.store.cont (slot m)) i >>= _) = (at_ (n.store.cont (slot m)) i >>= _)
  rw [h.cont]

/-- What setting the parameters changes. -/
theorem setParameters_norms {log : List (BinnedED α × NormStatus)} {m : PdfManager α} (hi : Inv log m) (ha : m.allDirect = false)
    (d : ParamDict α) : (m.setParameters d).1.norms = m.norms := by
  have hp : ∀ k r, SMap.find m.params k = some r → ∃ i, r = Ref.elem (slot m) i := by
    intro k r hk
    rw [hi.params] at hk
    exact regOf_refs _ _ hk
  have := (setLoop_congr hp d m.params.keys (s := m.store) (t := m.store) rfl).2.2 0 (by unfold slot; rw [ha]; decide)
  exact this.1

theorem setParameters_congr {log : List (BinnedED α × NormStatus)} {m n : PdfManager α} (h : Same m n) (hi : Inv log m)
    (hj : Inv log n) (d : ParamDict α) : (m.setParameters d).2 = (n.setParameters d).2 ∧
      Same (m.setParameters d).1 (n.setParameters d).1 ∧
      (∀ i : Nat, m.allDirect = false → (m.setParameters d).1.norms[i]? = m.norms[i]? ∧
        (n.setParameters d).1.norms[i]? = n.norms[i]?) ∧
      (m.setParameters d).1.work = m.work ∧ (n.setParameters d).1.work = n.work := by
  have hp : ∀ k r, SMap.find m.params k = some r → ∃ i, r = Ref.elem (slot m) i := by
    intro k r hk
    rw [hi.params] at hk
    exact regOf_refs _ _ hk
  have hl1 := setLoop_len m.params d m.params.keys m.store
  have hl2 := setLoop_len m.params d m.params.keys n.store
  obtain ⟨h1, h2, h3⟩ := setLoop_congr hp d m.params.keys h.cont
  unfold PdfManager.setParameters ParamManager.setParameters
  simp only [← h.params]
  refine ⟨h1, ⟨h.orig, h.status, ?_, h.alld, h.params, h.wlen, ?_, ?_⟩, ?_, rfl, rfl⟩
  · show (ParamManager.setLoop m.params d m.store m.params.keys).1.cont 1 =
      (ParamManager.setLoop m.params d n.store m.params.keys).1.cont 1
    by_cases ha : m.allDirect = true
    · obtain ⟨e1, e2⟩ := h3 1 (by unfold slot; rw [if_pos ha]; decide)
      rw [e1, e2]; exact h.fit
    · have : slot m = 1 := by unfold slot; rw [if_neg ha]
      rw [this] at h2; exact h2
  · exact (hl1 0).trans (h.nlen.trans (hl2 0).symm)
  · intro ha
    have : slot m = 0 := by unfold slot; rw [if_pos (show m.allDirect = true from ha)]
    rw [this] at h2; exact h2
  · intro i ha
    obtain ⟨e1, e2⟩ := h3 0 (by unfold slot; rw [ha]; decide)
    show ((ParamManager.setLoop m.params d m.store m.params.keys).1.cont 0)[i]? = _ ∧
      ((ParamManager.setLoop m.params d n.store m.params.keys).1.cont 0)[i]? = _
    rw [e1, e2]
    exact ⟨rfl, rfl⟩

end PdfManager
end Oxsx
