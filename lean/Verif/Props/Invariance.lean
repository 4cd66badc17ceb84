import Verif.Props.FitQuality
import Verif.Model.BinnedEDOps
import Verif.Props.Histogram
set_option linter.unusedSectionVars false
set_option linter.unusedSimpArgs false
set_option linter.unusedVariables false
/-
C95: descriptions of the same expectation give the same likelihood. The value, less the constraint term, does not change when the distributions are
added in another order, when one with normalisation nought is left out, when two of the same shape are merged, when contents are scaled against the
normalisation, when a fitted normalisation is fixed at its value, or when distributions sharing a normalisation are added up first.
-/
namespace Oxsx
variable {σ : Type}
open NLLH

theorem rateAt_nil (ps : ParamDict ℝ) (b : Nat) : rateAt [] ps b = 0 := rfl

theorem rateAt_cons (p : BinnedED ℝ × NormStatus) (l : List (BinnedED ℝ × NormStatus)) (ps : ParamDict ℝ) (b : Nat) :
    rateAt (p :: l) ps b = normOf (fun n => (SMap.find ps n).getD 0) p * p.1.hist.contents.getD b 0 + rateAt l ps b := by
  simp [rateAt, expectedRate]

theorem rateAt_append (l l' : List (BinnedED ℝ × NormStatus)) (ps : ParamDict ℝ) (b : Nat) :
    rateAt (l ++ l') ps b = rateAt l ps b + rateAt l' ps b := by
  induction l with
  | nil => simp [rateAt_nil]
  | cons p l ih => simp only [List.cons_append, rateAt_cons, ih]; ring

theorem rateAt_perm {l l' : List (BinnedED ℝ × NormStatus)} (h : l.Perm l') (ps : ParamDict ℝ) (b : Nat) : rateAt l ps b = rateAt l' ps b := by
  induction h with
  | nil => rfl
  | cons p _ ih => simp only [rateAt_cons, ih]
  | swap p q l => simp only [rateAt_cons]; ring
  | trans _ _ h1 h2 => rw [h1, h2]

/-- Only the values of the fitted normalisations matter. -/
theorem rateAt_congr {l : List (BinnedED ℝ × NormStatus)} {ps ps' : ParamDict ℝ}
    (h : ∀ n ∈ PdfLog.fitted l, SMap.find ps n = SMap.find ps' n) (b : Nat) : rateAt l ps b = rateAt l ps' b := by
  induction l with
  | nil => rfl
  | cons p l ih =>
    rw [rateAt_cons, rateAt_cons]
    have ih := ih (fun n hn => h n (by
      unfold PdfLog.fitted at hn ⊢
      obtain ⟨q, hq, e⟩ := List.mem_map.1 hn
      obtain ⟨h1, h2⟩ := List.mem_filter.1 hq
      exact List.mem_map.2 ⟨q, List.mem_filter.2 ⟨List.mem_cons_of_mem _ h1, h2⟩, e⟩))
    rw [ih]
    congr 2
    unfold normOf
    by_cases hf : p.2.fittable
    · simp only [hf, if_true]
      rw [h p.1.name (List.mem_map_of_mem (List.mem_filter.2 ⟨by simp, hf⟩))]
    · simp [hf]

theorem nllAt_congr {l l' : List (BinnedED ℝ × NormStatus)} {d : BinnedED ℝ} {ps ps' : ParamDict ℝ}
    (h : ∀ b, b < d.hist.nBins → rateAt l ps b = rateAt l' ps' b) : nllAt l d ps = nllAt l' d ps' := by
  unfold nllAt
  congr 1
  apply List.map_congr_left
  intro b hb
  rw [h b (List.mem_range.1 hb)]

/-- C95 (only the expectation counts): two configurations and points that predict the same rate in every bin give the same value, up to their constraint
terms. -/
theorem C95_expectation {name : Nat → String} {C : FitSys σ ℝ} {objs : Nat → σ} {log log' : List (BinnedED ℝ × NormStatus)}
    {cons cons' : ConstraintManager ℝ} {d : BinnedED ℝ} {ps ps' : ParamDict ℝ} {c c' : ℝ} (h : CanFit log d) (h' : CanFit log' d)
    (hp : FitPoint log cons d ps c) (hp' : FitPoint log' cons' d ps' c')
    (hr : ∀ b, b < d.hist.nBins → rateAt log ps b = rateAt log' ps' b) :
    ∃ v v', fitValue name C objs log cons d ps = .ok (some v) ∧ fitValue name C objs log' cons' d ps' = .ok (some v') ∧ v - c = v' - c' := by
  refine ⟨_, _, fitValue_eq h hp, fitValue_eq h' hp', ?_⟩
  rw [nllAt_congr hr]; ring

theorem fitted_perm {l l' : List (BinnedED ℝ × NormStatus)} (h : l.Perm l') : (PdfLog.fitted l).Perm (PdfLog.fitted l') :=
  (h.filter _).map _

theorem canFit_perm {log log' : List (BinnedED ℝ × NormStatus)} {d : BinnedED ℝ} (h : CanFit log d) (hl : log.Perm log')
    (ho : PdfLog.Before .direct .indirect log') : CanFit log' d where
  distinct := (fitted_perm hl).nodup_iff.1 h.distinct
  order := ho
  obs := fun p hp => h.obs p (hl.mem_iff.2 hp)
  data := h.data

/-- C95 (order): the distributions may be added in any order that keeps the directly fitted ones first (`C27_order_wrong` is about the others): the
value, constraint term included, is the same. -/
theorem C95_order_partial {name : Nat → String} {C : FitSys σ ℝ} {objs : Nat → σ} {log log' : List (BinnedED ℝ × NormStatus)}
    {cons : ConstraintManager ℝ} {d : BinnedED ℝ} {ps : ParamDict ℝ} {c : ℝ} (h : CanFit log d) (hl : log.Perm log')
    (ho : PdfLog.Before .direct .indirect log') (hp : FitPoint log cons d ps c) :
    ∃ v, fitValue name C objs log cons d ps = .ok (some v) ∧ fitValue name C objs log' cons d ps = .ok (some v) := by
  have hm : ∀ n, n ∈ PdfLog.fitted log ↔ n ∈ PdfLog.fitted log' := fun n => (fitted_perm hl).mem_iff
  have hp' : FitPoint log' cons d ps c := by
    refine ⟨hp.nonempty, hp.sorted, fun n hn => hp.all n ((hm n).2 hn), fun b hb => ?_, ?_⟩
    · rw [← rateAt_perm hl]; exact hp.positive b hb
    · rw [← hp.constraint]
      congr 1
      apply List.filter_congr
      intro q _
      simp only [hm q.1]
  refine ⟨_, fitValue_eq h hp, ?_⟩
  rw [fitValue_eq (canFit_perm h hl ho) hp', nllAt_congr (fun b _ => rateAt_perm hl ps b)]

theorem before_sublist {a b : NormStatus} {l l' : List (BinnedED ℝ × NormStatus)} (h : l'.Sublist l) (ho : PdfLog.Before a b l) : PdfLog.Before a b l' :=
  ho.sublist (h.map _)

theorem canFit_sublist {log log' : List (BinnedED ℝ × NormStatus)} {d : BinnedED ℝ} (h : CanFit log d) (hl : log'.Sublist log) : CanFit log' d where
  distinct := by
    have := h.distinct
    exact List.Nodup.sublist ((hl.filter _).map _) this
  order := before_sublist hl h.order
  obs := fun p hp => h.obs p (hl.subset hp)
  data := h.data

theorem fitted_sublist {log log' : List (BinnedED ℝ × NormStatus)} (hl : log'.Sublist log) : ∀ n ∈ PdfLog.fitted log', n ∈ PdfLog.fitted log :=
  fun n hn => ((hl.filter _).map _).subset hn

/-- C95 (absent): a distribution whose fitted normalisation is nought may be left out, with or without its entry in the dictionary. -/
theorem C95_absent {name : Nat → String} {C : FitSys σ ℝ} {objs : Nat → σ} {l₁ l₂ : List (BinnedED ℝ × NormStatus)} {p : BinnedED ℝ × NormStatus}
    {cons cons' : ConstraintManager ℝ} {d : BinnedED ℝ} {ps ps' : ParamDict ℝ} {c c' : ℝ} (h : CanFit (l₁ ++ p :: l₂) d)
    (hp : FitPoint (l₁ ++ p :: l₂) cons d ps c) (hf : p.2.fittable = true) (h0 : SMap.find ps p.1.name = some 0)
    (hne : ps' ≠ []) (hs : SMap.Sorted ps') (hps : ∀ n ∈ PdfLog.fitted (l₁ ++ l₂), SMap.find ps' n = SMap.find ps n)
    (hc : cons'.evaluate (ps'.filter (fun q => q.1 ∈ PdfLog.fitted (l₁ ++ l₂))) = .ok (some c')) :
    ∃ v v', fitValue name C objs (l₁ ++ p :: l₂) cons d ps = .ok (some v) ∧ fitValue name C objs (l₁ ++ l₂) cons' d ps' = .ok (some v') ∧
      v - c = v' - c' := by
  have hsub : (l₁ ++ l₂).Sublist (l₁ ++ p :: l₂) := List.Sublist.append (List.Sublist.refl _) (List.sublist_cons_self _ _)
  have hr : ∀ b, rateAt (l₁ ++ p :: l₂) ps b = rateAt (l₁ ++ l₂) ps' b := by
    intro b
    rw [rateAt_congr hps, rateAt_append, rateAt_append, rateAt_cons]
    unfold normOf
    simp only [hf, if_true, h0, Option.getD_some]; ring
  have hp' : FitPoint (l₁ ++ l₂) cons' d ps' c' := by
    refine ⟨hne, hs, fun n hn => ?_, fun b hb => ?_, hc⟩
    · rw [hps n hn]; exact hp.all n (fitted_sublist hsub n hn)
    · rw [← hr b]; exact hp.positive b hb
  exact C95_expectation h (canFit_sublist h hsub) hp hp' (fun b _ => hr b)

/-- C95 (merged): two distributions with the same contents may be replaced by one of them with the sum of the two normalisations. -/
theorem C95_merged {name : Nat → String} {C : FitSys σ ℝ} {objs : Nat → σ} {l : List (BinnedED ℝ × NormStatus)} {p q : BinnedED ℝ × NormStatus}
    {cons cons' : ConstraintManager ℝ} {d : BinnedED ℝ} {ps ps' : ParamDict ℝ} {c c' x y : ℝ} (h : CanFit (p :: q :: l) d)
    (hp : FitPoint (p :: q :: l) cons d ps c) (hfp : p.2.fittable = true) (hfq : q.2.fittable = true)
    (hsame : ∀ b, b < d.hist.nBins → p.1.hist.contents.getD b 0 = q.1.hist.contents.getD b 0)
    (hx : SMap.find ps p.1.name = some x) (hy : SMap.find ps q.1.name = some y)
    (hne : ps' ≠ []) (hs : SMap.Sorted ps') (hxy : SMap.find ps' p.1.name = some (x + y))
    (hps : ∀ n ∈ PdfLog.fitted l, SMap.find ps' n = SMap.find ps n)
    (hc : cons'.evaluate (ps'.filter (fun r => r.1 ∈ PdfLog.fitted (p :: l))) = .ok (some c')) :
    ∃ v v', fitValue name C objs (p :: q :: l) cons d ps = .ok (some v) ∧ fitValue name C objs (p :: l) cons' d ps' = .ok (some v') ∧
      v - c = v' - c' := by
  have hsub : (p :: l).Sublist (p :: q :: l) := List.Sublist.cons_cons _ (List.sublist_cons_self _ _)
  have hr : ∀ b, b < d.hist.nBins → rateAt (p :: q :: l) ps b = rateAt (p :: l) ps' b := by
    intro b hb
    simp only [rateAt_cons]
    rw [rateAt_congr hps]
    unfold normOf
    simp only [hfp, hfq, if_true, hx, hy, hxy, Option.getD_some]
    rw [hsame b hb]; ring
  have hp' : FitPoint (p :: l) cons' d ps' c' := by
    refine ⟨hne, hs, fun n hn => ?_, fun b hb => ?_, hc⟩
    · have : n = p.1.name ∨ n ∈ PdfLog.fitted l := by
        unfold PdfLog.fitted at hn ⊢
        simpa [List.filter_cons, hfp] using hn
      rcases this with rfl | h1
      · rw [hxy]; rfl
      · rw [hps n h1]
        refine hp.all n (fitted_sublist hsub n hn)
    · rw [← hr b hb]; exact hp.positive b hb
  exact C95_expectation h (canFit_sublist h hsub) hp hp' hr

theorem getD_scale (l : List ℝ) (k : ℝ) (b : Nat) : (l.map (· * k)).getD b 0 = l.getD b 0 * k := by
  rw [List.getD_eq_getElem?_getD, List.getD_eq_getElem?_getD, List.getElem?_map]
  cases l[b]? <;> simp

/-- Names, observables and sizes of the first distribution unchanged, its status too. -/
theorem canFit_replace {p r : BinnedED ℝ × NormStatus} {l : List (BinnedED ℝ × NormStatus)} {d : BinnedED ℝ} (h : CanFit (p :: l) d)
    (hn : r.1.name = p.1.name) (hst : r.2 = p.2) (ho : r.1.obs = p.1.obs) (hb : r.1.hist.nBins = p.1.hist.nBins)
    (hl : r.1.hist.contents.length = p.1.hist.contents.length) : CanFit (r :: l) d where
  distinct := by
    have := h.distinct
    unfold PdfLog.DistinctNames PdfLog.fitted at this ⊢
    rw [List.filter_cons] at this ⊢
    rw [hst]
    split_ifs at this ⊢ with hf
    · simpa [hn] using this
    · exact this
  order := by
    have := h.order
    unfold PdfLog.Before at this ⊢
    simpa [hst] using this
  obs := by
    intro q hq
    rcases List.mem_cons.1 hq with rfl | hq
    · have := h.obs p (by simp)
      rw [ho, hb, hl]; exact this
    · exact h.obs q (List.mem_cons_of_mem _ hq)
  data := h.data

/-- C95 (units): scaling a distribution by `k` and its normalisation by `1/k` changes nothing. -/
theorem C95_scaled {name : Nat → String} {C : FitSys σ ℝ} {objs : Nat → σ} {l : List (BinnedED ℝ × NormStatus)} {p : BinnedED ℝ} {st : NormStatus}
    {cons cons' : ConstraintManager ℝ} {d : BinnedED ℝ} {ps ps' : ParamDict ℝ} {c c' x k : ℝ} (hk : k ≠ 0) (h : CanFit ((p, st) :: l) d)
    (hp : FitPoint ((p, st) :: l) cons d ps c) (hf : st.fittable = true) (hx : SMap.find ps p.name = some x)
    (hne : ps' ≠ []) (hs : SMap.Sorted ps') (hx' : SMap.find ps' p.name = some (x / k))
    (hps : ∀ n ∈ PdfLog.fitted l, SMap.find ps' n = SMap.find ps n)
    (hc : cons'.evaluate (ps'.filter (fun r => r.1 ∈ PdfLog.fitted ((p, st) :: l))) = .ok (some c')) :
    ∃ v v', fitValue name C objs ((p, st) :: l) cons d ps = .ok (some v) ∧ fitValue name C objs ((p.scale k, st) :: l) cons' d ps' = .ok (some v') ∧
      v - c = v' - c' := by
  have hfit : PdfLog.fitted ((p.scale k, st) :: l) = PdfLog.fitted ((p, st) :: l) := by
    unfold PdfLog.fitted; simp [List.filter_cons, hf]; rfl
  have hr : ∀ b, b < d.hist.nBins → rateAt ((p, st) :: l) ps b = rateAt ((p.scale k, st) :: l) ps' b := by
    intro b hb
    simp only [rateAt_cons]
    rw [rateAt_congr hps]
    unfold normOf
    show _ = (if st.fittable = true then (SMap.find ps' p.name).getD 0 else 1) * (p.hist.contents.map (· * k)).getD b 0 + _
    simp only [hf, if_true, hx, hx', Option.getD_some]
    rw [getD_scale]; field_simp
  have hp' : FitPoint ((p.scale k, st) :: l) cons' d ps' c' := by
    refine ⟨hne, hs, fun n hn => ?_, fun b hb => ?_, by rw [hfit]; exact hc⟩
    · rw [hfit] at hn
      have : n = p.name ∨ n ∈ PdfLog.fitted l := by
        unfold PdfLog.fitted at hn ⊢
        simpa [List.filter_cons, hf] using hn
      rcases this with rfl | h1
      · rw [hx']; rfl
      · rw [hps n h1]; exact hp.all n hn
    · rw [← hr b hb]; exact hp.positive b hb
  exact C95_expectation h (canFit_replace (r := (p.scale k, st)) h rfl rfl rfl rfl (by simp [BinnedED.scale, Histogram.scale])) hp hp' hr

/-- C95 (fixed): fixing a normalisation at `x` — scaling the distribution by `x` and adding it as not fitted — gives what fitting it gives at `x`. -/
theorem C95_fixed {name : Nat → String} {C : FitSys σ ℝ} {objs : Nat → σ} {l : List (BinnedED ℝ × NormStatus)} {p : BinnedED ℝ} {st : NormStatus}
    {cons cons' : ConstraintManager ℝ} {d : BinnedED ℝ} {ps ps' : ParamDict ℝ} {c c' x : ℝ} (h : CanFit ((p, st) :: l) d)
    (hp : FitPoint ((p, st) :: l) cons d ps c) (hf : st.fittable = true) (hx : SMap.find ps p.name = some x)
    (hne : ps' ≠ []) (hs : SMap.Sorted ps') (hps : ∀ n ∈ PdfLog.fitted l, SMap.find ps' n = SMap.find ps n)
    (hc : cons'.evaluate (ps'.filter (fun r => r.1 ∈ PdfLog.fitted l)) = .ok (some c')) :
    ∃ v v', fitValue name C objs ((p, st) :: l) cons d ps = .ok (some v) ∧ fitValue name C objs ((p.scale x, .off) :: l) cons' d ps' = .ok (some v') ∧
      v - c = v' - c' := by
  have hfit : PdfLog.fitted ((p.scale x, .off) :: l) = PdfLog.fitted l := by
    unfold PdfLog.fitted; simp [List.filter_cons, NormStatus.fittable]
  have hr : ∀ b, b < d.hist.nBins → rateAt ((p, st) :: l) ps b = rateAt ((p.scale x, .off) :: l) ps' b := by
    intro b hb
    simp only [rateAt_cons]
    rw [rateAt_congr hps]
    unfold normOf
    show _ = (if NormStatus.off.fittable = true then (SMap.find ps' p.name).getD 0 else 1) * (p.hist.contents.map (· * x)).getD b 0 + _
    simp only [hf, if_true, hx, Option.getD_some]
    rw [getD_scale]; simp [NormStatus.fittable]; ring
  have hsub : l.Sublist ((p, st) :: l) := List.sublist_cons_self _ _
  have hp' : FitPoint ((p.scale x, .off) :: l) cons' d ps' c' := by
    refine ⟨hne, hs, fun n hn => ?_, fun b hb => ?_, by rw [hfit]; exact hc⟩
    · rw [hfit] at hn
      rw [hps n hn]; exact hp.all n (fitted_sublist hsub n hn)
    · rw [← hr b hb]; exact hp.positive b hb
  have hcf : CanFit ((p.scale x, .off) :: l) d := by
    have h' := canFit_sublist h hsub
    refine ⟨by unfold PdfLog.DistinctNames; rw [hfit]; exact h'.distinct, ?_, ?_, h.data⟩
    · have := h'.order
      unfold PdfLog.Before at this ⊢
      simpa using this
    · intro q hq
      rcases List.mem_cons.1 hq with rfl | hq
      · have := h.obs (p, st) (by simp)
        refine ⟨this.1, this.2.1, ?_⟩
        show (p.hist.contents.map (· * x)).length = _
        rw [List.length_map]; exact this.2.2
      · exact h'.obs q hq
  exact C95_expectation h hcf hp hp' hr

/-- C95 (sums): two distributions on the same bins whose normalisations are `x` and `w·x` may be added up first, the second with weight `w`, and fitted
with the one normalisation `x`. -/
theorem C95_added {name : Nat → String} {C : FitSys σ ℝ} {objs : Nat → σ} {l : List (BinnedED ℝ × NormStatus)} {p q : BinnedED ℝ} {st st' : NormStatus}
    {cons cons' : ConstraintManager ℝ} {d : BinnedED ℝ} {ps ps' : ParamDict ℝ} {c c' x w : ℝ} {as bs : List (BinAxis ℝ)}
    (hva : p.hist.Valid as) (hvb : q.hist.Valid bs) (ha : ∀ a ∈ as, a.Contiguous) (hb : ∀ b ∈ bs, b.Contiguous) (hsb : Histogram.SameBinning as bs)
    (h : CanFit ((p, st) :: (q, st') :: l) d) (hp : FitPoint ((p, st) :: (q, st') :: l) cons d ps c)
    (hf : st.fittable = true) (hf' : st'.fittable = true) (hx : SMap.find ps p.name = some x) (hy : SMap.find ps q.name = some (w * x))
    (hne : ps' ≠ []) (hs : SMap.Sorted ps') (hx' : SMap.find ps' p.name = some x)
    (hps : ∀ n ∈ PdfLog.fitted l, SMap.find ps' n = SMap.find ps n)
    (hc : cons'.evaluate (ps'.filter (fun r => r.1 ∈ PdfLog.fitted ((p, st) :: l))) = .ok (some c')) :
    ∃ s v v', p.add q w = .ok s ∧ fitValue name C objs ((p, st) :: (q, st') :: l) cons d ps = .ok (some v) ∧
      fitValue name C objs ((s, st) :: l) cons' d ps' = .ok (some v') ∧ v - c = v' - c' := by
  have hsh := Histogram.SameBinning.shape ha hb hsb
  have hadd : p.add q w = .ok { p with hist := { p.hist with contents := List.zipWith (fun x y => x + y * w) p.hist.contents q.hist.contents } } := by
    unfold BinnedED.add Histogram.add
    rw [Histogram.combine_ok hva hvb hsb hsh]; rfl
  have hll : p.hist.contents.length = q.hist.contents.length := by rw [hva.len, hvb.len, hsh]
  set s : BinnedED ℝ := { p with hist := { p.hist with contents := List.zipWith (fun x y => x + y * w) p.hist.contents q.hist.contents } } with hsdef
  have hfit : PdfLog.fitted ((s, st) :: l) = PdfLog.fitted ((p, st) :: l) := by
    unfold PdfLog.fitted; simp [List.filter_cons, hf]; rfl
  have hr : ∀ b, b < d.hist.nBins → rateAt ((p, st) :: (q, st') :: l) ps b = rateAt ((s, st) :: l) ps' b := by
    intro b hbn
    simp only [rateAt_cons]
    rw [rateAt_congr hps]
    unfold normOf
    show _ = (if st.fittable = true then (SMap.find ps' p.name).getD 0 else 1) *
      (List.zipWith (fun x y => x + y * w) p.hist.contents q.hist.contents).getD b 0 + _
    simp only [hf, hf', if_true, hx, hy, hx', Option.getD_some]
    have h1 : b < p.hist.contents.length := by rw [(h.obs (p, st) (by simp)).2.2]; exact hbn
    have h2 : b < q.hist.contents.length := by rw [← hll]; exact h1
    simp only [List.getD_eq_getElem?_getD, List.getElem?_zipWith, List.getElem?_eq_getElem h1, List.getElem?_eq_getElem h2, Option.getD_some]
    ring
  have hsub : ((p, st) :: l).Sublist ((p, st) :: (q, st') :: l) := List.Sublist.cons_cons _ (List.sublist_cons_self _ _)
  have hp' : FitPoint ((s, st) :: l) cons' d ps' c' := by
    refine ⟨hne, hs, fun n hn => ?_, fun b hb => ?_, by rw [hfit]; exact hc⟩
    · rw [hfit] at hn
      have : n = p.name ∨ n ∈ PdfLog.fitted l := by
        unfold PdfLog.fitted at hn ⊢
        simpa [List.filter_cons, hf] using hn
      rcases this with rfl | h1
      · rw [hx']; rfl
      · rw [hps n h1]; exact hp.all n (fitted_sublist hsub n hn)
    · rw [← hr b hb]; exact hp.positive b hb
  obtain ⟨v, v', e1, e2, e3⟩ := C95_expectation (name := name) (C := C) (objs := objs) h
    (canFit_replace (r := (s, st)) (canFit_sublist h hsub) rfl rfl rfl rfl (by simp [hsdef, hll])) hp hp' hr
  exact ⟨s, v, v', hadd, e1, e2, e3⟩

/-! ### A signal and a background on two bins -/

theorem pairSorted {x y : String} (h : x < y) (v w : ℝ) : SMap.Sorted [(x, v), (y, w)] := by
  show List.Pairwise _ _
  simp only [List.pairwise_cons, List.mem_singleton, forall_eq, List.not_mem_nil, false_implies, implies_true, List.Pairwise.nil, and_true]
  exact h

noncomputable def exPair : List (BinnedED ℝ × NormStatus) := [(exRealPdf "s" (1/2) (1/2), .direct), (exRealPdf "b" (1/4) (3/4), .direct)]

theorem exPair_canFit (x y : ℝ) : CanFit exPair (exRealPdf "d" x y) where
  distinct := by show (["s", "b"] : List String).Nodup; decide
  order := by show ([NormStatus.direct, NormStatus.direct]).Pairwise _; decide
  obs := by
    intro p hp
    simp only [exPair, List.mem_cons, List.not_mem_nil, or_false] at hp
    rcases hp with rfl | rfl <;> exact ⟨rfl, rfl, rfl⟩
  data := rfl

theorem exPair_rate (b s : ℝ) : rateAt exPair [("b", b), ("s", s)] 0 = s / 2 + b / 4 ∧ rateAt exPair [("b", b), ("s", s)] 1 = s / 2 + 3 * b / 4 := by
  constructor <;> simp [rateAt, exPair, expectedRate, normOf, exRealPdf, NormStatus.fittable, SMap.find, show ("b" : String) ≠ "s" by decide] <;> ring

theorem exPair_point (x y : ℝ) {b s : ℝ} (hb : 0 ≤ b) (hs : 0 < s) : FitPoint exPair .empty (exRealPdf "d" x y) [("b", b), ("s", s)] 0 where
  nonempty := by simp
  sorted := pairSorted (by decide +kernel) b s
  all := by
    intro n hn
    have : n ∈ (["s", "b"] : List String) := hn
    simp only [List.mem_cons, List.not_mem_nil, or_false] at this
    rcases this with rfl | rfl <;> rfl
  positive := by
    intro k hk
    have : k < 2 := hk
    have hk' : k = 0 ∨ k = 1 := by omega
    rcases hk' with rfl | rfl
    · rw [(exPair_rate b s).1]; positivity
    · rw [(exPair_rate b s).2]; positivity
  constraint := rfl

-- the two in either order
example (C : FitSys σ ℝ) (objs : Nat → σ) : ∃ v, fitValue exSysName C objs exPair .empty (exRealPdf "d" 4 5) [("b", 3), ("s", 2)] = .ok (some v) ∧
    fitValue exSysName C objs exPair.reverse .empty (exRealPdf "d" 4 5) [("b", 3), ("s", 2)] = .ok (some v) :=
  C95_order_partial (exPair_canFit 4 5) (List.reverse_perm _).symm (by show ([NormStatus.direct, NormStatus.direct]).Pairwise _; decide)
    (exPair_point 4 5 (by norm_num) (by norm_num))

-- no background
example (C : FitSys σ ℝ) (objs : Nat → σ) : ∃ v v', fitValue exSysName C objs exPair .empty (exRealPdf "d" 4 5) [("b", 0), ("s", 2)] = .ok (some v) ∧
    fitValue exSysName C objs [(exRealPdf "s" (1/2) (1/2), .direct)] .empty (exRealPdf "d" 4 5) [("s", 2)] = .ok (some v') ∧ v = v' := by
  obtain ⟨v, v', h1, h2, h3⟩ := C95_absent (name := exSysName) (C := C) (objs := objs) (l₁ := [(exRealPdf "s" (1/2) (1/2), .direct)]) (l₂ := [])
    (p := (exRealPdf "b" (1/4) (3/4), .direct)) (cons := .empty) (cons' := .empty) (c := 0) (c' := 0) (ps' := [("s", 2)])
    (exPair_canFit 4 5) (exPair_point 4 5 (le_refl 0) (by norm_num : (0:ℝ) < 2)) rfl rfl (by simp) (List.pairwise_singleton _ _) (by
      intro n hn
      have : n ∈ (["s"] : List String) := hn
      simp only [List.mem_singleton] at this
      subst this
      simp [SMap.find, show ("b" : String) ≠ "s" by decide]) rfl
  exact ⟨v, v', h1, h2, by linarith⟩

-- the signal counted in thousands
example (C : FitSys σ ℝ) (objs : Nat → σ) : ∃ v v', fitValue exSysName C objs exPair .empty (exRealPdf "d" 4 5) [("b", 3), ("s", 2)] = .ok (some v) ∧
    fitValue exSysName C objs [((exRealPdf "s" (1/2) (1/2)).scale 1000, .direct), (exRealPdf "b" (1/4) (3/4), .direct)] .empty (exRealPdf "d" 4 5)
      [("b", 3), ("s", 2 / 1000)] = .ok (some v') ∧ v = v' := by
  obtain ⟨v, v', h1, h2, h3⟩ := C95_scaled (name := exSysName) (C := C) (objs := objs) (l := [(exRealPdf "b" (1/4) (3/4), .direct)])
    (p := exRealPdf "s" (1/2) (1/2)) (st := .direct) (cons := .empty) (cons' := .empty) (c := 0) (c' := 0) (ps' := [("b", 3), ("s", 2 / 1000)])
    (x := 2) (k := 1000) (by norm_num) (exPair_canFit 4 5) (exPair_point 4 5 (by norm_num : (0:ℝ) ≤ 3) (by norm_num : (0:ℝ) < 2)) rfl
    (by simp [SMap.find, exRealPdf, show ("b" : String) ≠ "s" by decide]) (by simp) (pairSorted (by decide +kernel) _ _)
    (by simp [SMap.find, exRealPdf, show ("b" : String) ≠ "s" by decide]) (by
      intro n hn
      have : n ∈ (["b"] : List String) := hn
      simp only [List.mem_singleton] at this
      subst this; rfl) rfl
  exact ⟨v, v', h1, h2, by linarith⟩

-- the signal fixed at 2
example (C : FitSys σ ℝ) (objs : Nat → σ) : ∃ v v', fitValue exSysName C objs exPair .empty (exRealPdf "d" 4 5) [("b", 3), ("s", 2)] = .ok (some v) ∧
    fitValue exSysName C objs [((exRealPdf "s" (1/2) (1/2)).scale 2, .off), (exRealPdf "b" (1/4) (3/4), .direct)] .empty (exRealPdf "d" 4 5)
      [("b", 3)] = .ok (some v') ∧ v = v' := by
  obtain ⟨v, v', h1, h2, h3⟩ := C95_fixed (name := exSysName) (C := C) (objs := objs) (l := [(exRealPdf "b" (1/4) (3/4), .direct)])
    (p := exRealPdf "s" (1/2) (1/2)) (st := .direct) (cons := .empty) (cons' := .empty) (c := 0) (c' := 0) (ps' := [("b", 3)])
    (x := 2) (exPair_canFit 4 5) (exPair_point 4 5 (by norm_num : (0:ℝ) ≤ 3) (by norm_num : (0:ℝ) < 2)) rfl
    (by simp [SMap.find, exRealPdf, show ("b" : String) ≠ "s" by decide]) (by simp) (List.pairwise_singleton _ _) (by
      intro n hn
      have : n ∈ (["b"] : List String) := hn
      simp only [List.mem_singleton] at this
      subst this; rfl) rfl
  exact ⟨v, v', h1, h2, by linarith⟩

/-- The axis of `exRealPdf`. -/
noncomputable def exRealAxis : BinAxis ℝ := ⟨"x", "", 2, 0, 2, [0, 1], [1, 2], [1/2, 3/2], [1, 1]⟩

theorem exRealAxis_contiguous : exRealAxis.Contiguous := by
  have hm : BinAxis.mkEqual "x" (0 : ℝ) 2 2 "" = .ok { exRealAxis with latexName := "x" } := by
    rw [BinAxis.mkEqual_ok_iff]
    refine ⟨by norm_num, by norm_num, ?_⟩
    simp [exRealAxis, List.range_succ]
    norm_num
  have h := BinAxis.mkEqual_contiguous hm
  exact ⟨h.pos, h.bins, h.noMore, h.contig, h.first, h.last⟩

theorem exRealPdf_valid (n : String) (c c' : ℝ) : (exRealPdf n c c').hist.Valid [exRealAxis] where
  axes := ⟨rfl, rfl, rfl, rfl, rfl, by simp⟩
  ne := by simp
  nb := rfl
  nd := rfl
  len := rfl

-- signal and background added up beforehand
example (C : FitSys σ ℝ) (objs : Nat → σ) : ∃ s v v', (exRealPdf "s" (1/2) (1/2)).add (exRealPdf "b" (1/4) (3/4)) (3/2) = .ok s ∧
    fitValue exSysName C objs exPair .empty (exRealPdf "d" 4 5) [("b", 3/2 * 2), ("s", 2)] = .ok (some v) ∧
    fitValue exSysName C objs [(s, .direct)] .empty (exRealPdf "d" 4 5) [("s", 2)] = .ok (some v') ∧ v = v' := by
  have hc : ∀ a ∈ [exRealAxis], a.Contiguous := by
    intro a ha
    rw [List.mem_singleton] at ha
    subst ha
    exact exRealAxis_contiguous
  obtain ⟨s, v, v', h0, h1, h2, h3⟩ := C95_added (name := exSysName) (C := C) (objs := objs) (l := [])
    (p := exRealPdf "s" (1/2) (1/2)) (q := exRealPdf "b" (1/4) (3/4)) (st := .direct) (st' := .direct) (cons := .empty) (cons' := .empty) (c := 0) (c' := 0)
    (ps' := [("s", 2)]) (x := 2) (w := 3/2) (exRealPdf_valid _ _ _) (exRealPdf_valid _ _ _) hc hc
    (List.Forall₂.cons ⟨rfl, rfl⟩ List.Forall₂.nil) (exPair_canFit 4 5)
    (exPair_point 4 5 (by norm_num : (0:ℝ) ≤ 3/2 * 2) (by norm_num : (0:ℝ) < 2)) rfl rfl
    (by simp [SMap.find, exRealPdf, show ("b" : String) ≠ "s" by decide]) rfl (by simp) (List.pairwise_singleton _ _) rfl
    (by intro n hn; exact absurd hn (by simp [PdfLog.fitted])) rfl
  exact ⟨s, v, v', h0, h1, h2, by linarith⟩

-- two signals of the same shape
example (C : FitSys σ ℝ) (objs : Nat → σ) : ∃ v v',
    fitValue exSysName C objs [(exRealPdf "s" (1/2) (1/2), .direct), (exRealPdf "b" (1/2) (1/2), .indirect)] .empty (exRealPdf "d" 4 5) [("b", 3), ("s", 2)]
      = .ok (some v) ∧
    fitValue exSysName C objs [(exRealPdf "s" (1/2) (1/2), .direct)] .empty (exRealPdf "d" 4 5) [("s", 2 + 3)] = .ok (some v') ∧ v = v' := by
  have hcf : CanFit [(exRealPdf "s" (1/2) (1/2), .direct), (exRealPdf "b" (1/2) (1/2), .indirect)] (exRealPdf "d" 4 5) :=
    ⟨by show (["s", "b"] : List String).Nodup; decide, by show ([NormStatus.direct, NormStatus.indirect]).Pairwise _; decide, by
      intro p hp
      simp only [List.mem_cons, List.not_mem_nil, or_false] at hp
      rcases hp with rfl | rfl <;> exact ⟨rfl, rfl, rfl⟩, rfl⟩
  have hpt : FitPoint [(exRealPdf "s" (1/2) (1/2), .direct), (exRealPdf "b" (1/2) (1/2), .indirect)] .empty (exRealPdf "d" 4 5) [("b", 3), ("s", 2)] 0 := by
    refine ⟨by simp, pairSorted (by decide +kernel) _ _, ?_, ?_, rfl⟩
    · intro n hn
      have : n ∈ (["s", "b"] : List String) := hn
      simp only [List.mem_cons, List.not_mem_nil, or_false] at this
      rcases this with rfl | rfl <;> rfl
    · intro k hk
      have : k < 2 := hk
      have hk' : k = 0 ∨ k = 1 := by omega
      rcases hk' with rfl | rfl <;>
        simp [rateAt, expectedRate, normOf, exRealPdf, NormStatus.fittable, SMap.find, show ("b" : String) ≠ "s" by decide] <;> norm_num
  obtain ⟨v, v', h1, h2, h3⟩ := C95_merged (name := exSysName) (C := C) (objs := objs) (l := [])
    (p := (exRealPdf "s" (1/2) (1/2), .direct)) (q := (exRealPdf "b" (1/2) (1/2), .indirect)) (cons := .empty) (cons' := .empty) (c := 0) (c' := 0)
    (ps' := [("s", 2 + 3)]) (x := 2) (y := 3) hcf hpt rfl rfl (fun b _ => rfl)
    (by simp [SMap.find, exRealPdf, show ("b" : String) ≠ "s" by decide]) rfl (by simp) (List.pairwise_singleton _ _) rfl
    (by intro n hn; exact absurd hn (by simp [PdfLog.fitted])) rfl
  exact ⟨v, v', h1, h2, by linarith⟩

end Oxsx
