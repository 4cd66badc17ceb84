import Verif.Spec.MoveAgree
import Verif.Props.SmearAgree
import Verif.Props.Systematic
import Verif.Props.EventSystematic
set_option linter.unusedSectionVars false
set_option linter.unusedSimpArgs false
set_option linter.unusedVariables false
/-
C120: scaling or shifting events and scaling or shifting their histogram agree for events spread evenly over the bins.
-/
namespace Oxsx
open MeasureTheory ProbabilityTheory
open scoped ENNReal
open AxisCollection Histogram

theorem one_axis_unpack {a : BinAxis ℝ} (hc : a.Contiguous) (hw : a.PosWidths) {c : AxisCollection ℝ} (hb : (empty : AxisCollection ℝ).addAxes [a] = .ok c) {b : Nat} (hlt : b < a.nBins) :
    c.unpackIndices b = .ok [b] := by
  have hh := holds_of_addAxes hb
  obtain ⟨lo, hi, hbin, _⟩ := hc.bins b hlt
  have hfb : a.findBin lo = b := (C03_findBin_centre a hc b lo hi hbin (hw b lo hi hbin)).1
  obtain ⟨b1, f1, f2, f3, _⟩ := (C05_findBin [a] c hb (by simp) (by simpa using hc) [lo]).2 rfl
  have hb1 : b1 = b := by
    have : c.findBin [lo] = .ok (a.findBin lo) := by
      rw [hh.findBin (by simp) (by simp)]
      simp [rowMajor, shape]
    rw [hfb] at this
    exact Res.ok.inj (f1.symm.trans this)
  subst hb1
  rw [f3]
  simp [hfb]

theorem evenly_Ico {lo hi : ℝ} (h : lo < hi) (u v : ℝ) : (evenly lo hi).real (Set.Ico u v) = max 0 (min hi v - max lo u) / (hi - lo) := by
  unfold evenly
  rw [measureReal_def, cond_apply measurableSet_Ico, ENNReal.toReal_mul, ENNReal.toReal_inv, Set.Ico_inter_Ico, ← measureReal_def, ← measureReal_def, Real.volume_real_Ico, Real.volume_real_Ico,
    max_eq_left (sub_nonneg.2 h.le), inv_mul_eq_div, max_comm]

theorem evenly_prob {lo hi : ℝ} (h : lo < hi) : IsProbabilityMeasure (evenly lo hi) := by
  unfold evenly
  refine cond_isProbabilityMeasure_of_finite ?_ ?_
  · rw [Real.volume_Ico]; simpa using h
  · rw [Real.volume_Ico]; exact ENNReal.ofReal_ne_top

theorem evenly_inside {lo hi : ℝ} (S : Set ℝ) : (evenly lo hi).real S = (evenly lo hi).real (Set.Ico lo hi ∩ S) := by
  unfold evenly
  rw [measureReal_def, measureReal_def, cond_inter_self measurableSet_Ico]

/-- The share of a bin whose image is found in a bin of the axis. -/
theorem moved_mass {a : BinAxis ℝ} (hc : a.Contiguous) {b : Nat} {lo' hi' : ℝ} (hbin : a.BinIs b lo' hi') (hb : b < a.nBins) {lo hi f d : ℝ} (h : lo < hi) (hf : 0 < f) :
    (evenly lo hi).real {v | a.findBin (v * f + d) = b} = overlapFrac (lo * f + d) (hi * f + d) lo' hi' + (if b = 0 then shareBelow (lo * f + d) (hi * f + d) a.min else 0) +
      (if b = a.nBins - 1 then shareAbove (lo * f + d) (hi * f + d) a.max else 0) := by
  obtain ⟨g1, g2, g3⟩ := axis_bounds hc hbin hb
  have := evenly_prob h
  have scale : ∀ u v : ℝ, max 0 (min hi ((v - d) / f) - max lo ((u - d) / f)) / (hi - lo) = max 0 (min (hi * f + d) v - max (lo * f + d) u) / ((hi * f + d) - (lo * f + d)) := by
    intro u v
    have e1 : min (hi * f + d) v = min hi ((v - d) / f) * f + d := by
      rw [min_mul_of_nonneg _ _ hf.le, ← min_add_add_right]
      congr 1
      field_simp
      ring
    have e2 : max (lo * f + d) u = max lo ((u - d) / f) * f + d := by
      rw [max_mul_of_nonneg _ _ hf.le, ← max_add_add_right]
      congr 1
      field_simp
      ring
    rw [e1, e2]
    have e3 : ∀ p q : ℝ, p * f + d - (q * f + d) = (p - q) * f := fun p q => by ring
    rw [e3, e3, show max 0 ((min hi ((v - d) / f) - max lo ((u - d) / f)) * f) = max 0 (min hi ((v - d) / f) - max lo ((u - d) / f)) * f by
      rw [max_mul_of_nonneg _ _ hf.le, zero_mul], mul_div_mul_right _ _ hf.ne']
  have pre : {v : ℝ | a.findBin (v * f + d) = b} = (fun v => v * f + d) ⁻¹' {v | a.findBin v = b} := rfl
  have mt : Measurable fun v : ℝ => v * f + d := by fun_prop
  have ico : ∀ u v : ℝ, (fun v => v * f + d) ⁻¹' Set.Ico u v = Set.Ico ((u - d) / f) ((v - d) / f) := by
    intro u v
    ext y
    simp only [Set.mem_preimage, Set.mem_Ico, div_le_iff₀ hf, lt_div_iff₀ hf, sub_le_iff_le_add, lt_sub_iff_add_lt]
  have within : ∀ u v : ℝ, (evenly lo hi).real ((fun v => v * f + d) ⁻¹' Set.Ico u v) = overlapFrac (lo * f + d) (hi * f + d) u v := by
    intro u v
    rw [ico, evenly_Ico h, scale]
    rfl
  have tmono : lo * f + d < hi * f + d := by nlinarith
  have below : (evenly lo hi).real ((fun v => v * f + d) ⁻¹' Set.Iio a.min) = shareBelow (lo * f + d) (hi * f + d) a.min := by
    rw [evenly_inside, show Set.Ico lo hi ∩ (fun v => v * f + d) ⁻¹' Set.Iio a.min = Set.Ico lo hi ∩ (fun v => v * f + d) ⁻¹' Set.Ico (lo * f + d) a.min by
      ext y
      simp only [Set.mem_inter_iff, Set.mem_preimage, Set.mem_Iio, Set.mem_Ico]
      constructor
      · rintro ⟨p, q⟩; exact ⟨p, by nlinarith [p.1], q⟩
      · rintro ⟨p, q⟩; exact ⟨p, q.2⟩, ← evenly_inside, within]
    unfold overlapFrac overlap shareBelow
    rw [max_self]
  have above : (evenly lo hi).real ((fun v => v * f + d) ⁻¹' Set.Ici a.max) = shareAbove (lo * f + d) (hi * f + d) a.max := by
    rw [evenly_inside, show Set.Ico lo hi ∩ (fun v => v * f + d) ⁻¹' Set.Ici a.max = Set.Ico lo hi ∩ (fun v => v * f + d) ⁻¹' Set.Ico a.max (hi * f + d) by
      ext y
      simp only [Set.mem_inter_iff, Set.mem_preimage, Set.mem_Ici, Set.mem_Ico]
      constructor
      · rintro ⟨p, q⟩; exact ⟨p, q, by nlinarith [p.2]⟩
      · rintro ⟨p, q⟩; exact ⟨p, q.1⟩, ← evenly_inside, within]
    unfold overlapFrac overlap shareAbove
    rw [min_self]
  rw [pre, bin_values hc hbin hb, Set.preimage_union, Set.preimage_union, measureReal_union, measureReal_union, within]
  · congr 1
    · congr 1
      split
      · exact below
      · simp
    · split
      · exact above
      · simp
  · refine Disjoint.preimage _ ?_
    rw [Set.disjoint_left]
    intro v w1 w2
    split at w2
    · exact absurd w2 (not_lt.2 (g1.trans w1.1))
    · exact w2
  · refine mt ?_
    split
    · exact measurableSet_Iio
    · exact MeasurableSet.empty
  · rw [← Set.preimage_union]
    refine Disjoint.preimage _ ?_
    rw [Set.disjoint_left]
    intro v w1 w2
    split at w2
    · have w2' : a.max ≤ v := w2
      rcases w1 with w1 | w1
      · linarith [w1.2]
      · split at w1
        · have w1' : v < a.min := w1
          linarith
        · exact w1
    · exact w2
  · refine mt ?_
    split
    · exact measurableSet_Ici
    · exact MeasurableSet.empty

/-- A systematic that moves the value of `o` of complete events from `v` to `f v + d`. -/
def EventSys.Moves (s : EventSys ℝ) (names : List String) (o : String) (f d : ℝ) : Prop :=
  ∀ (e : Event ℝ) (v : ℝ), e.Complete names → e.value o = some v → ∃ e', s.apply e = .ok e' ∧ e'.value o = some (v * f + d)

theorem traverse_values {s : EventSys ℝ} {names : List String} {o : String} {f d : ℝ} (hs : s.Moves names o f d) : ∀ (es : List (Event ℝ)) (x : Fin es.length → ℝ), (∀ e ∈ es, e.Complete names) →
    (∀ i, es[i].value o = some (x i)) → ∃ es', Res.traverse s.apply es = .ok es' ∧ ∃ hl : es'.length = es.length, ∀ i : Fin es'.length, es'[i].value o = some (x (i.cast hl) * f + d) := by
  intro es
  induction es with
  | nil => intro x _ _; exact ⟨[], rfl, rfl, fun i => i.elim0⟩
  | cons e r ih =>
    intro x he hx
    obtain ⟨e', a1, a2⟩ := hs e (x ⟨0, by simp⟩) (he e (by simp)) (hx ⟨0, by simp⟩)
    obtain ⟨es', b1, b2, b3⟩ := ih (fun i => x i.succ) (fun e h => he e (by simp [h])) (fun i => hx i.succ)
    refine ⟨e' :: es', ?_, by simp [b2], ?_⟩
    · unfold Res.traverse
      rw [a1]
      simp only [Res.ok_bind, b1]
    · intro i
      rcases i with ⟨i, hi⟩
      cases i with
      | zero => exact a2
      | succ i => exact b3 ⟨i, by simpa using hi⟩

/-- The response of a moving systematic applied to the histogram of events in given bins. -/
theorem moved_contents {o : String} {n : Nat} {x : Fin n → ℝ} {a : BinAxis ℝ} (hc : a.Contiguous) (hw : a.PosWidths) {c : AxisCollection ℝ}
    (hb : (empty : AxisCollection ℝ).addAxes [a] = .ok c) {lo hi : Nat → ℝ} (hbin : ∀ b, b < a.nBins → a.BinIs b (lo b) (hi b)) {B : Fin n → Nat} (hB : ∀ i, a.findBin (x i) = B i) {h0 : Histogram ℝ}
    (hv : h0.Valid [a]) (hcon : ∀ b, b < a.nBins → h0.getBinContent b = .ok (∑ i, if a.findBin (x i) = b then 1 else 0)) {t : ℝ → ℝ} {s' : AxisSys ℝ} (hrow : s'.base.response.nRows = c.nBins)
    (hcol : s'.base.response.nCols = c.nBins) (hsz : s'.base.response.Sized)
    (hr : ∀ b b', b < c.nBins → b' < c.nBins → ∀ is is' : List Nat, c.unpackIndices b = .ok is → c.unpackIndices b' = .ok is' →
        (AgreeOff 0 is is' → ∀ i j lo hi lo' hi', is[0]? = some i → is'[0]? = some j → a.BinIs i lo hi → a.BinIs j lo' hi' →
          s'.base.response.getComponent b' b = .ok (overlapFrac (t lo) (t hi) lo' hi')) ∧ (¬ AgreeOff 0 is is' → s'.base.response.getComponent b' b = .ok 0)) (nm : String) :
    ∃ p w, s'.base.apply ⟨nm, h0, ObsSet.ofNames [o]⟩ true = .ok (p, w) ∧
      ∀ b, b < a.nBins → p.hist.getBinContent b = .ok (∑ i, overlapFrac (t (lo (B i))) (t (hi (B i))) (lo b) (hi b)) := by
  have hh := holds_of_addAxes hb
  have hN : c.nBins = a.nBins := by rw [hh.total_ne (by simp)]; simp [shape]
  have hnb : h0.nBins = a.nBins := by rw [hv.nb]; simp [shape]
  obtain ⟨p, p1, _, _, _, _, _, p7⟩ := ((C21_apply_partial s'.base [a] ⟨nm, h0, ObsSet.ofNames [o]⟩ hv hsz (hrow.trans hcol.symm)).2 (by rw [hcol, hN]; exact hnb)).1
  refine ⟨p, _, p1, fun b hlt => ?_⟩
  rw [p7 b (by rw [hnb]; exact hlt)]
  congr 1
  have hcomp : ∀ j, j < a.nBins → s'.base.response.comp b j = overlapFrac (t (lo j)) (t (hi j)) (lo b) (hi b) := by
    intro j hj
    have := (hr j b (by omega) (by omega) [j] [b] (one_axis_unpack hc hw hb hj) (one_axis_unpack hc hw hb hlt)).1 (by
      intro d hd
      obtain ⟨d', rfl⟩ := Nat.exists_eq_succ_of_ne_zero hd
      rfl) j b (lo j) (hi j) (lo b) (hi b) rfl rfl (hbin j hj) (hbin b hlt)
    unfold Matrix'.comp
    rw [this]
  unfold responseTimes
  have hrr : ∀ f : Nat → ℝ, ((List.range a.nBins).map f).sum = ∑ j ∈ Finset.range a.nBins, f j := fun f => rfl
  rw [hnb, hrr]
  have step : ∀ j ∈ Finset.range a.nBins, s'.base.response.comp b j * h0.content j = ∑ i, if B i = j then overlapFrac (t (lo (B i))) (t (hi (B i))) (lo b) (hi b) else 0 := by
    intro j hj
    have hj := Finset.mem_range.1 hj
    have : h0.content j = ∑ i, if a.findBin (x i) = j then 1 else 0 := by
      unfold Histogram.content
      rw [hcon j hj]
    rw [this, Finset.mul_sum]
    refine Finset.sum_congr rfl fun i _ => ?_
    rw [hB i]
    by_cases hi : B i = j
    · rw [if_pos hi, if_pos hi, mul_one, hcomp j hj, hi]
    · rw [if_neg hi, if_neg hi, mul_zero]
  rw [Finset.sum_congr rfl step, Finset.sum_comm]
  refine Finset.sum_congr rfl fun i _ => ?_
  rw [Finset.sum_ite_eq, if_pos (Finset.mem_range.2 (by rw [← hB i]; exact (C03_findBin a hc (x i)).1))]

/-- The comparison for any systematics that move values by the same affine map. -/
theorem move_agree {s : EventSys ℝ} {names : List String} {o : String} {f d : ℝ} (hf : 0 < f) (hs : s.Moves names o f d) {a : BinAxis ℝ} (hc : a.Contiguous) (hw : a.PosWidths) {c : AxisCollection ℝ}
    (hb : (empty : AxisCollection ℝ).addAxes [a] = .ok c) {lo hi : Nat → ℝ} (hbin : ∀ b, b < a.nBins → a.BinIs b (lo b) (hi b)) {n : Nat} {B : Fin n → Nat} (hB : ∀ i, B i < a.nBins)
    {ev : Fin n → ℝ → Event ℝ} (hev : ∀ i v, (ev i v).Complete names ∧ (ev i v).value o = some v) (nm : String) :
    ∃ (s' : AxisSys ℝ) (P : Nat → ℝ) (H : (Fin n → ℝ) → Histogram ℝ), (freshAxisSys o [o] c).constructWith (fun x => x * f + d) = .ok s' ∧
      (∀ x : Fin n → ℝ, (∀ i, lo (B i) ≤ x i ∧ x i < hi (B i)) → ∃ h0 p w, histOfEvents c o (List.ofFn fun i => ev i (x i)) = .ok h0 ∧ s'.base.apply ⟨nm, h0, ObsSet.ofNames [o]⟩ true = .ok (p, w) ∧
        ∀ b, b < a.nBins → p.hist.getBinContent b = .ok (P b)) ∧
      (∀ x, ∃ es', Res.traverse s.apply (List.ofFn fun i => ev i (x i)) = .ok es' ∧ histOfEvents c o es' = .ok (H x)) ∧
      ∀ b, b < a.nBins → ∫ x, (H x).content b ∂(Measure.pi fun i => evenly (lo (B i)) (hi (B i))) = P b + (if b = 0 then ∑ i, shareBelow (lo (B i) * f + d) (hi (B i) * f + d) a.min else 0) +
        (if b = a.nBins - 1 then ∑ i, shareAbove (lo (B i) * f + d) (hi (B i) * f + d) a.max else 0) := by
  have hlh : ∀ i, lo (B i) < hi (B i) := fun i => hw _ _ _ (hbin _ (hB i))
  have mono : StrictMono fun x : ℝ => x * f + d := fun x y h => by
    show x * f + d < y * f + d
    nlinarith
  obtain ⟨s', c1, c2, c3, c4, c5⟩ := C20_response [a] c hb (by simpa using hc) 0 a rfl hw o [o] (by simp) rfl (fun x => x * f + d) mono
  have hval : ∀ x : Fin n → ℝ, ∀ i : Fin (List.ofFn fun i => ev i (x i)).length, (List.ofFn fun i => ev i (x i))[i].value o = some (x (i.cast (List.length_ofFn))) := by
    intro x i
    have : (List.ofFn fun i => ev i (x i))[i] = ev (i.cast List.length_ofFn) (x (i.cast List.length_ofFn)) := List.getElem_ofFn _
    rw [this]
    exact (hev _ _).2
  have hcomp : ∀ x : Fin n → ℝ, ∀ e ∈ (List.ofFn fun i => ev i (x i)), e.Complete names := by
    intro x e he
    obtain ⟨i, rfl⟩ := List.mem_ofFn.1 he
    exact (hev _ _).1
  choose out g1 g2 g3 using fun x => traverse_values hs (List.ofFn fun i => ev i (x i)) _ (hcomp x) (hval x)
  choose H f1 f2 f3 f4 using fun x => histOfEvents_ok hc hb (g3 x)
  refine ⟨s', fun b => ∑ i, overlapFrac (lo (B i) * f + d) (hi (B i) * f + d) (lo b) (hi b), H, c1, ?_, fun x => ⟨out x, g1 x, f1 x⟩, fun b hlt => ?_⟩
  · intro x hx
    obtain ⟨h0, e1, e2, e3, e4⟩ := histOfEvents_ok hc hb (hval x)
    have e4' : ∀ b, b < a.nBins → h0.getBinContent b = .ok (∑ i, if a.findBin (x i) = b then 1 else 0) := by
      intro b hlt
      rw [e4 b hlt]
      congr 1
      exact Fin.sum_congr' (fun i => if a.findBin (x i) = b then (1 : ℝ) else 0) List.length_ofFn
    have hfb : ∀ i, a.findBin (x i) = B i := by
      intro i
      have hbi := hbin _ (hB i)
      obtain ⟨q1, q2, q3⟩ := axis_bounds hc hbi (hB i)
      exact (((C03_findBin a hc (x i)).2.1 (q1.trans (hx i).1) (lt_of_lt_of_le (hx i).2 q3) _ _ _ hbi).1 (hx i)).symm
    obtain ⟨p, w, p1, p2⟩ := moved_contents (o := o) hc hw hb hbin hfb e2 e4' c2 c3 c4 c5 nm
    exact ⟨h0, p, w, e1, p1, p2⟩
  · have hmono : Monotone a.findBin := fun v w hvw => C03_findBin_mono a hc v w hvw
    have hS : MeasurableSet {v : ℝ | a.findBin (v * f + d) = b} := (hmono.measurable.comp (show Measurable fun v : ℝ => v * f + d by fun_prop)) (measurableSet_singleton b)
    have e : ∀ x, (H x).content b = ∑ i, {v : ℝ | a.findBin (v * f + d) = b}.indicator (fun _ => (1 : ℝ)) (x i) := by
      intro x
      unfold Histogram.content
      rw [f4 x b hlt]
      simp only
      refine (Fin.sum_congr' (fun i => if a.findBin (x i * f + d) = b then (1 : ℝ) else 0) ((g2 x).trans List.length_ofFn)).trans ?_
      refine Finset.sum_congr rfl fun i _ => ?_
      by_cases hi : a.findBin (x i * f + d) = b
      · rw [if_pos hi, Set.indicator_of_mem (show x i ∈ {v : ℝ | a.findBin (v * f + d) = b} from hi)]
      · rw [if_neg hi, Set.indicator_of_notMem (show x i ∉ {v : ℝ | a.findBin (v * f + d) = b} from hi)]
    simp only [e]
    have hP : ∀ i, IsProbabilityMeasure (evenly (lo (B i)) (hi (B i))) := fun i => evenly_prob (hlh i)
    have hmi : Measurable ({v : ℝ | a.findBin (v * f + d) = b}.indicator fun _ : ℝ => (1 : ℝ)) := measurable_const.indicator hS
    have s1 : (if b = 0 then ∑ i, shareBelow (lo (B i) * f + d) (hi (B i) * f + d) a.min else 0) = ∑ i, if b = 0 then shareBelow (lo (B i) * f + d) (hi (B i) * f + d) a.min else 0 := by split <;> simp
    have s2 : (if b = a.nBins - 1 then ∑ i, shareAbove (lo (B i) * f + d) (hi (B i) * f + d) a.max else 0) = ∑ i, if b = a.nBins - 1 then shareAbove (lo (B i) * f + d) (hi (B i) * f + d) a.max else 0 := by
      split <;> simp
    rw [integral_finsetSum, s1, s2, ← Finset.sum_add_distrib, ← Finset.sum_add_distrib]
    · refine Finset.sum_congr rfl fun i _ => ?_
      have law := (measurePreserving_eval (fun i => evenly (lo (B i)) (hi (B i))) i).map_eq
      rw [← integral_map (φ := fun x : Fin n → ℝ => x i) (measurable_pi_apply i).aemeasurable hmi.aestronglyMeasurable]
      erw [law]
      rw [integral_indicator_const _ hS, smul_eq_mul, mul_one]
      exact moved_mass hc (hbin b hlt) hlt (hlh i) hf
    · intro i _
      refine Integrable.of_bound (C := 1) (hmi.comp (measurable_pi_apply i)).aestronglyMeasurable (Filter.Eventually.of_forall fun x => ?_)
      unfold Set.indicator
      split <;> simp

/-- C120, scaling: events spread evenly over the bins they are in are scaled and put into a histogram; or they are put into the histogram first and it is scaled by the same factor. In every bin the average of
the first is the content of the second; but the first and last bin of the first also have the share of the bins that leaves the axis, which the second loses. -/
theorem C120_scale {s : EventSys ℝ} {names : List String} {o : String} {os : List String} (hl : s.law = .scale) (hf : 0 < s.value) (ho : s.outObs = o :: os) (hm : o ∈ names) {a : BinAxis ℝ}
    (hc : a.Contiguous) (hw : a.PosWidths) {c : AxisCollection ℝ} (hb : (empty : AxisCollection ℝ).addAxes [a] = .ok c) {lo hi : Nat → ℝ} (hbin : ∀ b, b < a.nBins → a.BinIs b (lo b) (hi b))
    {n : Nat} {B : Fin n → Nat} (hB : ∀ i, B i < a.nBins) {ev : Fin n → ℝ → Event ℝ} (hev : ∀ i v, (ev i v).Complete names ∧ (ev i v).value o = some v) (nm : String) :
    ∃ (s' : AxisSys ℝ) (P : Nat → ℝ) (H : (Fin n → ℝ) → Histogram ℝ), (freshAxisSys o [o] c).constructScale s.value = .ok s' ∧
      (∀ x : Fin n → ℝ, (∀ i, lo (B i) ≤ x i ∧ x i < hi (B i)) → ∃ h0 p w, histOfEvents c o (List.ofFn fun i => ev i (x i)) = .ok h0 ∧ s'.base.apply ⟨nm, h0, ObsSet.ofNames [o]⟩ true = .ok (p, w) ∧
        ∀ b, b < a.nBins → p.hist.getBinContent b = .ok (P b)) ∧
      (∀ x, ∃ es', Res.traverse s.apply (List.ofFn fun i => ev i (x i)) = .ok es' ∧ histOfEvents c o es' = .ok (H x)) ∧
      ∀ b, b < a.nBins → ∫ x, (H x).content b ∂(Measure.pi fun i => evenly (lo (B i)) (hi (B i))) = P b + (if b = 0 then ∑ i, shareBelow (lo (B i) * s.value) (hi (B i) * s.value) a.min else 0) +
        (if b = a.nBins - 1 then ∑ i, shareAbove (lo (B i) * s.value) (hi (B i) * s.value) a.max else 0) := by
  have hs : s.Moves names o s.value 0 := by
    intro e v he hv
    obtain ⟨v', h1, h2, _⟩ := C64_laws s e names he o os ho hm
    obtain ⟨e', g1, _, g3, _⟩ := h2 hl
    rw [hv] at h1
    cases h1
    exact ⟨e', g1, by rw [g3, add_zero]⟩
  have key := move_agree hf hs hc hw hb hbin hB hev nm
  simp only [add_zero] at key
  rw [((C20_scale_shift (freshAxisSys o [o] c) s.value).2.1 hf).1]
  exact key

/-- C120, shifting: the same for a shift of the events and of the histogram. -/
theorem C120_shift {s : EventSys ℝ} {names : List String} {o : String} {os : List String} (hl : s.law = .shift) (ho : s.outObs = o :: os) (hm : o ∈ names) {a : BinAxis ℝ}
    (hc : a.Contiguous) (hw : a.PosWidths) {c : AxisCollection ℝ} (hb : (empty : AxisCollection ℝ).addAxes [a] = .ok c) {lo hi : Nat → ℝ} (hbin : ∀ b, b < a.nBins → a.BinIs b (lo b) (hi b))
    {n : Nat} {B : Fin n → Nat} (hB : ∀ i, B i < a.nBins) {ev : Fin n → ℝ → Event ℝ} (hev : ∀ i v, (ev i v).Complete names ∧ (ev i v).value o = some v) (nm : String) :
    ∃ (s' : AxisSys ℝ) (P : Nat → ℝ) (H : (Fin n → ℝ) → Histogram ℝ), (freshAxisSys o [o] c).constructShift s.value = .ok s' ∧
      (∀ x : Fin n → ℝ, (∀ i, lo (B i) ≤ x i ∧ x i < hi (B i)) → ∃ h0 p w, histOfEvents c o (List.ofFn fun i => ev i (x i)) = .ok h0 ∧ s'.base.apply ⟨nm, h0, ObsSet.ofNames [o]⟩ true = .ok (p, w) ∧
        ∀ b, b < a.nBins → p.hist.getBinContent b = .ok (P b)) ∧
      (∀ x, ∃ es', Res.traverse s.apply (List.ofFn fun i => ev i (x i)) = .ok es' ∧ histOfEvents c o es' = .ok (H x)) ∧
      ∀ b, b < a.nBins → ∫ x, (H x).content b ∂(Measure.pi fun i => evenly (lo (B i)) (hi (B i))) = P b + (if b = 0 then ∑ i, shareBelow (lo (B i) + s.value) (hi (B i) + s.value) a.min else 0) +
        (if b = a.nBins - 1 then ∑ i, shareAbove (lo (B i) + s.value) (hi (B i) + s.value) a.max else 0) := by
  have hs : s.Moves names o 1 s.value := by
    intro e v he hv
    obtain ⟨v', h1, _, h2, _⟩ := C64_laws s e names he o os ho hm
    obtain ⟨e', g1, _, g3, _⟩ := h2 hl
    rw [hv] at h1
    cases h1
    exact ⟨e', g1, by rw [g3, mul_one]⟩
  have key := move_agree one_pos hs hc hw hb hbin hB hev nm
  simp only [mul_one] at key
  exact key

/-- A scale of 3/2 of the observable `e`. -/
noncomputable def exScaleUp : EventSys ℝ := ⟨.scale, 3/2, "p", [], ["e"]⟩

/-- Three events, two in the first and one in the second of the two bins from 0 to 4, scaled by 3/2: the hypotheses of `C120_scale` are met. -/
example : ∃ (a : BinAxis ℝ) (c : AxisCollection ℝ) (lo hi : Nat → ℝ), BinAxis.mkEqual "e" (0 : ℝ) 4 2 = .ok a ∧ (empty : AxisCollection ℝ).addAxes [a] = .ok c ∧
    ∃ (s' : AxisSys ℝ) (P : Nat → ℝ) (H : (Fin 3 → ℝ) → Histogram ℝ), (freshAxisSys "e" ["e"] c).constructScale (3/2) = .ok s' ∧
      (∀ x : Fin 3 → ℝ, (∀ i, lo (![0, 0, 1] i) ≤ x i ∧ x i < hi (![0, 0, 1] i)) → ∃ h0 p w, histOfEvents c "e" (List.ofFn fun i => ⟨[x i, 9], some ["e", "r"]⟩) = .ok h0 ∧
        s'.base.apply ⟨"h", h0, ObsSet.ofNames ["e"]⟩ true = .ok (p, w) ∧ ∀ b, b < a.nBins → p.hist.getBinContent b = .ok (P b)) ∧
      (∀ x : Fin 3 → ℝ, ∃ es', Res.traverse (exScaleUp).apply (List.ofFn fun i => ⟨[x i, 9], some ["e", "r"]⟩) = .ok es' ∧ histOfEvents c "e" es' = .ok (H x)) ∧
      ∀ b, b < a.nBins → ∫ x, (H x).content b ∂(Measure.pi fun i => evenly (lo (![0, 0, 1] i)) (hi (![0, 0, 1] i))) =
        P b + (if b = 0 then ∑ i : Fin 3, shareBelow (lo (![0, 0, 1] i) * (3/2)) (hi (![0, 0, 1] i) * (3/2)) a.min else 0) +
        (if b = a.nBins - 1 then ∑ i : Fin 3, shareAbove (lo (![0, 0, 1] i) * (3/2)) (hi (![0, 0, 1] i) * (3/2)) a.max else 0) := by
  obtain ⟨a, ha⟩ := ((C01_equalAxis_accepts "e" "" (0 : ℝ) 4 2).1).2 ⟨by norm_num, by norm_num⟩
  have hc := BinAxis.mkEqual_contiguous ha
  have hw := BinAxis.mkEqual_posWidths ha
  have hn : a.nBins = 2 := by
    obtain ⟨_, _, rfl⟩ := BinAxis.mkEqual_ok_iff.1 ha
    rfl
  obtain ⟨c, hb⟩ := addAxes_ok_of_nodup (as := [a]) (by simp)
  have hx : ∀ b, ∃ lo hi, b < a.nBins → a.BinIs b lo hi := by
    intro b
    by_cases h : b < a.nBins
    · obtain ⟨lo, hi, h1, _⟩ := hc.bins b h
      exact ⟨lo, hi, fun _ => h1⟩
    · exact ⟨0, 0, fun w => absurd w h⟩
  choose lo hi hbin using hx
  exact ⟨a, c, lo, hi, ha, hb, C120_scale (s := exScaleUp) (names := ["e", "r"]) (o := "e") (os := []) rfl (by show (0 : ℝ) < 3/2; norm_num) rfl (by simp) hc hw hb hbin (B := ![0, 0, 1]) (by
    intro i
    rw [hn]
    fin_cases i <;> decide) (ev := fun _ v => ⟨[v, 9], some ["e", "r"]⟩) (fun _ _ => ⟨⟨by decide, rfl, rfl⟩, rfl⟩) "h"⟩

/-- The numbers: a first bin from 0 to 2 scaled by 3/2 keeps two thirds; the image from 3 to 6 of the second is one third inside the axis and two thirds above. -/
example : overlapFrac ((0 : ℝ) * (3/2)) (2 * (3/2)) 0 2 = 2/3 ∧ overlapFrac ((2 : ℝ) * (3/2)) (4 * (3/2)) 2 4 = 1/3 ∧ shareAbove (2 * (3/2)) (4 * (3/2)) 4 = 2/3 ∧ shareBelow (2 - 3) (4 - 3) 0 = 1/2 := by
  unfold overlapFrac overlap shareAbove shareBelow
  norm_num

/-- A shift for which `C120_shift` applies. -/
example : (⟨.shift, 1/2, "p", [], ["e"]⟩ : EventSys ℝ).Moves ["e", "r"] "e" 1 (1/2) := by
  intro e v he hv
  obtain ⟨v', h1, _, h2, _⟩ := C64_laws (⟨.shift, 1/2, "p", [], ["e"]⟩ : EventSys ℝ) e ["e", "r"] he "e" [] rfl (by simp)
  obtain ⟨e', g1, _, g3, _⟩ := h2 rfl
  rw [hv] at h1
  cases h1
  exact ⟨e', g1, by rw [g3, mul_one]⟩

end Oxsx
