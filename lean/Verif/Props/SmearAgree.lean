import Verif.Spec.SmearAgree
import Verif.Props.SampleLaw
import Verif.Props.Convolution
import Verif.Props.SystematicApply
import Verif.Props.ConvergeMarginal
import Verif.Props.Filling
set_option linter.unusedSectionVars false
set_option linter.unusedSimpArgs false
set_option linter.unusedVariables false
/-
C119: smearing events and convolving their histogram agree on average.
-/
namespace Oxsx
open MeasureTheory ProbabilityTheory
open scoped ENNReal
open AxisCollection Histogram

/-- The histogram of events whose values are known. -/
theorem histOfEvents_ok {a : BinAxis ℝ} (hc : a.Contiguous) {c : AxisCollection ℝ} (hb : (empty : AxisCollection ℝ).addAxes [a] = .ok c) {o : String} {es : List (Event ℝ)}
    {x : Fin es.length → ℝ} (hx : ∀ i, es[i].value o = some (x i)) :
    ∃ h, histOfEvents c o es = .ok h ∧ h.Valid [a] ∧ h.axes = c ∧ ∀ b, b < a.nBins → h.getBinContent b = .ok (∑ i, if a.findBin (x i) = b then 1 else 0) := by
  have hv0 : (Histogram.ofAxes c).Valid [a] := valid_ofAxes (holds_of_addAxes hb) (by simp)
  have key : ∀ (es : List (Event ℝ)) (x : Fin es.length → ℝ) (h0 : Histogram ℝ) (y : Nat → ℝ), h0.Valid [a] → (∀ b, b < a.nBins → h0.getBinContent b = .ok (y b)) → (∀ i, es[i].value o = some (x i)) →
      ∃ h, Res.forFold (fun h e => Event.getDatumByName e o >>= fun v => Histogram.fill h [v] 1) h0 es = .ok h ∧ h.Valid [a] ∧ h.axes = h0.axes ∧
        ∀ b, b < a.nBins → h.getBinContent b = .ok (y b + ∑ i, if a.findBin (x i) = b then 1 else 0) := by
    intro es
    induction es with
    | nil => intro x h0 y hv hy _; exact ⟨h0, rfl, hv, rfl, fun b hb => by rw [hy b hb]; simp⟩
    | cons e r ih =>
      intro x h0 y hv hy hx
      have he : e.getDatumByName o = .ok (x ⟨0, by simp⟩) := by
        have := hx ⟨0, by simp⟩
        unfold Event.value at this
        revert this
        show (e.getDatumByName o).toOption = _ → _
        cases e.getDatumByName o with
        | ok v => intro h; exact congrArg Res.ok (Option.some.inj h)
        | throw _ => intro h; cases h
        | ub => intro h; cases h
      obtain ⟨b0, f1, f2, f3⟩ := hv.fill (by simpa using hc) (vs := [x ⟨0, by simp⟩]) rfl 1
      obtain ⟨h', b1, v1, g1, g2, g3, g4, g5, g6, g7, g8⟩ := (C07_fill_one [a] h0 hv (by simpa using hc) [x ⟨0, by simp⟩] 1).2 rfl
      have hv' : h'.Valid [a] := by
        rw [f3] at g1
        rw [← Res.ok.inj g1]
        exact ⟨hv.axes, hv.ne, hv.nb, hv.nd, by simpa using hv.len⟩
      have hb1 : b1 = a.findBin (x ⟨0, by simp⟩) := (Res.ok.inj ((findBin_one hv _).symm.trans g2)).symm
      have hnb : h0.nBins = a.nBins := by rw [hv.nb]; simp [shape]
      obtain ⟨h, i1, i2, i3, i4⟩ := ih (fun i => x i.succ) h' (fun b => y b + if a.findBin (x ⟨0, by simp⟩) = b then 1 else 0) hv' (by
        intro b hb
        by_cases hbb : b = b1
        · subst hbb
          rw [g5, if_pos hb1.symm, Res.ok.inj (g4.symm.trans (hy _ hb))]
        · rw [g8 b hbb (by omega), hy b hb, if_neg (fun w => hbb (w.symm.trans hb1.symm)), add_zero]) (fun i => hx i.succ)
      refine ⟨h, ?_, i2, i3.trans g6, fun b hb => ?_⟩
      · rw [Res.forFold_cons_ok (s' := h') (by rw [he]; exact g1)]
        exact i1
      · rw [i4 b hb]
        have e : ∑ i : Fin (e :: r).length, (if a.findBin (x i) = b then (1 : ℝ) else 0) = (if a.findBin (x ⟨0, by simp⟩) = b then 1 else 0) + ∑ i : Fin r.length, if a.findBin (x i.succ) = b then (1 : ℝ) else 0 := by
          show ∑ i : Fin (r.length + 1), _ = _
          rw [Fin.sum_univ_succ]
          rfl
        rw [e, add_assoc]
  obtain ⟨h, h1, h2, h3, h4⟩ := key es x (Histogram.ofAxes c) (fun _ => 0) hv0 (by
    intro b hbb
    have := (C67_new "" [a] c hb (by simp) (by simpa using hc) [o] [o] rfl (by simp)).2.2.2.1 b
    exact this (by
      show b < (Histogram.ofAxes c).nBins
      rw [hv0.nb]; simpa [shape] using hbb)) hx
  exact ⟨h, h1, h2, h3, fun b hb => by rw [h4 b hb, zero_add]⟩

theorem axis_bounds {a : BinAxis ℝ} (hc : a.Contiguous) {b : Nat} {lo hi : ℝ} (hbin : a.BinIs b lo hi) (hb : b < a.nBins) : a.min ≤ lo ∧ lo ≤ hi ∧ hi ≤ a.max := by
  obtain ⟨lo', hi', hb', hle, _⟩ := hc.bins b hb
  have e1 := hb'.1; rw [hbin.1] at e1; cases e1
  have e2 := hb'.2; rw [hbin.2] at e2; cases e2
  refine ⟨?_, hle, hc.high_mono (show b ≤ a.nBins - 1 by omega) hbin.2 hc.last⟩
  rcases Nat.eq_zero_or_pos b with h0 | h0
  · subst h0; have := hbin.1; rw [hc.first] at this; cases this; exact le_rfl
  · obtain ⟨lo0, hi0, hb0, hle0, _⟩ := hc.bins 0 hc.pos
    have h4 := hc.high_le_low h0 hb0.2 hbin.1
    have := hb0.1; rw [hc.first] at this; cases this
    exact le_trans hle0 h4

/-- Which values a bin gets: those between its edges; the first also those below the axis, the last those above. -/
theorem bin_values {a : BinAxis ℝ} (hc : a.Contiguous) {b : Nat} {lo hi : ℝ} (hbin : a.BinIs b lo hi) (hb : b < a.nBins) :
    {v | a.findBin v = b} = (Set.Ico lo hi ∪ if b = 0 then Set.Iio a.min else ∅) ∪ if b = a.nBins - 1 then Set.Ici a.max else ∅ := by
  obtain ⟨g1, g2, g3⟩ := axis_bounds hc hbin hb
  ext v
  obtain ⟨f1, f2, f3, f4⟩ := C03_findBin a hc v
  have m0 : v ∈ (if b = 0 then Set.Iio a.min else ∅) ↔ b = 0 ∧ v < a.min := by split <;> simp_all
  have m1 : v ∈ (if b = a.nBins - 1 then Set.Ici a.max else ∅) ↔ b = a.nBins - 1 ∧ a.max ≤ v := by split <;> simp_all
  rw [Set.mem_union, Set.mem_union, m0, m1, Set.mem_Ico]
  show a.findBin v = b ↔ _
  rcases lt_or_ge v a.min with h | h
  · rw [f3 h]
    constructor
    · intro w; exact .inl (.inr ⟨w.symm, h⟩)
    · rintro ((w | w) | w)
      · linarith [w.1]
      · exact w.1.symm
      · linarith [w.2]
  · rcases lt_or_ge v a.max with h' | h'
    · rw [eq_comm, ← f2 h h' b lo hi hbin]
      constructor
      · intro w; exact .inl (.inl w)
      · rintro ((w | w) | w)
        · exact w
        · linarith [w.2]
        · linarith [w.2]
    · rw [f4 h']
      constructor
      · intro w; exact .inr ⟨w.symm, h'⟩
      · rintro ((w | w) | w)
        · linarith [w.2]
        · linarith [w.2]
        · exact w.1.symm

/-- The mass of the normal density in the bin of an axis; values outside the axis are counted in its first and last bin. -/
theorem bin_mass {a : BinAxis ℝ} (hc : a.Contiguous) {b : Nat} {lo hi : ℝ} (hbin : a.BinIs b lo hi) (hb : b < a.nBins) (μ : ℝ) {σ : ℝ} (hσ : 0 < σ) :
    (gaussianReal μ (variance σ)).real {v | a.findBin v = b} = (normalCdf (hi - μ) σ - normalCdf (lo - μ) σ) + (if b = 0 then normalCdf (a.min - μ) σ else 0) +
      (if b = a.nBins - 1 then 1 - normalCdf (a.max - μ) σ else 0) := by
  obtain ⟨g1, g2, g3⟩ := axis_bounds hc hbin hb
  have hne := variance_ne hσ
  haveI := nullSingletonClass_gaussianReal (μ := μ) hne
  have below : ∀ t, (gaussianReal μ (variance σ)).real (Set.Iio t) = normalCdf (t - μ) σ := by
    intro t
    rw [measureReal_congr Iio_ae_eq_Iic, normalCdf_shift, Measure.real, gaussianReal_apply_eq_integral _ hne,
      ENNReal.toReal_ofReal (setIntegral_nonneg measurableSet_Iic fun t _ => gaussianPDFReal_nonneg _ _ _)]
  have within : (gaussianReal μ (variance σ)).real (Set.Ico lo hi) = normalCdf (hi - μ) σ - normalCdf (lo - μ) σ := by
    rw [measureReal_congr Ico_ae_eq_Ioc, normalCdf_diff g2, Measure.real, gaussianReal_apply_eq_integral _ hne,
      ENNReal.toReal_ofReal (setIntegral_nonneg measurableSet_Ioc fun t _ => gaussianPDFReal_nonneg _ _ _)]
  have above : (gaussianReal μ (variance σ)).real (Set.Ici a.max) = 1 - normalCdf (a.max - μ) σ := by
    rw [← below, ← Set.compl_Iio, probReal_compl_eq_one_sub measurableSet_Iio]
  rw [bin_values hc hbin hb, measureReal_union, measureReal_union, within]
  · congr 1
    · congr 1
      split
      · exact below _
      · simp
    · split
      · exact above
      · simp
  · rw [Set.disjoint_left]
    intro v w1 w2
    split at w2
    · exact absurd w2 (not_lt.2 (g1.trans w1.1))
    · exact w2
  · split
    · exact measurableSet_Iio
    · exact MeasurableSet.empty
  · rw [Set.disjoint_left]
    intro v w1 w2
    split at w2
    · have w2' : a.max ≤ v := w2
      rcases w1 with w1 | w1
      · linarith [w1.2]
      · split at w1
        · have w1' : v < a.min := w1
          linarith
        · exact w1
    · exact w2
  · split
    · exact measurableSet_Ici
    · exact MeasurableSet.empty

/-- The average contents of the histogram of the smeared events. -/
theorem mean_contents {ec : EventConvolution ℝ} {names : List String} {o : String} {m s : ℝ → ℝ} (h : ec.Smears Real.sqrt names o m s) {es : List (Event ℝ)} (he : ∀ e ∈ es, e.Complete names)
    {x : Fin es.length → ℝ} (hx : ∀ i, es[i].value o = some (x i)) (hs : ∀ i, 0 < s (x i)) {a : BinAxis ℝ} (hc : a.Contiguous) {c : AxisCollection ℝ}
    (hb : (empty : AxisCollection ℝ).addAxes [a] = .ok c) (k : Nat) :
    ∃ H : (ℕ → ℝ) → Histogram ℝ, (∀ seq, ∃ es' ec', ec.applySeq Real.sqrt es ⟨seq, k⟩ = .ok (es', ⟨seq, k + es.length⟩, ec') ∧ histOfEvents c o es' = .ok (H seq)) ∧
      ∀ b lo hi, a.BinIs b lo hi → b < a.nBins → ∫ seq, (H seq).content b ∂gaussNoise =
        ∑ i, ((normalCdf (hi - (x i + m (x i))) (s (x i)) - normalCdf (lo - (x i + m (x i))) (s (x i))) + (if b = 0 then normalCdf (a.min - (x i + m (x i))) (s (x i)) else 0) +
          (if b = a.nBins - 1 then 1 - normalCdf (a.max - (x i + m (x i))) (s (x i)) else 0)) := by
  obtain ⟨X, h1, h2, h3⟩ := C118_events h he hx k
  choose out ec' g1 g2 g3 g4 using h3
  have hX : ∀ seq, ∀ i : Fin (out seq).length, (out seq)[i].value o = some (X seq (i.cast (g2 seq))) := fun seq i =>
    (g4 seq (i.cast (g2 seq)) ((out seq)[i]) (List.getElem?_eq_getElem i.2)).2.1
  choose H f1 f2 f3 f4 using fun seq => histOfEvents_ok hc hb (hX seq)
  refine ⟨H, fun seq => ⟨out seq, ec' seq, g1 seq, f1 seq⟩, fun b lo hi hbin hlt => ?_⟩
  have hmono : Monotone a.findBin := fun v w hvw => C03_findBin_mono a hc v w hvw
  have hS : MeasurableSet {v | a.findBin v = b} := hmono.measurable (measurableSet_singleton b)
  have e : ∀ seq, (H seq).content b = ∑ i, {v | a.findBin v = b}.indicator (fun _ => (1 : ℝ)) (X seq i) := by
    intro seq
    unfold Histogram.content
    rw [f4 seq b hlt]
    simp only
    refine (Fin.sum_congr' (fun i => if a.findBin (X seq i) = b then (1 : ℝ) else 0) (g2 seq)).trans ?_
    refine Finset.sum_congr rfl fun i _ => ?_
    by_cases hi : a.findBin (X seq i) = b
    · rw [if_pos hi, Set.indicator_of_mem (show X seq i ∈ {v | a.findBin v = b} from hi)]
    · rw [if_neg hi, Set.indicator_of_notMem (show X seq i ∉ {v | a.findBin v = b} from hi)]
  simp only [e]
  have hm : ∀ i, Measurable fun seq => X seq i := fun i => (measurable_pi_apply i).comp h1
  have hmi : Measurable ({v | a.findBin v = b}.indicator fun _ : ℝ => (1 : ℝ)) := measurable_const.indicator hS
  rw [integral_finsetSum]
  · refine Finset.sum_congr rfl fun i _ => ?_
    have law : gaussNoise.map (fun seq => X seq i) = gaussianReal (x i + m (x i)) (variance (s (x i))) := by
      have : (fun seq => X seq i) = (fun y : Fin es.length → ℝ => y i) ∘ X := rfl
      rw [this, ← Measure.map_map (measurable_pi_apply i) h1, h2]
      exact (measurePreserving_eval (fun i => gaussianReal (x i + m (x i)) (variance (s (x i)))) i).map_eq
    rw [← integral_map (φ := fun seq => X seq i) (hm i).aemeasurable hmi.aestronglyMeasurable, law, integral_indicator_const _ hS, smul_eq_mul, mul_one]
    exact bin_mass hc hbin hlt _ (hs i)
  · intro i _
    refine Integrable.of_bound (C := 1) (hmi.comp (hm i)).aestronglyMeasurable (Filter.Eventually.of_forall fun seq => ?_)
    unfold Set.indicator
    split <;> simp

/-- One axis: the bins of the collection are the bins of the axis. -/
theorem one_axis_bin {a : BinAxis ℝ} (hc : a.Contiguous) (hw : a.PosWidths) {c : AxisCollection ℝ} (hb : (empty : AxisCollection ℝ).addAxes [a] = .ok c) {b : Nat} (hlt : b < a.nBins) {lo hi : ℝ}
    (hbin : a.BinIs b lo hi) : c.getBinLowEdge b 0 = .ok lo ∧ c.getBinHighEdge b 0 = .ok hi ∧ c.getBinCentre b 0 = .ok ((lo + hi) / 2) := by
  have hh := holds_of_addAxes hb
  have hN : c.nBins = a.nBins := by rw [hh.total_ne (by simp)]; simp [shape]
  obtain ⟨ks, k, lo', hi', e1, e2, e3, e4, e5, e6, e7, e8, _⟩ := C05_extent [a] c hb (by simpa using hc) (b := b) (d := 0) (a := a) (by omega) rfl
  have hfb : a.findBin lo = b := (C03_findBin_centre a hc b lo hi hbin (hw b lo hi hbin)).1
  obtain ⟨b1, f1, f2, f3, _⟩ := (C05_findBin [a] c hb (by simp) (by simpa using hc) [lo]).2 rfl
  have hb1 : b1 = b := by
    have : c.findBin [lo] = .ok (a.findBin lo) := by
      rw [hh.findBin (by simp) (by simp)]
      simp [rowMajor, shape]
    rw [hfb] at this
    exact Res.ok.inj (f1.symm.trans this)
  subst hb1
  have hks : ks = [b1] := by
    have := Res.ok.inj (e1.symm.trans f3)
    simpa [hfb] using this
  subst hks
  have hk : k = b1 := by simpa using e2.symm
  subst hk
  have e1 := e4.1; rw [hbin.1] at e1; cases e1
  have e2 := e4.2; rw [hbin.2] at e2; cases e2
  exact ⟨e6, e7, e8⟩

/-- The convolution of the histogram of events that sit at the centres of bins. -/
theorem convolved_contents {o : String} {es : List (Event ℝ)} {x : Fin es.length → ℝ} {a : BinAxis ℝ} (hc : a.Contiguous) (hw : a.PosWidths) {c : AxisCollection ℝ}
    (hb : (empty : AxisCollection ℝ).addAxes [a] = .ok c) (hcen : ∀ i, ∃ j, a.getBinCentre j = .ok (x i)) {h0 : Histogram ℝ} (hv : h0.Valid [a])
    (hcon : ∀ b, b < a.nBins → h0.getBinContent b = .ok (∑ i, if a.findBin (x i) = b then 1 else 0)) (K : List ℝ → List ℝ → List ℝ → ℝ) (nm : String) :
    ∃ s' p t, (freshConv K [o] [o] c).construct = .ok s' ∧ s'.base.apply ⟨nm, h0, ObsSet.ofNames [o]⟩ true = .ok (p, t) ∧
      ∀ b lo hi, a.BinIs b lo hi → b < a.nBins → p.hist.getBinContent b = .ok (∑ i, max 0 (K [lo] [hi] [x i])) := by
  have hh := holds_of_addAxes hb
  have hp : (shape [a]).prod = a.nBins := by simp [shape]
  have hrel : (ObsSet.ofNames [o]).getRelativeIndices (ObsSet.ofNames [o]) = .ok [0] := by
    obtain ⟨ks, k1, _, k3, k4, _⟩ := rel_ok (tns := [o]) (dn := [o]) (by simp) (by simp) (by simp)
    rw [k1]
    cases k3 with
    | cons _ h =>
      cases h
      simpa using k4
  obtain ⟨s', c1, c2, c3, c4, c5, c6, c7⟩ := conv_construct (s := freshConv K [o] [o] c) (k := K) (as := [a]) (ks := [0]) (tns := [o]) (dn := [o]) ⟨rfl, hh, rfl, rfl, .inl rfl⟩ (by simp)
    (by simpa using hc) (by simp) (by simp) (by simp) rfl hrel
  rw [hp] at c5 c6 c7
  have hnb : h0.nBins = a.nBins := by rw [hv.nb, hp]
  obtain ⟨p, p1, _, _, _, _, _, p7⟩ := ((C21_apply_partial s'.base [a] ⟨nm, h0, ObsSet.ofNames [o]⟩ hv c4 (c5.trans c6.symm)).2 (hnb.trans c6.symm)).1
  refine ⟨s', p, _, c1, p1, fun b lo hi hbin hlt => ?_⟩
  rw [p7 b (by rw [hnb]; exact hlt)]
  congr 1
  have hcomp : ∀ j cj, j < a.nBins → a.getBinCentre j = .ok cj → s'.base.response.comp b j = max 0 (K [lo] [hi] [cj]) := by
    intro j cj hj hcj
    obtain ⟨lo', hi', xs, d1, d2, d3, d4⟩ := c7 b j hlt hj
    obtain ⟨l1, l2, hj1, hj2, hj3, _⟩ := hc.bins j hj
    obtain ⟨q1, q2, _⟩ := one_axis_bin hc hw hb hlt hbin
    obtain ⟨_, _, r3⟩ := one_axis_bin hc hw hb hj hj1
    have hax : (freshConv K [o] [o] c).base.axes = c := rfl
    rw [hax] at d1 d2 d3
    have t1 : ∀ {f : Nat → Res ℝ} {v : ℝ}, f 0 = .ok v → Res.traverse f [0] = .ok [v] := by
      intro f v hf
      unfold Res.traverse
      rw [hf]
      rfl
    rw [t1 q1] at d1
    rw [t1 q2] at d2
    rw [t1 r3] at d3
    cases d1; cases d2; cases d3
    rw [hj3] at hcj
    cases hcj
    unfold Matrix'.comp
    rw [Matrix'.get_ok c4 (by omega) (by omega), d4, if_pos]
    have : others ([a] : List (BinAxis ℝ)).length [0] = [] := by simp [others]
    rw [this]
    rfl
  unfold responseTimes
  have hr : ∀ f : Nat → ℝ, ((List.range a.nBins).map f).sum = ∑ j ∈ Finset.range a.nBins, f j := fun f => rfl
  rw [hnb, hr]
  have step : ∀ j ∈ Finset.range a.nBins, s'.base.response.comp b j * h0.content j = ∑ i, if a.findBin (x i) = j then max 0 (K [lo] [hi] [x i]) else 0 := by
    intro j hj
    have hj := Finset.mem_range.1 hj
    have : h0.content j = ∑ i, if a.findBin (x i) = j then 1 else 0 := by
      unfold Histogram.content
      rw [hcon j hj]
    rw [this, Finset.mul_sum]
    refine Finset.sum_congr rfl fun i _ => ?_
    by_cases hi : a.findBin (x i) = j
    · rw [if_pos hi, if_pos hi, mul_one]
      obtain ⟨j', hj'⟩ := hcen i
      have hlt' : j' < a.nBins := by
        by_contra hge
        have := (hc.noMore j' (by omega)).2.2.1
        rw [this] at hj'
        cases hj'
      obtain ⟨l1, l2, hj1, _, _, _⟩ := hc.bins j' hlt'
      have := (C03_findBin_centre a hc j' l1 l2 hj1 (hw j' l1 l2 hj1)).2 _ hj'
      exact hcomp j _ hj (by rw [← hi, this]; exact hj')
    · rw [if_neg hi, if_neg hi, mul_zero]
  rw [Finset.sum_congr rfl step, Finset.sum_comm]
  refine Finset.sum_congr rfl fun i _ => ?_
  rw [Finset.sum_ite_eq, if_pos (Finset.mem_range.2 (C03_findBin a hc (x i)).1)]

/-- Smearing events with a kernel of law `m`, `s`, and convolving their histogram with `K`, which differs from the integrals of that law by no more than `ε i` from the `i`-th event. -/
theorem smear_agree {ec : EventConvolution ℝ} {names : List String} {o : String} {m s : ℝ → ℝ} (h : ec.Smears Real.sqrt names o m s) {es : List (Event ℝ)} (he : ∀ e ∈ es, e.Complete names)
    {x : Fin es.length → ℝ} (hx : ∀ i, es[i].value o = some (x i)) (hs : ∀ i, 0 < s (x i)) {a : BinAxis ℝ} (hc : a.Contiguous) (hw : a.PosWidths) {c : AxisCollection ℝ}
    (hb : (empty : AxisCollection ℝ).addAxes [a] = .ok c) (hcen : ∀ i, ∃ j, a.getBinCentre j = .ok (x i)) {K : List ℝ → List ℝ → List ℝ → ℝ} {ε : Fin es.length → ℝ}
    (hK : ∀ i b lo hi, a.BinIs b lo hi → b < a.nBins → |K [lo] [hi] [x i] - (normalCdf (hi - (x i + m (x i))) (s (x i)) - normalCdf (lo - (x i + m (x i))) (s (x i)))| ≤ ε i) (nm : String) (k : Nat) :
    ∃ h0 s' p t, ∃ H : (ℕ → ℝ) → Histogram ℝ, histOfEvents c o es = .ok h0 ∧ (freshConv K [o] [o] c).construct = .ok s' ∧ s'.base.apply ⟨nm, h0, ObsSet.ofNames [o]⟩ true = .ok (p, t) ∧
      (∀ seq, ∃ es' ec', ec.applySeq Real.sqrt es ⟨seq, k⟩ = .ok (es', ⟨seq, k + es.length⟩, ec') ∧ histOfEvents c o es' = .ok (H seq)) ∧
      ∀ b, b < a.nBins → |∫ seq, (H seq).content b ∂gaussNoise - (p.hist.content b + (if b = 0 then ∑ i, normalCdf (a.min - (x i + m (x i))) (s (x i)) else 0) +
        (if b = a.nBins - 1 then ∑ i, (1 - normalCdf (a.max - (x i + m (x i))) (s (x i))) else 0))| ≤ ∑ i, ε i := by
  obtain ⟨h0, e1, e2, e3, e4⟩ := histOfEvents_ok hc hb hx
  obtain ⟨s', p, t, f1, f2, f3⟩ := convolved_contents (o := o) hc hw hb hcen e2 e4 K nm
  obtain ⟨H, g1, g2⟩ := mean_contents h he hx hs hc hb k
  refine ⟨h0, s', p, t, H, e1, f1, f2, g1, fun b hlt => ?_⟩
  obtain ⟨lo, hi, hbin, hle, _⟩ := hc.bins b hlt
  have hp : p.hist.content b = ∑ i, max 0 (K [lo] [hi] [x i]) := by
    unfold Histogram.content
    rw [f3 b lo hi hbin hlt]
  have s1 : (if b = 0 then ∑ i, normalCdf (a.min - (x i + m (x i))) (s (x i)) else 0) = ∑ i, if b = 0 then normalCdf (a.min - (x i + m (x i))) (s (x i)) else 0 := by split <;> simp
  have s2 : (if b = a.nBins - 1 then ∑ i, (1 - normalCdf (a.max - (x i + m (x i))) (s (x i))) else 0) = ∑ i, if b = a.nBins - 1 then 1 - normalCdf (a.max - (x i + m (x i))) (s (x i)) else 0 := by
    split <;> simp
  rw [g2 b lo hi hbin hlt, hp, s1, s2, ← Finset.sum_add_distrib, ← Finset.sum_add_distrib, ← Finset.sum_sub_distrib]
  refine (Finset.abs_sum_le_sum_abs _ _).trans (Finset.sum_le_sum fun i _ => ?_)
  have hP : 0 ≤ normalCdf (hi - (x i + m (x i))) (s (x i)) - normalCdf (lo - (x i + m (x i))) (s (x i)) := sub_nonneg.2 (normalCdf_spec.1 _ _ _ (hs i) (by linarith))
  have hk := hK i b lo hi hbin hlt
  set P := normalCdf (hi - (x i + m (x i))) (s (x i)) - normalCdf (lo - (x i + m (x i))) (s (x i)) with hPdef
  have : ∀ u v : ℝ, P + u + v - (max 0 (K [lo] [hi] [x i]) + u + v) = P - max 0 (K [lo] [hi] [x i]) := fun u v => by ring
  rw [this]
  rw [abs_le] at hk ⊢
  rcases le_total 0 (K [lo] [hi] [x i]) with w | w
  · rw [max_eq_right w]; constructor <;> linarith [hk.1, hk.2]
  · rw [max_eq_left w]; constructor <;> linarith [hk.1, hk.2]

/-- The normal density is symmetric. -/
theorem normalCdf_neg {s : ℝ} (hs : 0 < s) (x : ℝ) : normalCdf (-x) s = 1 - normalCdf x s := by
  unfold normalCdf
  have ev : ∀ t, gaussianPDFReal 0 (variance s) (-t) = gaussianPDFReal 0 (variance s) t := by
    intro t
    unfold gaussianPDFReal
    simp
  have h1 : ∫ t in Set.Iic (-x), gaussianPDFReal 0 (variance s) t = ∫ t in Set.Ioi x, gaussianPDFReal 0 (variance s) t := by
    have := integral_comp_neg_Iic (-x) (gaussianPDFReal 0 (variance s))
    simp only [ev, neg_neg] at this
    exact this
  have h2 := integral_add_compl (μ := volume) (measurableSet_Iic (a := x)) (integrable_gaussianPDFReal 0 (variance s))
  rw [Set.compl_Iic, integral_gaussianPDFReal_eq_one 0 (variance_ne hs)] at h2
  rw [h1]
  linarith

/-- How far the cut-off takes the cumulative function from the true one. -/
theorem clipped_error {s : ℝ} (hs : 0 < s) (cut m t : ℝ) : |clipped normalCdf cut m s t - normalCdf (t - m) s| ≤ normalCdf (-(cut * s)) s := by
  obtain ⟨mono, nn, le1⟩ := normalCdf_spec
  have h0 := nn s (-(cut * s)) hs
  unfold clipped
  split
  · rename_i w
    have w' : cut * s < t - m := by
      have := (lt_div_iff₀ hs).1 w
      linarith
    rw [abs_of_nonneg (by linarith [le1 s (t - m) hs]), ← normalCdf_neg hs]
    exact mono _ _ _ hs (by linarith)
  · split
    · rename_i w
      have w' : t - m < -cut * s := (div_lt_iff₀ hs).1 w
      rw [zero_sub, abs_neg, abs_of_nonneg (nn _ _ hs)]
      exact mono _ _ _ hs (by linarith)
    · simpa using h0

/-- The integral of a one-dimensional jump. -/
theorem jump_clipped {j : JumpPDF ℝ} {g : Gaussian ℝ} {mean sd : ℝ} {mn sn : String} (hj : j.pdf = some g) (hl : g.Line mean sd mn sn) (a b x : ℝ) :
    j.integral normalCdf [a] [b] [x] = .ok (clipped normalCdf g.cutOff mean sd (b - x) - clipped normalCdf g.cutOff mean sd (a - x)) := by
  unfold JumpPDF.integral JumpPDF.diff
  rw [hj]
  simp only [List.length_cons, List.length_nil, lt_irrefl, if_false, Res.ok_bind, List.zipWith_cons_cons, List.zipWith_nil_left]
  rw [C77_integral normalCdf hl.ok, if_pos (by rw [hl.dims]; exact ⟨rfl, rfl⟩), hl.dims, hl.means, hl.sds]
  simp only [Finset.range_one, Finset.prod_singleton, List.getD_cons_zero]

theorem clipped_diff_error {s : ℝ} (hs : 0 < s) (cut m x lo hi : ℝ) :
    |clipped normalCdf cut m s (hi - x) - clipped normalCdf cut m s (lo - x) - (normalCdf (hi - (x + m)) s - normalCdf (lo - (x + m)) s)| ≤ 2 * normalCdf (-(cut * s)) s := by
  have h1 := abs_le.1 (clipped_error hs cut m (hi - x))
  have h2 := abs_le.1 (clipped_error hs cut m (lo - x))
  rw [sub_sub] at h1 h2
  rw [abs_le]
  constructor <;> linarith [h1.1, h1.2, h2.1, h2.2]

/-- C119: events at the centres of the bins of an axis are smeared and put into a histogram; or they are put into the histogram first, and it is convolved with the same jump. In every bin the average of the
first is the second, up to the tails which the cut-off of the function removes; but the first and the last bin of the first also have the events that leave the axis, which the convolution loses. -/
theorem C119_jump {ec : EventConvolution ℝ} {names : List String} {o : String} {j : JumpPDF ℝ} {g : Gaussian ℝ} {mean sd : ℝ} {mn sn : String} (hk : ec.dist = some (.jump j)) (hj : j.pdf = some g)
    (hl : g.Line mean sd mn sn) (hsd : 0 < sd) (ho : ∃ os, ec.outObs.names = o :: os ∧ ∀ n ∈ o :: os, n ∈ names) {es : List (Event ℝ)} (he : ∀ e ∈ es, e.Complete names)
    {x : Fin es.length → ℝ} (hx : ∀ i, es[i].value o = some (x i)) {a : BinAxis ℝ} (hc : a.Contiguous) (hw : a.PosWidths) {c : AxisCollection ℝ}
    (hb : (empty : AxisCollection ℝ).addAxes [a] = .ok c) (hcen : ∀ i, ∃ j, a.getBinCentre j = .ok (x i)) {K : List ℝ → List ℝ → List ℝ → ℝ}
    (hK : ∀ lo hi x, j.integral normalCdf [lo] [hi] [x] = .ok (K [lo] [hi] [x])) (nm : String) (k : Nat) :
    ∃ h0 s' p t, ∃ H : (ℕ → ℝ) → Histogram ℝ, histOfEvents c o es = .ok h0 ∧ (freshConv K [o] [o] c).construct = .ok s' ∧ s'.base.apply ⟨nm, h0, ObsSet.ofNames [o]⟩ true = .ok (p, t) ∧
      (∀ seq, ∃ es' ec', ec.applySeq Real.sqrt es ⟨seq, k⟩ = .ok (es', ⟨seq, k + es.length⟩, ec') ∧ histOfEvents c o es' = .ok (H seq)) ∧
      ∀ b, b < a.nBins → |∫ seq, (H seq).content b ∂gaussNoise - (p.hist.content b + (if b = 0 then ∑ i, normalCdf (a.min - (x i + mean)) sd else 0) +
        (if b = a.nBins - 1 then ∑ i, (1 - normalCdf (a.max - (x i + mean)) sd) else 0))| ≤ ∑ i : Fin es.length, 2 * normalCdf (-(g.cutOff * sd)) sd := by
  refine smear_agree (m := fun _ => mean) (s := fun _ => sd) ⟨⟨_, hk, ⟨g, mean, sd, mn, sn, hj, hl, fun _ => rfl, fun _ => rfl⟩⟩, ho⟩ he hx (fun _ => hsd) hc hw hb hcen ?_ nm k
  intro i b lo hi _ _
  rw [← Res.ok.inj ((jump_clipped hj hl lo hi (x i)).symm.trans (hK lo hi (x i)))]
  exact clipped_diff_error hsd _ _ _ _ _

/-- C119, when no edge of the axis is further from the centre of a bin than the cut-off: the averages are exactly those of the convolution. -/
theorem C119_exact {ec : EventConvolution ℝ} {names : List String} {o : String} {j : JumpPDF ℝ} {g : Gaussian ℝ} {mean sd : ℝ} {mn sn : String} (hk : ec.dist = some (.jump j)) (hj : j.pdf = some g)
    (hl : g.Line mean sd mn sn) (hsd : 0 < sd) (ho : ∃ os, ec.outObs.names = o :: os ∧ ∀ n ∈ o :: os, n ∈ names) {es : List (Event ℝ)} (he : ∀ e ∈ es, e.Complete names)
    {x : Fin es.length → ℝ} (hx : ∀ i, es[i].value o = some (x i)) {a : BinAxis ℝ} (hc : a.Contiguous) (hw : a.PosWidths) {c : AxisCollection ℝ}
    (hb : (empty : AxisCollection ℝ).addAxes [a] = .ok c) (hcen : ∀ i, ∃ j, a.getBinCentre j = .ok (x i))
    (hcut : ∀ i b lo hi, a.BinIs b lo hi → ∀ e, e = lo ∨ e = hi → |(e - x i - mean) / sd| ≤ g.cutOff) {K : List ℝ → List ℝ → List ℝ → ℝ}
    (hK : ∀ lo hi x, j.integral normalCdf [lo] [hi] [x] = .ok (K [lo] [hi] [x])) (nm : String) (k : Nat) :
    ∃ h0 s' p t, ∃ H : (ℕ → ℝ) → Histogram ℝ, histOfEvents c o es = .ok h0 ∧ (freshConv K [o] [o] c).construct = .ok s' ∧ s'.base.apply ⟨nm, h0, ObsSet.ofNames [o]⟩ true = .ok (p, t) ∧
      (∀ seq, ∃ es' ec', ec.applySeq Real.sqrt es ⟨seq, k⟩ = .ok (es', ⟨seq, k + es.length⟩, ec') ∧ histOfEvents c o es' = .ok (H seq)) ∧
      ∀ b, b < a.nBins → ∫ seq, (H seq).content b ∂gaussNoise = p.hist.content b + (if b = 0 then ∑ i, normalCdf (a.min - (x i + mean)) sd else 0) +
        (if b = a.nBins - 1 then ∑ i, (1 - normalCdf (a.max - (x i + mean)) sd) else 0) := by
  obtain ⟨h0, s', p, t, H, r1, r2, r3, r4, r5⟩ := smear_agree (m := fun _ => mean) (s := fun _ => sd) (ε := fun _ => 0) ⟨⟨_, hk, ⟨g, mean, sd, mn, sn, hj, hl, fun _ => rfl, fun _ => rfl⟩⟩, ho⟩ he hx
    (fun _ => hsd) hc hw hb hcen (K := K) (by
      intro i b lo hi hbin _
      rw [← Res.ok.inj ((jump_mass hj hl lo hi (x i) (hcut i b lo hi hbin)).symm.trans (hK lo hi (x i)))]
      simp) nm k
  refine ⟨h0, s', p, t, H, r1, r2, r3, r4, fun b hlt => ?_⟩
  have := r5 b hlt
  simp only [Finset.sum_const_zero, abs_nonpos_iff, sub_eq_zero] at this
  exact this

/-- C119 with a kernel whose mean and width vary with the value. -/
theorem C119_varying {ec : EventConvolution ℝ} {names : List String} {o : String} {v : VaryingCDF ℝ} {j : JumpPDF ℝ} {g : Gaussian ℝ} {mean sd : ℝ} {mn sn : String} (hk : ec.dist = some (.varying v))
    (hv : v.kernel = some j) (hj : j.pdf = some g) (hl : g.Line mean sd mn sn) (hsort : v.functions.Sorted) (ho : ∃ os, ec.outObs.names = o :: os ∧ ∀ n ∈ o :: os, n ∈ names)
    {es : List (Event ℝ)} (he : ∀ e ∈ es, e.Complete names) {x : Fin es.length → ℝ} (hx : ∀ i, es[i].value o = some (x i)) {M S : ℝ → ℝ} (hM : M = governedOr Real.sqrt v.functions mn mean)
    (hS : S = governedOr Real.sqrt v.functions sn sd) (hsd : ∀ i, 0 < S (x i)) {a : BinAxis ℝ} (hc : a.Contiguous) (hw : a.PosWidths) {c : AxisCollection ℝ}
    (hb : (empty : AxisCollection ℝ).addAxes [a] = .ok c) (hcen : ∀ i, ∃ j, a.getBinCentre j = .ok (x i)) {K : List ℝ → List ℝ → List ℝ → ℝ}
    (hK : ∀ lo hi x, ∃ v', v.integral Real.sqrt normalCdf [lo] [hi] [x] = .ok (K [lo] [hi] [x], v')) (nm : String) (k : Nat) :
    ∃ h0 s' p t, ∃ H : (ℕ → ℝ) → Histogram ℝ, histOfEvents c o es = .ok h0 ∧ (freshConv K [o] [o] c).construct = .ok s' ∧ s'.base.apply ⟨nm, h0, ObsSet.ofNames [o]⟩ true = .ok (p, t) ∧
      (∀ seq, ∃ es' ec', ec.applySeq Real.sqrt es ⟨seq, k⟩ = .ok (es', ⟨seq, k + es.length⟩, ec') ∧ histOfEvents c o es' = .ok (H seq)) ∧
      ∀ b, b < a.nBins → |∫ seq, (H seq).content b ∂gaussNoise - (p.hist.content b + (if b = 0 then ∑ i, normalCdf (a.min - (x i + M (x i))) (S (x i)) else 0) +
        (if b = a.nBins - 1 then ∑ i, (1 - normalCdf (a.max - (x i + M (x i))) (S (x i))) else 0))| ≤ ∑ i, 2 * normalCdf (-(g.cutOff * S (x i))) (S (x i)) := by
  subst hM hS
  refine smear_agree (m := governedOr Real.sqrt v.functions mn mean) (s := governedOr Real.sqrt v.functions sn sd)
    ⟨⟨_, hk, ⟨j, g, mean, sd, mn, sn, hv, hj, hl, hsort, fun _ => rfl, fun _ => rfl⟩⟩, ho⟩ he hx hsd hc hw hb hcen ?_ nm k
  intro i b lo hi _ _
  obtain ⟨g', hset, hl'⟩ := hl.setParameters (d := v.governed Real.sqrt (x i)) (VaryingCDF.governed_sorted Real.sqrt hsort (x i))
  have gov : ∀ n y, (SMap.find (v.governed Real.sqrt (x i)) n).getD y = governedOr Real.sqrt v.functions n y (x i) := by
    intro n y
    rw [VaryingCDF.governed_find]
    unfold governedOr
    cases SMap.find v.functions n <;> rfl
  rw [gov, gov] at hl'
  have hcut : g'.cutOff = g.cutOff := by
    have e := (Gaussian.setParameters_puts hl.ok (v.governed Real.sqrt (x i))).1
    rw [← Res.ok.inj (e.symm.trans hset)]
    exact puts_cutOff ..
  obtain ⟨v', e⟩ := hK lo hi (x i)
  unfold VaryingCDF.integral at e
  rw [hv] at e
  simp only at e
  rw [VaryingCDF.setup_eq] at e
  simp only [Res.ok_bind, JumpPDF.setParameters, hj, hset] at e
  rw [jump_clipped (j := { j with pdf := some g' }) rfl hl' lo hi (x i)] at e
  have e' := congrArg Prod.fst (Res.ok.inj e)
  simp only at e'
  rw [← e', hcut]
  exact clipped_diff_error (hsd i) _ _ _ _ _

/-! Concrete cases -/

/-- The integral of the jump in `exSmear`. -/
noncomputable def exSmearKernel (lo hi x : List ℝ) : ℝ := clipped normalCdf 6 0 1 (hi.headD 0 - x.headD 0) - clipped normalCdf 6 0 1 (lo.headD 0 - x.headD 0)

/-- Two events at the centres of the two bins from 0 to 4: the hypotheses of `C119_jump` are met. -/
example (k : Nat) : ∃ a c y z, BinAxis.mkEqual "e" (0 : ℝ) 4 2 = .ok a ∧ (empty : AxisCollection ℝ).addAxes [a] = .ok c ∧ a.getBinCentre 0 = .ok y ∧ a.getBinCentre 1 = .ok z ∧
    ∃ h0 s' p t, ∃ H : (ℕ → ℝ) → Histogram ℝ, histOfEvents c "e" [⟨[y, 9], some ["e", "r"]⟩, ⟨[z, 7], some ["e", "r"]⟩] = .ok h0 ∧ (freshConv exSmearKernel ["e"] ["e"] c).construct = .ok s' ∧
      s'.base.apply ⟨"h", h0, ObsSet.ofNames ["e"]⟩ true = .ok (p, t) ∧
      (∀ seq, ∃ es' ec', exSmear.applySeq Real.sqrt [⟨[y, 9], some ["e", "r"]⟩, ⟨[z, 7], some ["e", "r"]⟩] ⟨seq, k⟩ = .ok (es', ⟨seq, k + 2⟩, ec') ∧ histOfEvents c "e" es' = .ok (H seq)) ∧
      ∀ b, b < a.nBins → |∫ seq, (H seq).content b ∂gaussNoise - (p.hist.content b + (if b = 0 then ∑ i, normalCdf (a.min - ((![y, z] : Fin 2 → ℝ) i + 0)) 1 else 0) +
        (if b = a.nBins - 1 then ∑ i, (1 - normalCdf (a.max - ((![y, z] : Fin 2 → ℝ) i + 0)) 1) else 0))| ≤ ∑ i : Fin 2, 2 * normalCdf (-(6 * 1)) 1 := by
  obtain ⟨a, ha⟩ := ((C01_equalAxis_accepts "e" "" (0 : ℝ) 4 2).1).2 ⟨by norm_num, by norm_num⟩
  have hc := BinAxis.mkEqual_contiguous ha
  have hw := BinAxis.mkEqual_posWidths ha
  have hn : a.nBins = 2 := by
    obtain ⟨_, _, rfl⟩ := BinAxis.mkEqual_ok_iff.1 ha
    rfl
  obtain ⟨c, hb⟩ := addAxes_ok_of_nodup (as := [a]) (by simp)
  obtain ⟨l0, u0, _, _, cy, _⟩ := hc.bins 0 (by omega)
  obtain ⟨l1, u1, _, _, cz, _⟩ := hc.bins 1 (by omega)
  refine ⟨a, c, _, _, ha, hb, cy, cz, ?_⟩
  exact C119_jump (ec := exSmear) (names := ["e", "r"]) (o := "e") (j := ⟨"k", some ⟨[0], [1], 6, 1, "g", ["m"], ["d"]⟩⟩) (g := ⟨[0], [1], 6, 1, "g", ["m"], ["d"]⟩) (mean := 0) (sd := 1) (mn := "m")
    (sn := "d") rfl rfl ⟨rfl, rfl, rfl, rfl, rfl⟩ one_pos ⟨[], rfl, by simp⟩ (es := [⟨[(l0 + u0) / 2, 9], some ["e", "r"]⟩, ⟨[(l1 + u1) / 2, 7], some ["e", "r"]⟩]) (by
      intro e he
      simp only [List.mem_cons, List.not_mem_nil, or_false] at he
      rcases he with rfl | rfl <;> exact ⟨by decide, rfl, rfl⟩) (x := ![(l0 + u0) / 2, (l1 + u1) / 2]) (by
      intro i
      fin_cases i <;> rfl) hc hw hb (by
      intro i
      fin_cases i
      · exact ⟨0, cy⟩
      · exact ⟨1, cz⟩) (K := exSmearKernel) (fun lo hi x => jump_clipped (j := ⟨"k", some ⟨[0], [1], 6, 1, "g", ["m"], ["d"]⟩⟩) (g := ⟨[0], [1], 6, 1, "g", ["m"], ["d"]⟩) (mn := "m") (sn := "d") rfl
        ⟨rfl, rfl, rfl, rfl, rfl⟩ lo hi x) "h" k

/-- On this axis every edge is within the cut-off of every centre, as `C119_exact` asks. -/
example {a : BinAxis ℝ} (ha : BinAxis.mkEqual "e" (0 : ℝ) 4 2 = .ok a) {j : Nat} {x : ℝ} (hx : a.getBinCentre j = .ok x) {b : Nat} {lo hi : ℝ} (hbin : a.BinIs b lo hi) :
    ∀ e, e = lo ∨ e = hi → |(e - x - 0) / 1| ≤ 6 := by
  have hc := BinAxis.mkEqual_contiguous ha
  have mm : a.min = 0 ∧ a.max = 4 := by
    obtain ⟨_, _, rfl⟩ := BinAxis.mkEqual_ok_iff.1 ha
    exact ⟨rfl, rfl⟩
  have hlt : ∀ {b : Nat} {lo hi : ℝ}, a.BinIs b lo hi → b < a.nBins := by
    intro b lo hi h
    by_contra hge
    have := (hc.noMore b (by omega)).1
    rw [h.1] at this
    cases this
  obtain ⟨p1, p2, p3⟩ := axis_bounds hc hbin (hlt hbin)
  have hj : j < a.nBins := by
    by_contra hge
    have := (hc.noMore j (by omega)).2.2.1
    rw [this] at hx
    cases hx
  obtain ⟨l, u, hb2, _, hx2, _⟩ := hc.bins j hj
  rw [hx2] at hx
  cases hx
  obtain ⟨q1, q2, q3⟩ := axis_bounds hc hb2 hj
  rw [mm.1] at p1 q1
  rw [mm.2] at p3 q3
  intro e he
  rw [abs_le]
  rcases he with rfl | rfl <;> constructor <;> linarith

/-- A width of twice the root of the value is positive at 1 and at 3, as `C119_varying` asks, and its integrals are computed. -/
example : (∀ x : ℝ, x = 1 ∨ x = 3 → 0 < governedOr Real.sqrt ([("d", ⟨"f", "grad", 2⟩)] : SMap (SquareRootScale ℝ)) "d" 1 x) ∧
    ∀ lo hi x : ℝ, ∃ y v', (⟨"v", [("d", ⟨"f", "grad", 2⟩)], some ⟨"k", some ⟨[0], [1], 6, 1, "g", ["m"], ["d"]⟩⟩⟩ : VaryingCDF ℝ).integral Real.sqrt normalCdf [lo] [hi] [x] = .ok (y, v') := by
  constructor
  · intro x hx
    simp only [governedOr, SMap.find]
    have : 0 < |x| := by rcases hx with rfl | rfl <;> norm_num
    simpa using Real.sqrt_pos.2 this
  · intro lo hi x
    unfold VaryingCDF.integral
    simp only
    rw [VaryingCDF.setup_eq]
    obtain ⟨g', hset, hl'⟩ := Gaussian.Line.setParameters (g := (⟨[0], [1], 6, 1, "g", ["m"], ["d"]⟩ : Gaussian ℝ)) (m := 0) (s := 1) (mn := "m") (sn := "d") ⟨rfl, rfl, rfl, rfl, rfl⟩
      (d := (⟨"v", [("d", ⟨"f", "grad", 2⟩)], some ⟨"k", some ⟨[0], [1], 6, 1, "g", ["m"], ["d"]⟩⟩⟩ : VaryingCDF ℝ).governed Real.sqrt x) (VaryingCDF.governed_sorted Real.sqrt (by simp [SMap.Sorted]) x)
    simp only [Res.ok_bind, JumpPDF.setParameters, hset]
    rw [jump_clipped (j := { name := "k", pdf := some g' }) rfl hl' lo hi x]
    exact ⟨_, _, rfl⟩

end Oxsx
