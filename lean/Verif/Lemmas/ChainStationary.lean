import Verif.Lemmas.ChainPoint
set_option linter.unusedSectionVars false
set_option linter.unusedSimpArgs false
set_option linter.unusedVariables false
namespace Oxsx
open MeasureTheory ProbabilityTheory LeapFrog
open scoped ENNReal

theorem measurableSet_limitBox {n : Nat} (lo hi : Fin n → ℝ) : MeasurableSet (limitBox lo hi) := by
  have : limitBox lo hi = ⋂ i, {x | lo i ≤ x i ∧ x i ≤ hi i} := by ext x; simp [limitBox]
  rw [this]
  exact MeasurableSet.iInter fun i => (measurableSet_le measurable_const (measurable_pi_apply i)).inter (measurableSet_le (measurable_pi_apply i) measurable_const)

theorem measurableSet_accepts (l : Bool) (w v c : ℝ) : MeasurableSet {u : ℝ | MCMC.accepts Real.exp l w v c u = true} := by
  have h : ∀ r : ℝ, MeasurableSet {u : ℝ | r > 1 ∨ r ≥ u} := fun r => (MeasurableSet.const _).union measurableSet_Iic
  unfold MCMC.accepts
  cases l
  · by_cases hv : v = 0
    · simp [hv]
    · simp only [Bool.false_eq_true, if_false, hv, decide_eq_true_eq]; exact h _
  · simp only [if_true, decide_eq_true_eq]; exact h _

/-- What one step of the chain does, given how points are proposed. -/
structure Proposal {n : Nat} (m : MCMC ℝ) (V : (Fin n → ℝ) → ℝ) {Z : Type} [MeasurableSpace Z] (ν : Measure Z) (w : Z → ℝ)
    (φ : (Fin n → ℝ) × Z → (Fin n → ℝ) × Z) (corr : (Fin n → ℝ) × Z → ℝ) : Prop where
  meas : Measurable V
  wmeas : Measurable w
  wpos : ∀ z, 0 < w z
  dpos : ∀ x, 0 < chainDensity m V x
  preserve : MeasurePreserving φ ((volume : Measure (Fin n → ℝ)).prod ν) (volume.prod ν)
  back : ∀ z, φ (φ z) = z
  accept : ∀ z, volume {u : ℝ | 0 ≤ u ∧ u < 1 ∧ MCMC.accepts Real.exp m.logged (chainValue m V (φ z).1) (chainValue m V z.1) (corr z) u = true} =
    ENNReal.ofReal (min 1 (chainDensity m V (φ z).1 * w (φ z).2 / (chainDensity m V z.1 * w z.2)))

theorem chainDensity_measurable {n : Nat} {m : MCMC ℝ} {V : (Fin n → ℝ) → ℝ} (hV : Measurable V) : Measurable (chainDensity m V) := by
  have h1 : Measurable (chainValue m V) := by unfold chainValue; split; exacts [hV.neg, hV]
  unfold chainDensity
  split
  · exact Real.measurable_exp.comp h1
  · exact h1

namespace Proposal
variable {n : Nat} {m : MCMC ℝ} {V : (Fin n → ℝ) → ℝ} {Z : Type} [MeasurableSpace Z] {ν : Measure Z} [SFinite ν] {w : Z → ℝ}
  {φ : (Fin n → ℝ) × Z → (Fin n → ℝ) × Z} {corr : (Fin n → ℝ) × Z → ℝ} {lo hi : Fin n → ℝ}

open Classical in
/-- The probability that the proposal is accepted. -/
noncomputable def prob (m : MCMC ℝ) (V : (Fin n → ℝ) → ℝ) (w : Z → ℝ) (φ : (Fin n → ℝ) × Z → (Fin n → ℝ) × Z) (lo hi : Fin n → ℝ) (z : (Fin n → ℝ) × Z) : ℝ≥0∞ :=
  if (φ z).1 ∈ limitBox lo hi then ENNReal.ofReal (min 1 (chainDensity m V (φ z).1 * w (φ z).2 / (chainDensity m V z.1 * w z.2))) else 0

theorem prob_le (z : (Fin n → ℝ) × Z) : prob m V w φ lo hi z ≤ 1 := by
  unfold prob
  split
  · exact ENNReal.ofReal_le_one.2 (min_le_left _ _)
  · exact zero_le_one

theorem prob_measurable (h : Proposal m V ν w φ corr) : Measurable (prob m V w φ lo hi) := by
  unfold prob
  have hd := chainDensity_measurable (m := m) h.meas
  have hφ := h.preserve.measurable
  refine Measurable.ite ((measurable_fst.comp hφ) (measurableSet_limitBox lo hi)) ?_ measurable_const
  refine ENNReal.measurable_ofReal.comp (measurable_const.min (Measurable.div ?_ ?_))
  · exact (hd.comp (measurable_fst.comp hφ)).mul (h.wmeas.comp (measurable_snd.comp hφ))
  · exact (hd.comp measurable_fst).mul (h.wmeas.comp measurable_snd)

open Classical in
theorem step_mean (h : Proposal m V ν w φ corr) (f : (Fin n → ℝ) → ℝ≥0∞) (z : (Fin n → ℝ) × Z) :
    ∫⁻ u in Set.Ico (0 : ℝ) 1, f (moveTo m lo hi V z.1 (φ z).1 (corr z) u) =
      prob m V w φ lo hi z * f (φ z).1 + (1 - prob m V w φ lo hi z) * f z.1 := by
  unfold moveTo prob
  by_cases hb : (φ z).1 ∈ limitBox lo hi
  · simp only [hb, true_and, if_true]
    have := lintegral_decide (measurableSet_accepts m.logged (chainValue m V (φ z).1) (chainValue m V z.1) (corr z)) (f (φ z).1) (f z.1)
    have hv : volume ({u : ℝ | MCMC.accepts Real.exp m.logged (chainValue m V (φ z).1) (chainValue m V z.1) (corr z) u = true} ∩ Set.Ico 0 1) =
        ENNReal.ofReal (min 1 (chainDensity m V (φ z).1 * w (φ z).2 / (chainDensity m V z.1 * w z.2))) := by
      rw [← h.accept z]
      congr 1; ext u; simp only [Set.mem_inter_iff, Set.mem_setOf_eq, Set.mem_Ico]; tauto
    rw [hv] at this
    rw [← this]
    refine lintegral_congr fun u => ?_
    simp only [Set.mem_setOf_eq]
    split <;> rfl
  · simp only [hb, false_and, if_false, zero_mul, zero_add, tsub_zero, one_mul]
    simp

/-- The joint weight of point and random numbers. -/
noncomputable def weight (m : MCMC ℝ) (V : (Fin n → ℝ) → ℝ) (w : Z → ℝ) (lo hi : Fin n → ℝ) (z : (Fin n → ℝ) × Z) : ℝ≥0∞ :=
  (limitBox lo hi).indicator (fun x => ENNReal.ofReal (chainDensity m V x)) z.1 * ENNReal.ofReal (w z.2)

theorem weight_measurable (h : Proposal m V ν w φ corr) : Measurable (weight m V w lo hi) := by
  unfold weight
  exact (((ENNReal.measurable_ofReal.comp (chainDensity_measurable h.meas)).indicator (measurableSet_limitBox lo hi)).comp measurable_fst).mul
    (ENNReal.measurable_ofReal.comp (h.wmeas.comp measurable_snd))

theorem balanced (h : Proposal m V ν w φ corr) (z : (Fin n → ℝ) × Z) :
    weight m V w lo hi (φ z) * prob m V w φ lo hi (φ z) = weight m V w lo hi z * prob m V w φ lo hi z := by
  unfold weight prob
  rw [h.back z]
  by_cases h1 : z.1 ∈ limitBox lo hi
  · by_cases h2 : (φ z).1 ∈ limitBox lo hi
    · rw [Set.indicator_of_mem h1, Set.indicator_of_mem h2, if_pos h1, if_pos h2]
      have a := mul_pos (h.dpos (φ z).1) (h.wpos (φ z).2)
      have b := mul_pos (h.dpos z.1) (h.wpos z.2)
      rw [← ENNReal.ofReal_mul (h.dpos _).le, ← ENNReal.ofReal_mul (h.dpos _).le, ← ENNReal.ofReal_mul a.le, ← ENNReal.ofReal_mul b.le]
      congr 1
      rw [mul_min_of_nonneg _ _ a.le, mul_min_of_nonneg _ _ b.le, mul_one, mul_one, mul_div_cancel₀ _ a.ne', mul_div_cancel₀ _ b.ne', min_comm]
    · rw [Set.indicator_of_notMem h2, if_neg h2, zero_mul, zero_mul, mul_zero]
  · rw [Set.indicator_of_notMem h1, if_neg h1, zero_mul, zero_mul, mul_zero]

theorem afterStep_eq (h : Proposal m V ν w φ corr) (f : (Fin n → ℝ) → ℝ≥0∞) (x : Fin n → ℝ) :
    afterStep (ν.withDensity fun z => ENNReal.ofReal (w z)) (fun x z u => moveTo m lo hi V x (φ (x, z)).1 (corr (x, z)) u) f x =
      ∫⁻ z, (prob m V w φ lo hi (x, z) * f (φ (x, z)).1 + (1 - prob m V w φ lo hi (x, z)) * f x) ∂(ν.withDensity fun z => ENNReal.ofReal (w z)) := by
  unfold afterStep
  refine lintegral_congr fun z => ?_
  exact h.step_mean f (x, z)

theorem mean_measurable (h : Proposal m V ν w φ corr) {f : (Fin n → ℝ) → ℝ≥0∞} (hf : Measurable f) :
    Measurable fun z : (Fin n → ℝ) × Z => prob m V w φ lo hi z * f (φ z).1 + (1 - prob m V w φ lo hi z) * f z.1 :=
  ((h.prob_measurable).mul (hf.comp (measurable_fst.comp h.preserve.measurable))).add ((measurable_const.sub h.prob_measurable).mul (hf.comp measurable_fst))

theorem afterStep_measurable (h : Proposal m V ν w φ corr) {f : (Fin n → ℝ) → ℝ≥0∞} (hf : Measurable f) :
    Measurable (afterStep (ν.withDensity fun z => ENNReal.ofReal (w z)) (fun x z u => moveTo m lo hi V x (φ (x, z)).1 (corr (x, z)) u) f) := by
  have := (h.mean_measurable (lo := lo) (hi := hi) hf).lintegral_prod_right' (ν := ν.withDensity fun z => ENNReal.ofReal (w z))
  convert this using 2 with x
  exact h.afterStep_eq f x

theorem stationary (h : Proposal m V ν w φ corr) [IsProbabilityMeasure (ν.withDensity fun z => ENNReal.ofReal (w z))] {f : (Fin n → ℝ) → ℝ≥0∞} (hf : Measurable f) :
    ∫⁻ x, afterStep (ν.withDensity fun z => ENNReal.ofReal (w z)) (fun x z u => moveTo m lo hi V x (φ (x, z)).1 (corr (x, z)) u) f x ∂(targetLaw lo hi (chainDensity m V)) =
      ∫⁻ x, f x ∂(targetLaw lo hi (chainDensity m V)) := by
  have hD : Measurable fun x => ENNReal.ofReal (chainDensity m V x) := ENNReal.measurable_ofReal.comp (chainDensity_measurable h.meas)
  have hw : Measurable fun z => ENNReal.ofReal (w z) := ENNReal.measurable_ofReal.comp h.wmeas
  have hI := hD.indicator (measurableSet_limitBox lo hi)
  unfold targetLaw
  rw [← withDensity_indicator (measurableSet_limitBox lo hi)]
  rw [lintegral_withDensity_eq_lintegral_mul _ hI (h.afterStep_measurable hf), lintegral_withDensity_eq_lintegral_mul _ hI hf]
  have key := balance_stationary h.preserve (h.weight_measurable (lo := lo) (hi := hi)) h.prob_measurable (fun z => prob_le (m := m) (V := V) (w := w) (φ := φ) (lo := lo) (hi := hi) z) (h.balanced) hf
  have hone : ∫⁻ z, ENNReal.ofReal (w z) ∂ν = 1 := by
    have := measure_univ (μ := ν.withDensity fun z => ENNReal.ofReal (w z))
    rwa [withDensity_apply _ MeasurableSet.univ, Measure.restrict_univ] at this
  have hl : ∫⁻ z, weight m V w lo hi z * (prob m V w φ lo hi z * f (φ z).1 + (1 - prob m V w φ lo hi z) * f z.1) ∂(volume.prod ν) =
      ∫⁻ x, ((limitBox lo hi).indicator (fun x => ENNReal.ofReal (chainDensity m V x)) * afterStep (ν.withDensity fun z => ENNReal.ofReal (w z)) (fun x z u => moveTo m lo hi V x (φ (x, z)).1 (corr (x, z)) u) f) x := by
    have hm1 : Measurable fun z : (Fin n → ℝ) × Z => weight m V w lo hi z * (prob m V w φ lo hi z * f (φ z).1 + (1 - prob m V w φ lo hi z) * f z.1) :=
      h.weight_measurable.mul (h.mean_measurable hf)
    rw [lintegral_prod _ hm1.aemeasurable]
    refine lintegral_congr fun x => ?_
    rw [Pi.mul_apply, h.afterStep_eq]
    have hmx : Measurable fun z => prob m V w φ lo hi (x, z) * f (φ (x, z)).1 + (1 - prob m V w φ lo hi (x, z)) * f x :=
      (h.mean_measurable (lo := lo) (hi := hi) hf).comp measurable_prodMk_left
    rw [lintegral_withDensity_eq_lintegral_mul _ hw hmx, ← lintegral_const_mul _ (hw.mul hmx)]
    refine lintegral_congr fun z => ?_
    unfold weight
    rw [Pi.mul_apply, mul_assoc]
  have hr : ∫⁻ z, weight m V w lo hi z * f z.1 ∂(volume.prod ν) = ∫⁻ x, ((limitBox lo hi).indicator (fun x => ENNReal.ofReal (chainDensity m V x)) * f) x := by
    have hm1 : Measurable fun z : (Fin n → ℝ) × Z => weight m V w lo hi z * f z.1 := h.weight_measurable.mul (hf.comp measurable_fst)
    rw [lintegral_prod _ hm1.aemeasurable]
    refine lintegral_congr fun x => ?_
    have : ∀ z, weight m V w lo hi (x, z) * f x = (limitBox lo hi).indicator (fun x => ENNReal.ofReal (chainDensity m V x)) x * f x * ENNReal.ofReal (w z) := by
      intro z; unfold weight; ring
    simp only [this]
    rw [lintegral_const_mul _ hw, hone, mul_one, Pi.mul_apply]
  rw [← hl, ← hr]
  exact key

/-- … and after any number of steps. -/
theorem stationary_iterate (h : Proposal m V ν w φ corr) [IsProbabilityMeasure (ν.withDensity fun z => ENNReal.ofReal (w z))] {f : (Fin n → ℝ) → ℝ≥0∞} (hf : Measurable f) (N : Nat) :
    ∫⁻ x, (afterStep (ν.withDensity fun z => ENNReal.ofReal (w z)) (fun x z u => moveTo m lo hi V x (φ (x, z)).1 (corr (x, z)) u))^[N] f x ∂(targetLaw lo hi (chainDensity m V)) =
      ∫⁻ x, f x ∂(targetLaw lo hi (chainDensity m V)) := by
  induction N generalizing f with
  | zero => rfl
  | succ N ih =>
    rw [Function.iterate_succ_apply, ih (h.afterStep_measurable hf)]
    exact h.stationary hf

end Proposal
end Oxsx
