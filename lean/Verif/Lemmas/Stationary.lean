import Verif.Spec.Stationary
import Mathlib.MeasureTheory.Group.LIntegral
import Mathlib.MeasureTheory.Group.Prod
import Mathlib.MeasureTheory.Measure.WithDensity
set_option linter.unusedSectionVars false
set_option linter.unusedSimpArgs false
set_option linter.unusedVariables false
namespace Oxsx
open MeasureTheory ProbabilityTheory
open scoped ENNReal

/-- Detailed balance under a measure preserving proposal leaves the weight as it is. -/
theorem balance_stationary {X Z : Type} [MeasurableSpace X] [MeasurableSpace Z] {μ : Measure (X × Z)} {φ : X × Z → X × Z}
    (hφ : MeasurePreserving φ μ μ) {W A : X × Z → ℝ≥0∞} (hW : Measurable W) (hA : Measurable A) (hA1 : ∀ z, A z ≤ 1)
    (hb : ∀ z, W (φ z) * A (φ z) = W z * A z) {f : X → ℝ≥0∞} (hf : Measurable f) :
    ∫⁻ z, W z * (A z * f (φ z).1 + (1 - A z) * f z.1) ∂μ = ∫⁻ z, W z * f z.1 ∂μ := by
  have hm : Measurable (fun z : X × Z => W z * A z * f z.1) := (hW.mul hA).mul (hf.comp measurable_fst)
  have e1 : ∫⁻ z, W z * A z * f (φ z).1 ∂μ = ∫⁻ z, W z * A z * f z.1 ∂μ := by
    have := hφ.lintegral_comp hm
    rw [← this]
    refine lintegral_congr fun z => ?_
    rw [hb z]
  have e2 : ∀ z, W z * (A z * f (φ z).1 + (1 - A z) * f z.1) = W z * A z * f (φ z).1 + W z * ((1 - A z) * f z.1) := by
    intro z; rw [mul_add, mul_assoc]
  simp only [e2]
  have hm' : Measurable (fun z : X × Z => W z * A z * f (φ z).1) := (hW.mul hA).mul (hf.comp (measurable_fst.comp hφ.measurable))
  rw [lintegral_add_left hm', e1, ← lintegral_add_left hm]
  refine lintegral_congr fun z => ?_
  rw [mul_assoc, ← mul_add, ← add_mul, add_tsub_cancel_of_le (hA1 z), one_mul]

/-- The mean over the uniform number of the decision. -/
theorem lintegral_decide {S : Set ℝ} (hS : MeasurableSet S) (x y : ℝ≥0∞) [∀ u, Decidable (u ∈ S)] :
    ∫⁻ u in Set.Ico (0 : ℝ) 1, (if u ∈ S then x else y) = volume (S ∩ Set.Ico 0 1) * x + (1 - volume (S ∩ Set.Ico 0 1)) * y := by
  have h1 : (fun u : ℝ => if u ∈ S then x else y) = fun u => S.indicator (fun _ => x) u + Sᶜ.indicator (fun _ => y) u := by
    funext u
    by_cases h : u ∈ S <;> simp [h]
  rw [h1, lintegral_add_left (measurable_const.indicator hS), lintegral_indicator hS, lintegral_indicator hS.compl]
  simp only [lintegral_const, Measure.restrict_restrict hS, Measure.restrict_restrict hS.compl, Measure.restrict_apply MeasurableSet.univ, Set.univ_inter]
  have h2 : volume (Sᶜ ∩ Set.Ico (0 : ℝ) 1) = 1 - volume (S ∩ Set.Ico 0 1) := by
    have : Sᶜ ∩ Set.Ico (0 : ℝ) 1 = Set.Ico 0 1 \ (S ∩ Set.Ico 0 1) := by ext u; simp; tauto
    rw [this, measure_sdiff Set.inter_subset_right (hS.inter measurableSet_Ico).nullMeasurableSet]
    · simp
    · exact ne_top_of_le_ne_top (by simp : volume (Set.Ico (0 : ℝ) 1) ≠ ⊤) (measure_mono Set.inter_subset_right)
  rw [h2]; ring

theorem lintegral_fin_prod {n : Nat} (f : Fin n → ℝ → ℝ≥0∞) (hf : ∀ i, Measurable (f i)) :
    ∫⁻ x : Fin n → ℝ, ∏ i, f i (x i) = ∏ i, ∫⁻ x, f i x := by
  induction n with
  | zero => simp [volume_pi]
  | succ n ih =>
    have e := volume_preserving_piFinSuccAbove (fun _ : Fin (n + 1) => ℝ) 0
    have hm : Measurable (fun z : ℝ × (Fin n → ℝ) => f 0 z.1 * ∏ i : Fin n, f i.succ (z.2 i)) := by
      refine ((hf 0).comp measurable_fst).mul (Finset.measurable_prod _ fun i _ => (hf i.succ).comp ((measurable_pi_apply i).comp measurable_snd))
    have := e.lintegral_comp hm
    have e2 : ∫⁻ x : Fin (n + 1) → ℝ, ∏ i, f i (x i) = ∫⁻ z : ℝ × (Fin n → ℝ), f 0 z.1 * ∏ i : Fin n, f i.succ (z.2 i) := by
      rw [← this]
      refine lintegral_congr fun x => ?_
      rw [Fin.prod_univ_succ]; rfl
    rw [e2, Fin.prod_univ_succ, ← ih (fun i => f i.succ) (fun i => hf i.succ)]
    have hm2 : Measurable (fun x : Fin n → ℝ => ∏ i : Fin n, f i.succ (x i)) :=
      Finset.measurable_prod _ fun (i : Fin n) _ => (hf i.succ).comp (measurable_pi_apply i)
    exact lintegral_prod_mul (hf 0).aemeasurable hm2.aemeasurable

/-- Independent coordinates with densities have the product density. -/
theorem pi_withDensity_fin {n : Nat} (f : Fin n → ℝ → ℝ≥0∞) (hf : ∀ i, Measurable (f i)) [∀ i, SigmaFinite (volume.withDensity (f i))] :
    Measure.pi (fun i => volume.withDensity (f i)) = (volume : Measure (Fin n → ℝ)).withDensity (fun x => ∏ i, f i (x i)) := by
  refine Measure.pi_eq fun s hs => ?_
  rw [withDensity_apply _ (MeasurableSet.univ_pi hs), ← lintegral_indicator (MeasurableSet.univ_pi hs)]
  have : ∀ x : Fin n → ℝ, (Set.univ.pi s).indicator (fun x => ∏ i, f i (x i)) x = ∏ i, (s i).indicator (f i) (x i) := by
    intro x
    by_cases hx : x ∈ Set.univ.pi s
    · rw [Set.indicator_of_mem hx]
      exact Finset.prod_congr rfl fun i _ => by rw [Set.indicator_of_mem (hx i (Set.mem_univ i))]
    · rw [Set.indicator_of_notMem hx]
      simp only [Set.mem_univ_pi, not_forall] at hx
      obtain ⟨i, hi⟩ := hx
      exact (Finset.prod_eq_zero (Finset.mem_univ i) (Set.indicator_of_notMem hi _)).symm
  simp only [this]
  rw [lintegral_fin_prod _ fun i => (hf i).indicator (hs i)]
  exact Finset.prod_congr rfl fun i _ => by rw [lintegral_indicator (hs i), withDensity_apply _ (hs i)]

end Oxsx
