import Verif.Model.EventConvolution
import Mathlib.Probability.Distributions.Gaussian.Real
import Mathlib.Probability.ProductMeasure
/-
What C118 means by draws that follow a density.
-/
namespace Oxsx
open MeasureTheory ProbabilityTheory

/-- The law of the normal deviates of the random-number generator: an endless sequence of independent ones. -/
noncomputable def gaussNoise : Measure (ℕ → ℝ) := Measure.infinitePi fun _ : ℕ => gaussianReal 0 1

/-- `draw` never fails, uses the next `n` deviates wherever in the sequence it starts, and returns points of `n` dimensions which have the density that `density` computes. -/
def DrawsDensity (n : Nat) (draw : Draws ℝ → Res (List ℝ × Draws ℝ)) (density : List ℝ → Res ℝ) : Prop :=
  ∀ k : Nat, ∃ (S : (ℕ → ℝ) → Fin n → ℝ) (f : (Fin n → ℝ) → ℝ), Measurable S ∧ (∀ seq, draw ⟨seq, k⟩ = .ok (List.ofFn (S seq), ⟨seq, k + n⟩)) ∧
    (∀ x, density (List.ofFn x) = .ok (f x)) ∧ gaussNoise.map S = volume.withDensity fun x => ENNReal.ofReal (f x)

end Oxsx
