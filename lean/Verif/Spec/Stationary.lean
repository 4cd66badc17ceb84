import Verif.Model.LeapFrog
import Mathlib.Probability.Distributions.Gaussian.Real
import Mathlib.MeasureTheory.Constructions.Pi
import Mathlib.MeasureTheory.Measure.Lebesgue.Basic
/-
Specification for C105: points of a Markov chain as vectors, and what it means that one step leaves a distribution as it is.
-/
namespace Oxsx
open MeasureTheory ProbabilityTheory

/-- The point with these coordinates, as the code stores it: each parameter's name with its value. -/
def pointDict (names : List String) (x : Fin names.length → ℝ) : ParamDict ℝ := List.ofFn (fun i => (names[i], x i))

/-- The box between lower and upper limits. -/
def limitBox {n : Nat} (lo hi : Fin n → ℝ) : Set (Fin n → ℝ) := {x | ∀ i, lo i ≤ x i ∧ x i ≤ hi i}

/-- The distribution with density `d` (up to normalisation) within the limits. -/
noncomputable def targetLaw {n : Nat} (lo hi : Fin n → ℝ) (d : (Fin n → ℝ) → ℝ) : Measure (Fin n → ℝ) :=
  (volume.restrict (limitBox lo hi)).withDensity (fun x => ENNReal.ofReal (d x))

/-- The same, normalised to one. -/
noncomputable def sampledLaw {n : Nat} (lo hi : Fin n → ℝ) (d : (Fin n → ℝ) → ℝ) : Measure (Fin n → ℝ) :=
  (targetLaw lo hi d Set.univ)⁻¹ • targetLaw lo hi d

/-- The mean of `f` at the next point, started at `x`: `next` takes the point, the proposal's random numbers (of law `noise`) and the uniform
number of the decision. -/
noncomputable def afterStep {n : Nat} {Z : Type} [MeasurableSpace Z] (noise : Measure Z) (next : (Fin n → ℝ) → Z → ℝ → (Fin n → ℝ))
    (f : (Fin n → ℝ) → ENNReal) (x : Fin n → ℝ) : ENNReal :=
  ∫⁻ z, (∫⁻ u in Set.Ico (0 : ℝ) 1, f (next x z u)) ∂noise

end Oxsx
