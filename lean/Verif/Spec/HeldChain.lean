import Verif.Spec.Stationary
import Mathlib.MeasureTheory.Constructions.Pi
set_option linter.unusedSectionVars false
/-
Vocabulary for C116: chains with fixed parameters.
-/
namespace Oxsx
open MeasureTheory

/-- The points within the limits that agree with `x0` in the fixed parameters `F`. -/
def heldBox {n : Nat} (lo hi : Fin n → ℝ) (F : Fin n → Prop) (x0 : Fin n → ℝ) : Set (Fin n → ℝ) := {x | (∀ i, lo i ≤ x i ∧ x i ≤ hi i) ∧ ∀ i, F i → x i = x0 i}

open Classical in
/-- Lengths, areas and volumes in the free parameters, within the limits; the fixed parameters are where `x0` has them. -/
noncomputable def heldVolume {n : Nat} (lo hi : Fin n → ℝ) (F : Fin n → Prop) (x0 : Fin n → ℝ) : Measure (Fin n → ℝ) :=
  Measure.pi fun i => if F i then Measure.dirac (x0 i) else volume.restrict (Set.Icc (lo i) (hi i))

/-- The density `d` as a function of the free parameters, normalised: the distribution of the free parameters, given the fixed ones. -/
noncomputable def heldLaw {n : Nat} (lo hi : Fin n → ℝ) (F : Fin n → Prop) (x0 : Fin n → ℝ) (d : (Fin n → ℝ) → ℝ) : Measure (Fin n → ℝ) :=
  ((heldVolume lo hi F x0).withDensity (fun x => ENNReal.ofReal (d x)) Set.univ)⁻¹ • (heldVolume lo hi F x0).withDensity (fun x => ENNReal.ofReal (d x))

end Oxsx
