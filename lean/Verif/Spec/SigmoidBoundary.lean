import Verif.Map
import Mathlib.Analysis.SpecialFunctions.Log.Basic
/-
Soft walls, independent of the model of the code.
-/
namespace Oxsx.Spec

/-- The height of a soft wall of steepness `mu` seen from `depth` inside it. -/
noncomputable def softWall (mu depth : ℝ) : ℝ := Real.log (1 + Real.exp (-(mu * depth)))

/-- What the walls `lo` and `hi` add at the point `val`: a lower wall is seen from `val - lo` inside, an upper one from `hi - val`. -/
noncomputable def walls (mu : ℝ) (lo hi : SMap ℝ) (val : String → ℝ) : ℝ :=
  (lo.map (fun q => softWall mu (val q.1 - q.2))).sum + (hi.map (fun q => softWall mu (q.2 - val q.1))).sum

end Oxsx.Spec
