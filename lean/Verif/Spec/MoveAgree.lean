import Mathlib.Probability.ConditionalProbability
import Mathlib.MeasureTheory.Measure.Lebesgue.Basic
/-
What C120 means by events spread evenly over bins, and by the part of a bin that leaves an axis.
-/
namespace Oxsx
open MeasureTheory

/-- The law of a value spread evenly between `lo` and `hi`. -/
noncomputable def evenly (lo hi : ℝ) : Measure ℝ := ProbabilityTheory.cond volume (Set.Ico lo hi)

/-- The share of the interval from `lo` to `hi` that lies below `m`. -/
noncomputable def shareBelow (lo hi m : ℝ) : ℝ := max 0 (min hi m - lo) / (hi - lo)

/-- The share of the interval from `lo` to `hi` that lies above `m`. -/
noncomputable def shareAbove (lo hi m : ℝ) : ℝ := max 0 (hi - max lo m) / (hi - lo)

end Oxsx
