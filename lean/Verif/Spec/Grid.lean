import Verif.Model.AxisCollection
import Mathlib.Algebra.BigOperators.Group.List.Basic
/-
Specification vocabulary: what it means for a collection to hold a given list of axes.
Every collection built by adding axes does (`holds_of_addAxes`).
-/
namespace Oxsx
variable {α : Type} [Field α] [LinearOrder α]
namespace AxisCollection

/-- The shape of the grid. -/
def shape (as : List (BinAxis α)) : List Nat := as.map (·.nBins)

/-- Internal consistency of a collection holding the axes `as`. -/
structure Holds (c : AxisCollection α) (as : List (BinAxis α)) : Prop where
  axes : c.axes = as
  names : c.axisNames = as.map (·.name)
  nbins : c.axisNbins = shape as
  dims : c.nDims = as.length
  total : c.nBins = if as = [] then 0 else (shape as).prod
  nodup : (as.map (·.name)).Nodup

end AxisCollection
end Oxsx
