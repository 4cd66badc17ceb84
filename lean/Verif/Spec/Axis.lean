import Verif.Model.AxisCollection
/-
Specification vocabulary for axes, in terms of what the accessors return.
-/
namespace Oxsx
variable {α : Type} [Field α] [LinearOrder α]

/-- Bin `i` of the axis is the half-open interval `[lo, hi)`. -/
def BinAxis.BinIs (a : BinAxis α) (i : Nat) (lo hi : α) : Prop :=
  a.getBinLowEdge i = .ok lo ∧ a.getBinHighEdge i = .ok hi

/-- A contiguous axis: `nBins > 0` bins of non-negative width, each starting where the previous one
stops, the first starting at `min` and the last stopping at `max`, with centres and widths to match. -/
structure BinAxis.Contiguous (a : BinAxis α) : Prop where
  pos : 0 < a.nBins
  bins : ∀ i, i < a.nBins → ∃ lo hi, a.BinIs i lo hi ∧ lo ≤ hi ∧
    a.getBinCentre i = .ok ((lo + hi) / 2) ∧ a.getBinWidth i = .ok (hi - lo)
  noMore : ∀ i, a.nBins ≤ i → a.getBinLowEdge i = .throw .outOfRange ∧
    a.getBinHighEdge i = .throw .outOfRange ∧ a.getBinCentre i = .throw .outOfRange ∧
    a.getBinWidth i = .throw .outOfRange
  contig : ∀ i, i + 1 < a.nBins → a.getBinHighEdge i = a.getBinLowEdge (i + 1)
  first : a.getBinLowEdge 0 = .ok a.min
  last : a.getBinHighEdge (a.nBins - 1) = .ok a.max

/-- Additionally no bin is empty. -/
def BinAxis.PosWidths (a : BinAxis α) : Prop :=
  ∀ i lo hi, a.BinIs i lo hi → lo < hi

end Oxsx
