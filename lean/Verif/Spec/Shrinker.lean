import Verif.Spec.Axis
import Verif.Spec.Histogram
import Verif.Spec.MixedRadix
import Verif.Map
/-
Specification of the fit region defined by buffers around it, in terms of axis names, bin numbers
and edges.
-/
namespace Oxsx
open AxisCollection
variable {α : Type} [Field α] [LinearOrder α]

/-- Number of buffer bins below and above the fit region on the axis called `n`. -/
def bufLow (bufs : SMap (Nat × Nat)) (n : String) : Nat := ((bufs.find n).getD (0, 0)).1
def bufHigh (bufs : SMap (Nat × Nat)) (n : String) : Nat := ((bufs.find n).getD (0, 0)).2

/-- At least one bin of the axis is left. -/
def LeavesABin (bufs : SMap (Nat × Nat)) (a : BinAxis α) : Prop :=
  bufLow bufs a.name + bufHigh bufs a.name < a.nBins

/-- `a'` is the part of `a` inside the buffers: same name, the bins `low, …, n-1-high` with the
same edges, and a proper axis in its own right. -/
structure FitAxis (bufs : SMap (Nat × Nat)) (a a' : BinAxis α) : Prop where
  name : a'.name = a.name
  count : a'.nBins + bufLow bufs a.name + bufHigh bufs a.name = a.nBins
  edges : ∀ i, i < a'.nBins → ∀ lo hi, a'.BinIs i lo hi ↔ a.BinIs (bufLow bufs a.name + i) lo hi
  proper : a'.Contiguous

/-- Number (in the shrunk axis) of the retained bin nearest to bin `i` of axis `a`. -/
def nearestKept (bufs : SMap (Nat × Nat)) (a : BinAxis α) (i : Nat) : Nat :=
  min i (a.nBins - 1 - bufHigh bufs a.name) - bufLow bufs a.name

/-- Bin `i` of axis `a` is in the fit region. -/
def Kept (bufs : SMap (Nat × Nat)) (a : BinAxis α) (i : Nat) : Prop :=
  bufLow bufs a.name ≤ i ∧ i + bufHigh bufs a.name < a.nBins

instance (bufs : SMap (Nat × Nat)) (a : BinAxis α) (i : Nat) : Decidable (Kept bufs a i) := by
  unfold Kept; infer_instance

/-- Index tuple, in the shrunk grid, of the retained bin nearest to old bin `b`. -/
def nearestIndices (bufs : SMap (Nat × Nat)) (as : List (BinAxis α)) (b : Nat) : List Nat :=
  List.zipWith (nearestKept bufs) as (digits (shape as) b)

/-- Old bin `b` is inside the buffers on every axis. -/
def allKept (bufs : SMap (Nat × Nat)) (as : List (BinAxis α)) (b : Nat) : Bool :=
  (List.zipWith (fun a i => decide (Kept bufs a i)) as (digits (shape as) b)).all id

end Oxsx
