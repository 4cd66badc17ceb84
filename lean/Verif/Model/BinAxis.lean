import Verif.Basic
import Mathlib.Algebra.Order.Field.Basic
/-
Model of src/histogram/BinAxis.{h,cpp}.
`double` is an element of an arbitrary linearly ordered field `α`.
-/
namespace Oxsx

/-- src/histogram/BinAxis.h:52-62 (members of class BinAxis). -/
structure BinAxis (α : Type) where
  name : String
  latexName : String
  nBins : Nat
  min : α
  max : α
  lowEdges : List α
  highEdges : List α
  centres : List α
  widths : List α
  deriving DecidableEq, Repr

namespace BinAxis
variable {α : Type} [Field α] [LinearOrder α]

/-- src/histogram/BinAxis.cpp:6-34: equal-width constructor. The vector resizing followed by the
indexed writes of l.28-33 is written as a map over the bin numbers. -/
def mkEqual (name : String) (min max : α) (nBins : Nat) (latexName : String := "") :
    Res (BinAxis α) :=
  let latex := if latexName = "" then name else latexName
  if min ≥ max ∨ nBins = 0 then .throw .logic
  else
    let binWidth : α := (max - min) / (nBins : α)
    .ok
      { name := name, latexName := latex, nBins := nBins, min := min, max := max
        lowEdges := (List.range nBins).map (fun (i : Nat) => min + (i : α) * binWidth)
        centres := (List.range nBins).map (fun (i : Nat) => min + ((i : α) + 1 / 2) * binWidth)
        highEdges := (List.range nBins).map (fun (i : Nat) => min + ((i : α) + 1) * binWidth)
        widths := List.replicate nBins binWidth }

/-- src/histogram/BinAxis.cpp:49-52: the checks made for bin `i`. -/
def checkEdge (low high : List α) (i : Nat) : Res Unit :=
  Res.bind
    (if i = 0 then .ok ()
     else do
       let a ← at_ low (i - 1)
       let b ← at_ low i
       Res.throwIf (a > b) .logic)
    (fun _ => do
      let a ← at_ low i
      let b ← at_ high i
      Res.throwIf (a > b) .logic)

/-- src/histogram/BinAxis.cpp:47-53: the validity checks on explicit edges, one iteration per bin. -/
def checkEdges (low high : List α) : Res Unit :=
  Res.forFold (fun _ i => checkEdge low high i) () (List.range low.length)

/-- src/histogram/BinAxis.cpp:36-72: variable-width constructor. -/
def mkEdges (name : String) (low high : List α) (latexName : String := "") : Res (BinAxis α) := do
  Res.throwIf (high.length ≠ low.length ∨ low.length = 0) .logic
  checkEdges low high
  let centres ← Res.traverse (fun i => do
    let a ← at_ low i
    let b ← at_ high i
    pure (1 / 2 * (a + b))) (List.range low.length)
  let widths ← Res.traverse (fun i => do
    let a ← at_ low i
    let b ← at_ high i
    pure (b - a)) (List.range low.length)
  let mn ← at_ low 0
  let mx ← (match high.getLast? with | some x => .ok x | none => .ub)
  pure
    { name := name, latexName := if latexName = "" then name else latexName
      nBins := low.length, min := mn, max := mx
      lowEdges := low, highEdges := high, centres := centres, widths := widths }

/-- src/histogram/BinAxis.cpp:74-81. `std::lower_bound` with `std::less_equal`: first high edge
that is not `≤ value`. When `nBins = 0` the real code would return `size_t(-1)`; no constructor
produces such an axis. -/
def findBin (a : BinAxis α) (value : α) : Nat :=
  let insertIndex := lowerBound a.highEdges (fun e => decide (e ≤ value))
  if insertIndex = a.nBins then insertIndex - 1 else insertIndex

/-- src/histogram/BinAxis.cpp:83-87: only edges are compared. -/
def eq (a b : BinAxis α) : Bool :=
  decide (b.lowEdges = a.lowEdges ∧ b.highEdges = a.highEdges)

/-- src/histogram/BinAxis.h:31 -/
def getBinLowEdge (a : BinAxis α) (i : Nat) : Res α := at_ a.lowEdges i
/-- src/histogram/BinAxis.h:32 -/
def getBinHighEdge (a : BinAxis α) (i : Nat) : Res α := at_ a.highEdges i
/-- src/histogram/BinAxis.h:33 -/
def getBinCentre (a : BinAxis α) (i : Nat) : Res α := at_ a.centres i
/-- src/histogram/BinAxis.h:34 -/
def getBinWidth (a : BinAxis α) (i : Nat) : Res α := at_ a.widths i
/-- src/histogram/BinAxis.h:41 -/
def setName (a : BinAxis α) (n : String) : BinAxis α := { a with name := n }

end BinAxis
end Oxsx
