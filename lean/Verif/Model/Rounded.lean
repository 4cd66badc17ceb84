import Verif.Model.Histogram
import Mathlib.Algebra.Order.Floor.Ring
import Mathlib.Data.Int.Log
import Mathlib.Data.Rat.Floor
/-
The rest of the model computes with exact numbers. Here the members that put events into bins are modelled with the rounding of
the machine: every arithmetic operation on doubles is followed by a rounding `rnd`; comparisons, loads, stores and integer
arithmetic are exact. `Ieee.rnd p` is rounding to nearest, ties to even, with a significand of `p` bits (53 for a double) and
exponents without limits: overflow, subnormal numbers, infinities and NaN are not modelled. A compiler that contracts
`a + b * c` into one fused operation rounds once less; with `fma = true` the model does so too.
-/
namespace Oxsx

/-- What is used of a rounding function: it is monotone, leaves alone what it has produced, and natural numbers up to `exactTo`. -/
structure Rounding (α : Type) [Field α] [LinearOrder α] where
  rnd : α → α
  mono : Monotone rnd
  idem : ∀ x, rnd (rnd x) = rnd x
  exactTo : Nat
  exact : ∀ n, n ≤ exactTo → rnd (n : α) = n

namespace Ieee
variable {α : Type} [Field α] [LinearOrder α] [IsStrictOrderedRing α] [FloorRing α]

/-- Rounding to the nearest integer, ties to the even one. -/
def toEven (r : α) : Int :=
  if r - ⌊r⌋ < 1 / 2 then ⌊r⌋
  else if 1 / 2 < r - ⌊r⌋ then ⌊r⌋ + 1
  else if ⌊r⌋ % 2 = 0 then ⌊r⌋ else ⌊r⌋ + 1

/-- The distance between neighbouring numbers with `p` significant bits at `x > 0`. -/
def ulp (p : Nat) (x : α) : α := 2 ^ (Int.log 2 x - ((p : Int) - 1))

/-- Rounding of a positive number. -/
def rndPos (p : Nat) (x : α) : α := toEven (x / ulp p x) * ulp p x

/-- Rounding to nearest, ties to even, with `p` significant bits. -/
def rnd (p : Nat) (x : α) : α := if x = 0 then 0 else if 0 < x then rndPos p x else -rndPos p (-x)

end Ieee

variable {α : Type} [Field α] [LinearOrder α]

namespace BinAxis

/-- `a + b * c` on the machine. -/
def mulAdd (R : Rounding α) (fma : Bool) (a b c : α) : α := if fma then R.rnd (a + b * c) else R.rnd (a + R.rnd (b * c))

/-- src/histogram/BinAxis.cpp:6-34: the equal-width constructor with rounding. `i` and `i + 1` are converted from `size_t`. -/
def mkEqualR (R : Rounding α) (fma : Bool) (name : String) (min max : α) (nBins : Nat) (latexName : String := "") :
    Res (BinAxis α) :=
  let latex := if latexName = "" then name else latexName
  if min ≥ max ∨ nBins = 0 then .throw .logic
  else
    let binWidth : α := R.rnd (R.rnd (max - min) / R.rnd (nBins : α))
    .ok
      { name := name, latexName := latex, nBins := nBins, min := min, max := max
        lowEdges := (List.range nBins).map (fun (i : Nat) => mulAdd R fma min (R.rnd (i : α)) binWidth)
        centres := (List.range nBins).map (fun (i : Nat) => mulAdd R fma min (R.rnd (R.rnd (i : α) + 1 / 2)) binWidth)
        highEdges := (List.range nBins).map (fun (i : Nat) => mulAdd R fma min (R.rnd ((i + 1 : Nat) : α)) binWidth)
        widths := List.replicate nBins binWidth }

end BinAxis

namespace Histogram

/-- src/histogram/Histogram.cpp:68-74 with rounding. -/
def fillR (R : Rounding α) (h : Histogram α) (vals : List α) (weight : α) : Res (Histogram α) := do
  Res.throwIf (vals.length ≠ h.nDims) .dimension
  let b ← h.findBin vals
  let x ← idx h.contents b
  let cs ← setIdx h.contents b (R.rnd (x + weight))
  pure { h with contents := cs }

/-- Filling with a sequence of values, each with weight 1, the default of src/histogram/Histogram.h. -/
def fillUnitsR (R : Rounding α) (h : Histogram α) (evs : List (List α)) : Res (Histogram α) :=
  Res.forFold (fun (h : Histogram α) vs => h.fillR R vs 1) h evs

/-- src/histogram/Histogram.cpp:30-37 with rounding. -/
def integralR (R : Rounding α) (h : Histogram α) : α := (h.contents.take h.nBins).foldl (fun a b => R.rnd (a + b)) 0

/-- src/histogram/Histogram.cpp:119-126 with rounding. -/
def addBinContentR (R : Rounding α) (h : Histogram α) (bin : Nat) (content : α) : Res (Histogram α) :=
  if bin > h.nBins then .throw .notFound
  else do
    let x ← idx h.contents bin
    let cs ← setIdx h.contents bin (R.rnd (x + content))
    pure { h with contents := cs }

/-- src/histogram/Histogram.cpp:243-253 with rounding. -/
def margStepR (R : Rounding α) (h : Histogram α) (indices : List Nat) (m : Histogram α) (bin : Nat) : Res (Histogram α) := do
  let oldIndices ← Res.traverse (fun i => h.axes.unflattenIndex bin i) (List.range h.nDims)
  let newIndices ← Res.traverse (fun k => at_ oldIndices k) indices
  let newBin ← m.axes.flattenIndices newIndices
  let c ← at_ h.contents bin
  m.addBinContentR R newBin c

/-- src/histogram/Histogram.cpp:209-255 with rounding. -/
def marginaliseR (R : Rounding α) (h : Histogram α) (names : List String) : Res (Histogram α) := do
  Res.throwIf (∃ n ∈ names, findPos h.axes.axisNames n = none) .notFound
  let indices ← Res.traverse h.axes.getAxisIndex names
  let newAxes ← Res.forFold (fun c n => do
    let a ← h.axes.getAxisByName n
    AxisCollection.addAxis c a) AxisCollection.empty names
  Res.forFold (margStepR R h indices) (ofAxes newAxes) (List.range h.nBins)

end Histogram
end Oxsx
