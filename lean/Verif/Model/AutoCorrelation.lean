import Verif.Model.Constraint
import Mathlib.Algebra.Order.Floor.Ring
/-
Model of src/optimise/AutoCorrelationCalc.{h,cpp}.
-/
namespace Oxsx

/-- src/optimise/AutoCorrelationCalc.h:22-27; `values` is the deque from front (oldest) to back (newest). -/
structure AutoCorr (α : Type) where
  values : List α
  diffs : List α
  norms : List α
  qLen : Nat
  deriving DecidableEq

namespace AutoCorr
variable {α : Type} [Field α] [LinearOrder α]

/-- src/optimise/AutoCorrelationCalc.h:9-13 -/
def new (n : Nat) : AutoCorr α := ⟨[], List.replicate n 0, List.replicate n 0, n⟩

/-- src/optimise/AutoCorrelationCalc.cpp:37-41; the quotient of an empty window is not finite and is only reached with UB in `Fill`. -/
def mean (a : AutoCorr α) : α := a.values.sum / (a.values.length : α)

/-- src/optimise/AutoCorrelationCalc.cpp:7-9 -/
def push (a : AutoCorr α) (v : α) : AutoCorr α :=
  let vs := a.values ++ [v]
  { a with values := if vs.length > a.qLen then vs.tail else vs }

/-- One iteration of src/optimise/AutoCorrelationCalc.cpp:15-20: `rbegin()[i]` is the i-th newest value. -/
def lagStep (m newest : α) (a : AutoCorr α) (i : Nat) : Res (AutoCorr α) := do
  let older ← idx a.values.reverse i
  let d ← idx a.diffs i
  let ds ← setIdx a.diffs i (d + (newest - m) * (older - m))
  let n ← idx a.norms i
  let ns ← setIdx a.norms i (n + (newest - m) * (newest - m))
  pure { a with diffs := ds, norms := ns }

/-- src/optimise/AutoCorrelationCalc.cpp:4-21; `back()` of an empty deque is undefined. -/
def fill (a : AutoCorr α) (v : α) : Res (AutoCorr α) :=
  let b := a.push v
  match b.values.getLast? with
  | none => .ub
  | some newest => Res.forFold (lagStep b.mean newest) b (List.range b.values.length)

/-- src/optimise/AutoCorrelationCalc.cpp:23-35 (`none`: the quotient is not finite). `fNorms[i]` is unchecked. -/
def get (a : AutoCorr α) : Res (List (Fl α)) :=
  Res.traverse (fun i => do
    let d ← idx a.diffs i
    let n ← idx a.norms i
    pure (Fl.div d n)) (List.range a.diffs.length)

/-- `double` to `int`: truncation towards zero (overflow not modelled). -/
def trunc [FloorRing α] (x : α) : Int := if 0 ≤ x then ⌊x⌋ else ⌈x⌉

/-- src/optimise/AutoCorrelationCalc.cpp:43-49: the initial value `0` is an `int`, so the running sum is truncated after every term. -/
def var [FloorRing α] (a : AutoCorr α) : α :=
  ((a.values.foldl (fun (s : Int) x => trunc ((s : α) + x * x)) 0 : Int) : α) - a.mean * a.mean

/-- src/optimise/AutoCorrelationCalc.cpp:51-56 -/
def clear (a : AutoCorr α) : AutoCorr α := ⟨[], List.replicate a.qLen 0, List.replicate a.qLen 0, a.qLen⟩

end AutoCorr
end Oxsx
