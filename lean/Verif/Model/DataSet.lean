import Verif.Model.Cut
import Mathlib.Algebra.Order.Floor.Defs
import Mathlib.Algebra.Order.Floor.Ring
/-
Model of src/data/OXSXDataSet.{h,cpp}, src/data/DataSetGenerator.{h,cpp} and `Rand::Shoot` (src/rand/Rand.cpp).
Simplifications: every event of a data set points at the names of the set that owns it (src/data/OXSXDataSet.cpp:20),
so an event is read back with the owner's current names; the owner is alive whenever the event is used. Progress printing and
`Reserve` are dropped. `GetNEntries` is not truncated to 32 bits. Random numbers are a list consumed one per draw.
-/
namespace Oxsx

/-- src/data/OXSXDataSet.h:33-35: the values of each event, the names, the number of observables. -/
structure DataSet (α : Type) where
  data : List (List α)
  names : List String
  nObs : Nat
  deriving DecidableEq, Repr

namespace DataSet
variable {α : Type}

/-- src/data/OXSXDataSet.h:17 -/
def empty : DataSet α := ⟨[], [], 0⟩

/-- src/data/OXSXDataSet.cpp:41-44 -/
def setObservableNames (d : DataSet α) (ns : List String) : DataSet α := { d with names := ns }

/-- src/data/OXSXDataSet.cpp:35-39 -/
def getNEntries (d : DataSet α) : Nat := d.data.length

/-- src/data/OXSXDataSet.cpp:5-21 -/
def addEntry (d : DataSet α) (e : Event α) : Res (DataSet α) :=
  if d.nObs ≠ 0 ∧ d.nObs ≠ e.obs.length then .throw .dimension
  else if e.obs.length = 0 then .throw .dimension
  else .ok ⟨d.data ++ [e.obs], d.names, e.obs.length⟩

/-- src/data/OXSXDataSet.cpp:23-33 -/
def getEntry (d : DataSet α) (i : Nat) : Res (Event α) :=
  match d.data[i]? with
  | some o => .ok ⟨o, some d.names⟩
  | none => .throw .notFound

/-- src/data/OXSXDataSet.cpp:52-59 `a + b` for two different objects: the entries of `b` are appended to `a` itself,
and a copy of `a` is returned. The pair is (returned value, `a` afterwards). -/
def plus (a b : DataSet α) : Res (DataSet α × DataSet α) := do
  let a' ← Res.forFold (fun (a : DataSet α) i => do
    let e ← b.getEntry i
    a.addEntry e) a (List.range b.getNEntries)
  pure (a', a')

/-- src/data/OXSXDataSet.cpp:52-59 when the argument is the object itself (`a + a`): the loop bound is read again at
every iteration. `none`: still running after `fuel` iterations. -/
def selfPlusFrom : (fuel i : Nat) → DataSet α → Option (Res (DataSet α))
  | 0, _, _ => none
  | fuel + 1, i, a =>
    if i < a.getNEntries then
      match a.getEntry i >>= a.addEntry with
      | .ok a' => selfPlusFrom fuel (i + 1) a'
      | .throw x => some (.throw x)
      | .ub => some .ub
    else some (.ok a)

end DataSet

/-- 64-bit unsigned decrement (`max--` on a `size_t`). -/
def szDec (n : Nat) : Nat := if n = 0 then 2 ^ 64 - 1 else n - 1

/-- `static_cast<size_t>(-999)`, the "not set" marker of src/data/DataSetGenerator.cpp:29, 176, 211. -/
def notSet : Nat := 2 ^ 64 - 999

/-- `size_t` to `int` conversion (argument of `Rand::Shoot`): modulo 2^32, into [-2^31, 2^31). -/
def toInt32 (n : Nat) : Int :=
  if (n : Int) % 2 ^ 32 < 2 ^ 31 then (n : Int) % 2 ^ 32 else (n : Int) % 2 ^ 32 - 2 ^ 32

/-- `int` to `size_t` conversion. -/
def ofInt32 (i : Int) : Nat := (i % 2 ^ 64).toNat

/-- src/rand/Rand.cpp:22-25 with the uniform number `u` (in [0,1)): conversion to `int` truncates towards zero. -/
def shoot {α : Type} [Field α] [LinearOrder α] [FloorRing α] (max : Int) (u : α) : Int :=
  if 0 ≤ (max : α) * u then ⌊(max : α) * u⌋ else ⌈(max : α) * u⌉

/-- The entries of `fEventIndicies` and `fMaxs` for one data set (src/data/DataSetGenerator.h:48-49). -/
structure Pool where
  idxs : List Nat
  max : Nat
  deriving DecidableEq, Repr

namespace Pool
variable {α : Type}

/-- State after `SetDataSets` or `Reset` (src/data/DataSetGenerator.cpp:23-30, 172-177). -/
def fresh : Pool := ⟨[], notSet⟩

/-- State after `AddDataSet` (src/data/DataSetGenerator.cpp:272-279). -/
def added : Pool := ⟨[], 0⟩

/-- The initialisation repeated in every draw function (src/data/DataSetGenerator.cpp:189-195, 242-248, 316-323). -/
def init (p : Pool) (n : Nat) : Pool :=
  if p.idxs.length = 0 then ⟨List.range n, szDec n⟩ else p

/-- src/data/DataSetGenerator.cpp:211-212, 258-259, 335-336 -/
def fixMax (p : Pool) : Pool := if p.max = notSet then { p with max := szDec p.idxs.length } else p

/-- The swap of src/data/DataSetGenerator.cpp:216-218, 342-344 (unchecked subscripts). -/
def swap (l : List Nat) (i j : Nat) : Res (List Nat) := do
  let cache ← idx l i
  let y ← idx l j
  let l1 ← setIdx l i y
  setIdx l1 j cache

variable [Field α] [LinearOrder α] [FloorRing α]

/-- Copying the chosen event if it passes the cuts (src/data/DataSetGenerator.cpp:221-222, 265-266, 347-348). -/
def take (cuts : CutCollection α) (d : DataSet α) (j : Nat) (out : DataSet α) : Res (DataSet α) := do
  let e ← d.getEntry j
  let b ← cuts.passesCuts e
  if b then out.addEntry e else pure out

/-- One iteration of src/data/DataSetGenerator.cpp:206-226. -/
def stepRandom (cuts : CutCollection α) (d : DataSet α) (s : Pool × DataSet α) (u : α) : Res (Pool × DataSet α) := do
  let p := s.1.fixMax
  let draw := ofInt32 (shoot (toInt32 p.max) u)
  let l ← swap p.idxs draw p.max
  let j ← idx l p.max
  let out ← take cuts d j s.2
  pure (⟨l, szDec p.max⟩, out)

/-- src/data/DataSetGenerator.cpp:179-229 `RandomDrawsNoReplacement`, one random number per requested event. -/
def randomDraws (cuts : CutCollection α) (d : DataSet α) (p : Pool) (us : List α) (out : DataSet α) :
    Res (Pool × DataSet α) :=
  if d.getNEntries < us.length then .throw .notFound
  else Res.forFold (stepRandom cuts d) (p.init d.getNEntries, out) us

/-- One iteration of src/data/DataSetGenerator.cpp:253-267. -/
def stepReplace (cuts : CutCollection α) (d : DataSet α) (s : Pool × DataSet α) (u : α) : Res (Pool × DataSet α) := do
  let p := s.1.fixMax
  let draw := ofInt32 (shoot (toInt32 p.max) u)
  let j ← idx p.idxs draw
  let out ← take cuts d j s.2
  pure (p, out)

/-- src/data/DataSetGenerator.cpp:231-270 `RandomDrawsWithReplacement`. -/
def replaceDraws (cuts : CutCollection α) (d : DataSet α) (p : Pool) (us : List α) (out : DataSet α) :
    Res (Pool × DataSet α) :=
  if d.getNEntries = 0 then .throw .notFound
  else Res.forFold (stepReplace cuts d) (p.init d.getNEntries, out) us

omit [FloorRing α] in
/-- One iteration of src/data/DataSetGenerator.cpp:330-352: the event returned is the one swapped INTO position 0. -/
def stepSequential (cuts : CutCollection α) (d : DataSet α) (s : Pool × DataSet α) (_i : Nat) :
    Res (Pool × DataSet α) := do
  let p := s.1.fixMax
  let l ← swap p.idxs 0 p.max
  let j ← idx l 0
  let out ← take cuts d j s.2
  pure (⟨l, szDec p.max⟩, out)

omit [FloorRing α] in
/-- src/data/DataSetGenerator.cpp:301-355 `SequentialDrawsNoReplacement`. -/
def sequentialDraws (cuts : CutCollection α) (d : DataSet α) (p : Pool) (n : Nat) (out : DataSet α) :
    Res (Pool × DataSet α) :=
  if d.getNEntries < n then .throw .notFound
  else if d.getNEntries = 0 then .throw .notFound
  else Res.forFold (stepSequential cuts d) (p.init d.getNEntries, out) (List.range n)

omit [FloorRing α] in
/-- src/data/DataSetGenerator.cpp:368-398 `AllRemainingEvents`: (data set, reported number taken). -/
def allRemaining (d : DataSet α) (p : Pool) : Res (DataSet α × Nat) := do
  let n := if p.max = notSet then szDec d.getNEntries else p.max
  if n = 2 ^ 64 - 1 then pure (DataSet.empty.setObservableNames d.names, 0)
  else do
    let out ← Res.forFold (fun (o : DataSet α) j => do
      let i ← at_ p.idxs j
      let e ← d.getEntry i
      o.addEntry e) (DataSet.empty.setObservableNames d.names) (List.range (n + 1))
    pure (out, n)

end Pool
end Oxsx
