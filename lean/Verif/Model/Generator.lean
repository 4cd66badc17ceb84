import Verif.Model.DataSet
/-
Model of the public calls of src/data/DataSetGenerator.{h,cpp} on all its data sets. The draws from one data set are in Model/DataSet.lean.
Simplifications: `fEventIndicies` and `fMaxs`, always of equal length, are one list of pools; random numbers are supplied: `rnd i k` is the value of
the k-th uniform draw for data set i of the call, `pois i` the Poisson number drawn for data set i. `Reserve` and printing are dropped; so is the
conversion of the total rate to `int` for `Reserve` (l.96, undefined above 2^31).
-/
namespace Oxsx
variable {α : Type} [Field α] [LinearOrder α] [FloorRing α]

/-- src/data/DataSetGenerator.h:41-52 -/
structure Generator (α : Type) where
  seqFlags : List Bool
  sets : List (DataSet α)
  rates : List α
  pools : List Pool
  boots : List Bool
  cuts : CutCollection α

namespace Generator

omit [Field α] [LinearOrder α] [FloorRing α] in
/-- src/data/DataSetGenerator.h:19 -/
def new : Generator α := ⟨[], [], [], [], [], []⟩

omit [Field α] [LinearOrder α] [FloorRing α] in
/-- src/data/DataSetGenerator.cpp:23-30: rates and flags stay. -/
def setDataSets (g : Generator α) (ds : List (DataSet α)) : Generator α :=
  { g with sets := ds, pools := List.replicate ds.length Pool.fresh }

omit [Field α] [LinearOrder α] [FloorRing α] in
/-- src/data/DataSetGenerator.cpp:272-279: the bootstrap flags are not touched. -/
def addDataSet (g : Generator α) (d : DataSet α) (rate : α) (sequential : Bool) : Generator α :=
  { g with seqFlags := g.seqFlags ++ [sequential], sets := g.sets ++ [d], rates := g.rates ++ [rate], pools := g.pools ++ [Pool.added] }

omit [Field α] [LinearOrder α] [FloorRing α] in
/-- src/data/DataSetGenerator.cpp:32-35 -/
def setExpectedRates (g : Generator α) (r : List α) : Generator α := { g with rates := r }

omit [Field α] [LinearOrder α] [FloorRing α] in
/-- src/data/DataSetGenerator.cpp:287-290 -/
def setBootstrap (g : Generator α) (b : List Bool) : Generator α := { g with boots := b }

omit [Field α] [LinearOrder α] [FloorRing α] in
/-- src/data/DataSetGenerator.cpp:357-360 -/
def setSequentialFlags (g : Generator α) (b : List Bool) : Generator α := { g with seqFlags := b }

omit [Field α] [LinearOrder α] [FloorRing α] in
/-- src/data/DataSetGenerator.cpp:172-177 -/
def reset (g : Generator α) : Generator α := { g with pools := List.replicate g.sets.length Pool.fresh }

omit [Field α] [LinearOrder α] [FloorRing α] in
/-- src/data/DataSetGenerator.cpp:292-299: the bootstrap flags and the cuts stay. -/
def clearDataSets (g : Generator α) : Generator α := { g with seqFlags := [], rates := [], pools := [], sets := [] }

/-- `round` of a double: to the nearest integer, halves away from zero. -/
def roundAway (x : α) : Int := if 0 ≤ x then ⌊x + 1 / 2⌋ else ⌈x - 1 / 2⌉

/-- `unsigned expectedCounts = round(rate)` (src/data/DataSetGenerator.cpp:56): out of range is undefined. -/
def expectedCount (rate : α) : Res Nat :=
  if 0 ≤ roundAway rate ∧ roundAway rate < 2 ^ 32 then .ok (roundAway rate).toNat else .ub

/-- The choice of draw function for data set `i`, src/data/DataSetGenerator.cpp:58-73 and 106-123. -/
def drawSet (g : Generator α) (i n : Nat) (rnd : Nat → α) (out : DataSet α) : Res (Generator α × DataSet α) := do
  Res.throwIf (g.boots.length = 0) .notFound
  let b ← at_ g.boots i
  if b then do
    let p ← idx g.pools i
    let d ← at_ g.sets i
    let r ← Pool.replaceDraws g.cuts d p ((List.range n).map rnd) out
    pure ({ g with pools := g.pools.set i r.1 }, r.2)
  else do
    Res.throwIf (g.seqFlags.length = 0) .notFound
    let s ← at_ g.seqFlags i
    let p ← idx g.pools i
    let d ← at_ g.sets i
    if s then do
      let r ← Pool.sequentialDraws g.cuts d p n out
      pure ({ g with pools := g.pools.set i r.1 }, r.2)
    else do
      let r ← Pool.randomDraws g.cuts d p ((List.range n).map rnd) out
      pure ({ g with pools := g.pools.set i r.1 }, r.2)

/-- One iteration of src/data/DataSetGenerator.cpp:54-76, 102-127: (generator, data set, events taken). -/
def generateStep (counts : Nat → Res Nat) (rnd : Nat → Nat → α) (s : Generator α × DataSet α × List Int) (i : Nat) :
    Res (Generator α × DataSet α × List Int) := do
  let n ← counts i
  let r ← s.1.drawSet i n (rnd i) s.2.1
  pure (r.1, r.2, s.2.2 ++ [toInt32 n])

/-- src/data/DataSetGenerator.cpp:38-79, 82-129 up to the number of events asked of each data set. -/
def generate (g : Generator α) (counts : Nat → Res Nat) (rnd : Nat → Nat → α) : Res (Generator α × DataSet α × List Int) := do
  Res.throwIf (g.rates.length ≠ g.sets.length) .logic
  Res.throwIf (g.sets.length = 0) .logic
  let d0 ← at_ g.sets 0
  Res.forFold (generateStep counts rnd) (g, DataSet.empty.setObservableNames d0.names, []) (List.range g.sets.length)

/-- src/data/DataSetGenerator.cpp:38-79 -/
def expectedRatesDataSet (g : Generator α) (rnd : Nat → Nat → α) : Res (Generator α × DataSet α × List Int) :=
  g.generate (fun i => at_ g.rates i >>= expectedCount) rnd

/-- src/data/DataSetGenerator.cpp:81-129 -/
def poissonFluctuatedDataSet (g : Generator α) (pois : Nat → Nat) (rnd : Nat → Nat → α) : Res (Generator α × DataSet α × List Int) :=
  g.generate (fun i => at_ g.rates i >>= fun _ => .ok (pois i)) rnd

omit [Field α] [LinearOrder α] [FloorRing α] in
/-- src/data/DataSetGenerator.cpp:131-155: the cuts are not looked at. -/
def allValidEvents (g : Generator α) : Res (DataSet α × List Int) := do
  let d0 ← at_ g.sets 0
  Res.forFold (fun (s : DataSet α × List Int) (d : DataSet α) => do
    let out ← Res.forFold (fun (o : DataSet α) j => do
      let e ← d.getEntry j
      o.addEntry e) s.1 (List.range d.getNEntries)
    pure (out, s.2 ++ [toInt32 d.getNEntries])) (DataSet.empty.setObservableNames d0.names, []) g.sets

end Generator
end Oxsx
