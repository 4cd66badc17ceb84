import Verif.Model.BinAxis
/-
Model of src/histogram/AxisCollection.{h,cpp}. `size_t` products and sums are unbounded `Nat`
(more than 2^64 bins is out of scope).
-/
namespace Oxsx

/-- src/histogram/AxisCollection.h:48-52 (members). -/
structure AxisCollection (α : Type) where
  axes : List (BinAxis α)
  axisNames : List String
  axisNbins : List Nat
  nBins : Nat
  nDims : Nat
  deriving DecidableEq, Repr

namespace AxisCollection
variable {α : Type} [Field α] [LinearOrder α]

/-- src/histogram/AxisCollection.h:18 -/
def empty : AxisCollection α := ⟨[], [], [], 0, 0⟩

/-- src/histogram/AxisCollection.cpp:57-68. The loop reads `fAxisNbins[i]` for `i < fNDimensions`;
all of them exist in every collection built by `addAxis`. -/
def countBins (c : AxisCollection α) : AxisCollection α :=
  if c.nDims = 0 then { c with nBins := 0 }
  else { c with nBins := (c.axisNbins.take c.nDims).foldl (· * ·) 1 }

/-- src/histogram/AxisCollection.cpp:152-158 -/
def hasAxis (c : AxisCollection α) (name : String) : Bool :=
  (c.axes.take c.nDims).any (fun a => decide (name = a.name))

/-- src/histogram/AxisCollection.cpp:70-82 -/
def addAxis (c : AxisCollection α) (a : BinAxis α) : Res (AxisCollection α) :=
  if c.hasAxis a.name then .throw .value
  else .ok (countBins
    { c with
      axes := c.axes ++ [a]
      axisNames := c.axisNames ++ [a.name]
      axisNbins := c.axisNbins ++ [a.nBins]
      nDims := c.nDims + 1 })

/-- src/histogram/AxisCollection.cpp:84-88. (Axes added before a throwing one stay added in the
real object; the model returns the exception only.) -/
def addAxes (c : AxisCollection α) (as : List (BinAxis α)) : Res (AxisCollection α) :=
  Res.forFold addAxis c as

/-- src/histogram/AxisCollection.cpp:18-33 -/
def getAxis (c : AxisCollection α) (i : Nat) : Res (BinAxis α) :=
  (at_ c.axes i).mapExc (fun e => if e = .outOfRange then .notFound else e)

/-- src/histogram/AxisCollection.cpp:41-49 -/
def getAxisIndex (c : AxisCollection α) (name : String) : Res Nat :=
  match findPos c.axisNames name with
  | some i => .ok i
  | none => .throw .notFound

/-- src/histogram/AxisCollection.cpp:35-39 -/
def getAxisByName (c : AxisCollection α) (name : String) : Res (BinAxis α) := do
  let i ← c.getAxisIndex name
  at_ c.axes i

/-- src/histogram/AxisCollection.cpp:104-105 and 138-139: product of the bin counts of the axes
from position `k` on (reads `fAxisNbins[j]` for `k ≤ j < fNDimensions`). -/
def strideFrom (c : AxisCollection α) (k : Nat) : Nat :=
  ((c.axisNbins.take c.nDims).drop k).foldl (· * ·) 1

/-- src/histogram/AxisCollection.cpp:90-109. With no axes, `indices_.back()` on an empty vector is
undefined behaviour. -/
def flattenIndices (c : AxisCollection α) (indices : List Nat) : Res Nat :=
  if indices.length ≠ c.nDims then .throw .dimension
  else if c.nDims = 1 then at_ indices 0
  else
    match indices.getLast? with
    | none => .ub
    | some last =>
      Res.forFold (fun index i => do
        let x ← idx indices i
        pure (index + x * c.strideFrom (i + 1))) last (List.range (c.nDims - 1))

/-- src/histogram/AxisCollection.cpp:111-123 -/
def findBin (c : AxisCollection α) (vals : List α) : Res Nat := do
  Res.throwIf (vals.length ≠ c.nDims) .dimension
  let indices ← Res.traverse (fun i => do
    let a ← at_ c.axes i
    let v ← idx vals i
    pure (a.findBin v)) (List.range c.nDims)
  c.flattenIndices indices

/-- src/histogram/AxisCollection.cpp:125-141. Division by a zero stride cannot occur as every axis
has at least one bin; `n % fAxisNbins[dim_]` likewise. -/
def unflattenIndex (c : AxisCollection α) (index dim : Nat) : Res Nat :=
  if c.nDims = 1 then .ok index
  else if index ≥ c.nBins then .throw .notFound
  else do
    let n ← idx c.axisNbins dim
    pure ((index / c.strideFrom (dim + 1)) % n)

/-- src/histogram/AxisCollection.cpp:143-150 -/
def unpackIndices (c : AxisCollection α) (index : Nat) : Res (List Nat) :=
  Res.traverse (fun i => c.unflattenIndex index i) (List.range c.nDims)

/-- Common body of src/histogram/AxisCollection.cpp:160-209 (`GetBinLowEdges`, `GetBinHighEdges`,
`GetBinCentres`): note the `bin_ > fNBins` check; `outSize` is the size of the vector passed in. -/
def getBinVec (c : AxisCollection α) (f : BinAxis α → Nat → Res α) (bin outSize : Nat) :
    Res (List α) := do
  Res.throwIf (bin > c.nBins) .notFound
  Res.throwIf (outSize ≠ c.nDims) .dimension
  Res.traverse (fun i => do
    let a ← idx c.axes i
    let k ← c.unflattenIndex bin i
    f a k) (List.range c.nDims)

/-- src/histogram/AxisCollection.cpp:160-175 -/
def getBinLowEdges (c : AxisCollection α) (bin outSize : Nat) : Res (List α) :=
  c.getBinVec BinAxis.getBinLowEdge bin outSize
/-- src/histogram/AxisCollection.cpp:177-192 -/
def getBinHighEdges (c : AxisCollection α) (bin outSize : Nat) : Res (List α) :=
  c.getBinVec BinAxis.getBinHighEdge bin outSize
/-- src/histogram/AxisCollection.cpp:194-209 -/
def getBinCentres (c : AxisCollection α) (bin outSize : Nat) : Res (List α) :=
  c.getBinVec BinAxis.getBinCentre bin outSize

/-- Common body of src/histogram/AxisCollection.cpp:211-258. -/
def getBinOne (c : AxisCollection α) (f : BinAxis α → Nat → Res α) (bin dim : Nat) : Res α := do
  Res.throwIf (dim ≥ c.nDims) .notFound
  Res.throwIf (bin ≥ c.nBins) .notFound
  let a ← at_ c.axes dim
  let k ← c.unflattenIndex bin dim
  f a k

/-- src/histogram/AxisCollection.cpp:211-221 -/
def getBinLowEdge (c : AxisCollection α) (bin dim : Nat) : Res α :=
  c.getBinOne BinAxis.getBinLowEdge bin dim
/-- src/histogram/AxisCollection.cpp:223-233 -/
def getBinHighEdge (c : AxisCollection α) (bin dim : Nat) : Res α :=
  c.getBinOne BinAxis.getBinHighEdge bin dim
/-- src/histogram/AxisCollection.cpp:235-245 -/
def getBinCentre (c : AxisCollection α) (bin dim : Nat) : Res α :=
  c.getBinOne BinAxis.getBinCentre bin dim
/-- src/histogram/AxisCollection.cpp:247-258 -/
def getBinWidth (c : AxisCollection α) (bin dim : Nat) : Res α :=
  c.getBinOne BinAxis.getBinWidth bin dim

/-- src/histogram/AxisCollection.cpp:260-263: `std::vector::operator==` on the axes, element-wise
`BinAxis::operator==` (edges only, not names). -/
def eq (c d : AxisCollection α) : Bool :=
  decide (c.axes.length = d.axes.length) && (c.axes.zip d.axes).all (fun p => p.1.eq p.2)

end AxisCollection
end Oxsx
