import Verif.Model.AxisCollection
/-
Model of src/histogram/Histogram.{h,cpp}. Mutating methods return the new histogram.
-/
namespace Oxsx

/-- src/histogram/Histogram.h:75-78 (members). -/
structure Histogram (α : Type) where
  axes : AxisCollection α
  contents : List α
  nBins : Nat
  nDims : Nat
  deriving DecidableEq, Repr

namespace Histogram
variable {α : Type} [Field α] [LinearOrder α]

/-- src/histogram/Histogram.h:18 -/
def empty : Histogram α := ⟨.empty, [], 0, 0⟩

/-- src/histogram/Histogram.cpp:16-22: existing contents are kept by `resize`. -/
def setAxes (h : Histogram α) (c : AxisCollection α) : Histogram α :=
  { axes := c, nBins := c.nBins, nDims := c.nDims, contents := resize h.contents c.nBins 0 }

/-- src/histogram/Histogram.cpp:11-14 -/
def ofAxes (c : AxisCollection α) : Histogram α := setAxes empty c

/-- src/histogram/Histogram.cpp:30-37. Reads `fBinContents[i]`, `i < fNBins` (all exist since the
vector always has `fNBins` elements, `Histogram.WF`). -/
def integral (h : Histogram α) : α :=
  (h.contents.take h.nBins).foldl (· + ·) 0

/-- src/histogram/Histogram.cpp:93-97 -/
def findBin (h : Histogram α) (vals : List α) : Res Nat := h.axes.findBin vals

/-- src/histogram/Histogram.cpp:99-107 -/
def findBin1 (h : Histogram α) (v : α) : Res Nat := do
  Res.throwIf (h.nDims ≠ 1) .dimension
  let a ← h.axes.getAxis 0
  pure (a.findBin v)

/-- src/histogram/Histogram.cpp:39-53 -/
def integralRange (h : Histogram α) (min max : α) : Res α := do
  Res.throwIf (h.nDims ≠ 1) .dimension
  if max ≤ min then pure 0
  else
    let low ← h.findBin1 min
    let high ← h.findBin1 max
    Res.forFold (fun sum i => do
      let x ← idx h.contents i
      pure (sum + x)) 0 (List.range' low (high + 1 - low))

/-- src/histogram/Histogram.cpp:55-60 -/
def normalise (h : Histogram α) : Histogram α :=
  let sum := h.integral
  { h with contents := h.contents.map (· / sum) }

/-- src/histogram/Histogram.cpp:62-66 -/
def scale (h : Histogram α) (s : α) : Histogram α :=
  { h with contents := h.contents.map (· * s) }

/-- src/histogram/Histogram.cpp:68-74 -/
def fill (h : Histogram α) (vals : List α) (weight : α) : Res (Histogram α) := do
  Res.throwIf (vals.length ≠ h.nDims) .dimension
  let b ← h.findBin vals
  let x ← idx h.contents b
  let cs ← setIdx h.contents b (x + weight)
  pure { h with contents := cs }

/-- src/core/ContainerTools.hpp:49-64 (`GetValues(map, keys)`, throws `std::out_of_range`). The map
is given as an association list with distinct keys. -/
def getValues (m : List (String × α)) (keys : List String) : Res (List α) :=
  Res.traverse (fun k =>
    match m.lookup k with
    | some v => .ok v
    | none => .throw .outOfRange) keys

/-- src/histogram/Histogram.cpp:76-86 -/
def fillMap (h : Histogram α) (m : List (String × α)) (weight : α) : Res (Histogram α) :=
  Res.mapExc (fun e => if e = .outOfRange then .notFound else e)
    (do let vs ← getValues m h.axes.axisNames
        h.fill vs weight)

/-- src/histogram/Histogram.cpp:88-91 -/
def fill1 (h : Histogram α) (v weight : α) : Res (Histogram α) := h.fill [v] weight

/-- src/histogram/Histogram.cpp:109-117: the guard is `bin_ > fNBins`. -/
def getBinContent (h : Histogram α) (bin : Nat) : Res α :=
  if bin > h.nBins then .throw .notFound else idx h.contents bin

/-- src/histogram/Histogram.cpp:119-126 -/
def addBinContent (h : Histogram α) (bin : Nat) (content : α) : Res (Histogram α) :=
  if bin > h.nBins then .throw .notFound
  else do
    let x ← idx h.contents bin
    let cs ← setIdx h.contents bin (x + content)
    pure { h with contents := cs }

/-- src/histogram/Histogram.cpp:128-133 -/
def setBinContent (h : Histogram α) (bin : Nat) (content : α) : Res (Histogram α) :=
  if bin > h.nBins then .throw .notFound
  else do
    let cs ← setIdx h.contents bin content
    pure { h with contents := cs }

/-- src/histogram/Histogram.cpp:147-151 -/
def emptyContents (h : Histogram α) : Histogram α :=
  { h with contents := h.contents.map (fun _ => 0) }

/-- src/histogram/Histogram.cpp:170-178 -/
def setBinContents (h : Histogram α) (data : List α) : Res (Histogram α) :=
  if data.length ≠ h.nBins then .throw .dimension
  else .ok { h with contents := data, nBins := data.length }

/-- src/histogram/Histogram.cpp:180-188. The accumulators of the different dimensions are
independent, so the two loops are written dimension by dimension. -/
def means (h : Histogram α) : Res (List α) :=
  Res.traverse (fun j =>
    Res.forFold (fun m i => do
      let c ← at_ h.contents i
      let x ← h.axes.getBinCentre i j
      pure (m + c * x)) 0 (List.range h.nBins)) (List.range h.nDims)

/-- src/histogram/Histogram.cpp:190-207 -/
def variances (h : Histogram α) : Res (List α) := do
  let vs ← Res.traverse (fun j =>
    Res.forFold (fun v i => do
      let x ← h.axes.getBinCentre i j
      let c ← at_ h.contents i
      pure (v + x * x * c)) 0 (List.range h.nBins)) (List.range h.nDims)
  let ms ← h.means
  Res.traverse (fun i => do
    let v ← idx vs i
    let m ← at_ ms i
    pure (v - m * m)) (List.range h.nDims)

/-- src/histogram/Histogram.cpp:243-253: one iteration of the marginalisation loop. -/
def margStep (h : Histogram α) (indices : List Nat) (m : Histogram α) (bin : Nat) :
    Res (Histogram α) := do
  let oldIndices ← Res.traverse (fun i => h.axes.unflattenIndex bin i) (List.range h.nDims)
  let newIndices ← Res.traverse (fun k => at_ oldIndices k) indices
  let newBin ← m.axes.flattenIndices newIndices
  let c ← at_ h.contents bin
  m.addBinContent newBin c

/-- src/histogram/Histogram.cpp:209-255 -/
def marginalise (h : Histogram α) (names : List String) : Res (Histogram α) := do
  Res.throwIf (∃ n ∈ names, findPos h.axes.axisNames n = none) .notFound
  let indices ← Res.traverse h.axes.getAxisIndex names
  let newAxes ← Res.forFold (fun c n => do
    let a ← h.axes.getAxisByName n
    AxisCollection.addAxis c a) AxisCollection.empty names
  Res.forFold (margStep h indices) (ofAxes newAxes) (List.range h.nBins)

/-- src/histogram/Histogram.cpp:263-296 (`Recurse`): the combinations it appends to `localIdx`, in
order. `binsEachAxis.at(numFreeIdx-1)` and `free_ax[...]` exist for every call made by `GetSlice`;
outside of that the model follows `.at` (exception) and `[]` (UB). `coords` is passed by value, so
sibling iterations only differ in the entries they overwrite. -/
def recurse (numFree : Nat) (binsEachAxis : List Nat) (coords : List Nat) (freeAx : List Nat) :
    Res (List (List Nat)) :=
  match numFree with
  | 0 => .ok [coords]
  | n + 1 => do
    let nb ← at_ binsEachAxis n
    let (_, out) ← Res.forFold (fun (s : List Nat × List (List Nat)) i => do
        let ax ← idx freeAx n
        let coords' ← setIdx s.1 ax i
        let sub ← recurse n binsEachAxis coords' freeAx
        pure (coords', s.2 ++ sub)) (coords, []) (List.range nb)
    pure out

/-- src/histogram/Histogram.cpp:298-397. `fixed` is the map axis name → fixed bin (association list
with distinct keys). -/
def getSlice (h : Histogram α) (fixed : List (String × Nat)) : Res (Histogram α) := do
  Res.throwIf (∃ p ∈ fixed, findPos h.axes.axisNames p.1 = none) .notFound
  Res.throwIf (fixed.length ≥ h.nDims) .dimension
  let freeNames := h.axes.axisNames.filter (fun n => (fixed.lookup n).isNone)
  let isFixed := h.axes.axisNames.map (fun n => (fixed.lookup n).isSome)
  let freeIdx ← Res.traverse h.axes.getAxisIndex freeNames
  let newAxes ← Res.forFold (fun c i => do
    let a ← h.axes.getAxis i
    AxisCollection.addAxis c a) AxisCollection.empty freeIdx
  let binsEachAxis ← Res.traverse (fun n => do
    let a ← newAxes.getAxisByName n
    pure a.nBins) freeNames
  let coords ← Res.traverse (fun i => do
    let f ← at_ isFixed i
    if f then do
      let n ← idx h.axes.axisNames i
      match fixed.lookup n with
      | some b => pure b
      | none => .throw .outOfRange
    else pure 0) (List.range h.nDims)
  let localIdx ← recurse freeNames.length binsEachAxis coords freeIdx
  let (s, _) ← Res.forFold (fun (s : Histogram α × Nat) li => do
    let oldBin ← h.axes.flattenIndices li
    let c ← at_ h.contents oldBin
    let s' ← s.1.addBinContent s.2 c
    pure (s', s.2 + 1)) (ofAxes newAxes, 0) localIdx
  pure s

/-- Common loop of `Add`, `Multiply`, `Divide`. -/
def combine (h other : Histogram α) (f : α → α → α) : Res (Histogram α) :=
  if !(other.axes.eq h.axes) then .throw .value
  else Res.forFold (fun (s : Histogram α) i => do
    let x ← s.getBinContent i
    let y ← other.getBinContent i
    s.setBinContent i (f x y)) h (List.range h.nBins)

/-- src/histogram/Histogram.cpp:432-439 (`AddBinContent(i, y*w)` is `SetBinContent(i, x + y*w)`). -/
def add (h other : Histogram α) (weight : α) : Res (Histogram α) :=
  h.combine other (fun x y => x + y * weight)
/-- src/histogram/Histogram.cpp:441-448 -/
def multiply (h other : Histogram α) : Res (Histogram α) := h.combine other (fun x y => x * y)
/-- src/histogram/Histogram.cpp:450-457. Division by a zero bin gives inf/NaN in the code; the field
convention `x/0 = 0` is excluded by hypotheses in the theorems about it. -/
def divide (h other : Histogram α) : Res (Histogram α) := h.combine other (fun x y => x / y)

/-- src/histogram/Histogram.cpp:471-482 -/
def addPadding (h : Histogram α) (padding : α) : Histogram α :=
  { h with contents := h.contents.map (fun x => if x = 0 then padding else x) }

/-- `size_t` arithmetic modulo 2^64. -/
def wrap64 (n : Int) : Nat := (n % (2 ^ 64 : Int)).toNat

/-- src/histogram/AxisCollection.cpp:90-109 on 64-bit `size_t` (result reduced modulo 2^64), used
where indices may have wrapped around. -/
def flattenWrap (h : Histogram α) (indices : List Nat) : Res Nat := do
  let b ← h.axes.flattenIndices indices
  pure (b % 2 ^ 64)

/-- src/histogram/Histogram.cpp:484-535. Returns the values and the lattice locations. The
dimension check against 20 (l.511) comes after the first lookups. `1 << fNDims` shifts an `int`
(fine up to 30 dimensions). -/
def getLatticePointValues (h : Histogram α) (vals : List α) :
    Res (List α × List (List α)) := do
  let valsBin ← h.findBin vals
  let valsBinIdxs ← h.axes.unpackIndices valsBin
  let centre ← h.axes.getBinCentres valsBin h.nDims
  let isLarger ← Res.traverse (fun dim => do
    let v ← at_ vals dim
    let c ← at_ centre dim
    pure (decide (v ≥ c))) (List.range h.nDims)
  Res.throwIf (h.nDims > 20) .dimension
  let pts ← Res.traverse (fun lattIdx => do
    let axBins ← Res.traverse (fun dim => do
      let b ← at_ valsBinIdxs dim
      let l ← at_ isLarger dim
      pure (wrap64 ((b : Int) + (if Nat.testBit lattIdx dim then 1 else 0)
        + (if l then 1 else 0) - 1))) (List.range h.nDims)
    let bin ← h.flattenWrap axBins
    let v ← h.getBinContent bin
    let loc ← h.axes.getBinCentres bin h.nDims
    pure (v, loc)) (List.range (2 ^ h.nDims))
  pure (pts.map (·.1), pts.map (·.2))

end Histogram
end Oxsx
