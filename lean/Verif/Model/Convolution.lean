import Verif.Model.Systematic
/-
Model of src/systematic/Convolution.{h,cpp} and of the jump kernel src/function/JumpPDF.cpp.
-/
namespace Oxsx
variable {α : Type} [Field α] [LinearOrder α]

/-- src/systematic/Convolution.h:43-49. `kernel lows highs xs` stands for `fDist->Integral(lows, highs, xs)`, an arbitrary
function; `none` is the NULL pointer. -/
structure Convolution (α : Type) where
  base : SysBase α
  kernel : Option (List α → List α → List α → α)
  subAxes : AxisCollection α
  notSubAxes : AxisCollection α
  perms : List Nat
  cached : Bool

namespace Convolution

/-- src/systematic/Convolution.h:20 -/
def new : Convolution α := ⟨.new, none, .empty, .empty, [], false⟩

/-- src/systematic/Convolution.cpp:15-19 -/
def setKernel (s : Convolution α) (k : List α → List α → List α → α) : Convolution α := { s with kernel := some k }

/-- src/function/JumpPDF.cpp:48-56 and its `Integral` (the kernel given by `SetFunction`, Convolution.cpp:8-13):
`P(x | x2) = P(x - x2)`, with `f lows highs` the integral of the function. -/
def jump (f : List α → List α → α) : List α → List α → List α → α :=
  fun lows highs xs => f (List.zipWith (· - ·) lows xs) (List.zipWith (· - ·) highs xs)

/-- src/systematic/Systematic.cpp:94-98, inherited: the cached permutation is kept. -/
def setAxes (s : Convolution α) (c : AxisCollection α) : Convolution α := { s with base := s.base.setAxes c }

/-- src/systematic/Systematic.cpp:40-54, inherited. -/
def setObs (s : Convolution α) (trans dist : ObsSet) : Convolution α :=
  { s with base := (s.base.setTransformationObs trans).setDistributionObs dist }

/-- src/systematic/Convolution.cpp:148-158 -/
def subCollection (c : AxisCollection α) (rel : List Nat) : Res (AxisCollection α) :=
  Res.forFold (fun (d : AxisCollection α) i => do
    let a ← c.getAxis i
    d.addAxis a) .empty rel

/-- src/systematic/Convolution.cpp:160-193. -/
def blockedIndex (c sub notSub : AxisCollection α) (rel : List Nat) (bin : Nat) : Res Nat :=
  if rel.length = c.nDims then .ok bin
  else do
    let idxs ← c.unpackIndices bin
    let subIdx ← Res.traverse (at_ idxs) ((List.range c.nDims).filter (fun d => decide (d ∈ rel)))
    let notIdx ← Res.traverse (at_ idxs) ((List.range c.nDims).filter (fun d => decide (d ∉ rel)))
    let i ← sub.flattenIndices subIdx
    let j ← notSub.flattenIndices notIdx
    pure (i + j * sub.nBins)

/-- Loop body of src/systematic/Convolution.cpp:221-225: `fColumnPerms.at(idx_blocked) = i`. -/
def permStep (c sub notSub : AxisCollection α) (rel : List Nat) (p : List Nat) (i : Nat) : Res (List Nat) := do
  let q ← blockedIndex c sub notSub rel i
  if q < p.length then pure (p.set q i) else .throw .outOfRange

/-- src/systematic/Convolution.cpp:195-228 -/
def cacheIndexPermutations (s : Convolution α) : Res (Convolution α) := do
  let rel ← s.base.transObs.getRelativeIndices s.base.distObs
  let sub ← subCollection s.base.axes rel
  let relNot := (List.range s.base.distObs.names.length).filter (fun d => decide (d ∉ rel))
  let notSub ← subCollection s.base.axes relNot
  let p ← Res.forFold (permStep s.base.axes sub notSub rel) (resize s.perms s.base.axes.nBins 0)
    (List.range s.base.axes.nBins)
  pure { s with subAxes := sub, notSubAxes := notSub, perms := p, cached := true }

/-- One element of the sub-matrix: src/systematic/Convolution.cpp:47-54. -/
def subEntry (sub : AxisCollection α) (k : List α → List α → List α → α) (orig dest : Nat) : Res α := do
  let xs ← sub.getBinCentres orig sub.nDims
  let lo ← sub.getBinLowEdges dest sub.nDims
  let hi ← sub.getBinHighEdges dest sub.nDims
  pure (k lo hi xs)

/-- src/systematic/Convolution.cpp:26-64: the three parallel vectors (column, row, value) are one list of triples; only
positive integrals are kept. -/
def submatrix (sub : AxisCollection α) (k : List α → List α → List α → α) : Res (List (Nat × Nat × α)) := do
  let cols ← Res.traverse (fun orig => Res.traverse (fun dest => do
    let v ← subEntry sub k orig dest
    pure (orig, dest, v)) (List.range sub.nBins)) (List.range sub.nBins)
  pure (cols.flatten.filter (fun t => decide (t.2.2 > 0)))

/-- src/systematic/Convolution.cpp:66-101, again with triples (row, column, value). Division by an empty sub-collection is
undefined behaviour. -/
def makeFull (s : Convolution α) (tri : List (Nat × Nat × α)) : Res (Matrix' α) :=
  if s.subAxes.nBins = 0 then .ub
  else do
    let blocks ← Res.traverse (fun blk => Res.traverse (fun (t : Nat × Nat × α) => do
      let col ← at_ s.perms (t.1 + blk * s.subAxes.nBins)
      let row ← at_ s.perms (t.2.1 + blk * s.subAxes.nBins)
      pure (row, col, t.2.2)) tri) (List.range (s.base.axes.nBins / s.subAxes.nBins))
    let es := blocks.flatten
    (Matrix'.mk' s.base.axes.nBins s.base.axes.nBins).setComponents (es.map (·.1)) (es.map (·.2.1)) (es.map (·.2.2))

/-- src/systematic/Convolution.cpp:103-146 -/
def construct (s : Convolution α) : Res (Convolution α) :=
  match s.kernel with
  | none => .throw .logic
  | some k => do
    Res.throwIf (s.base.axes.nBins = 0) .logic
    let s ← (if s.cached then pure s else s.cacheIndexPermutations)
    let tri ← submatrix s.subAxes k
    let m ← s.makeFull tri
    pure { s with base := { s.base with response := m } }

end Convolution
end Oxsx
