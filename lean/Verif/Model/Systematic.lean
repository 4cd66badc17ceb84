import Verif.Model.Event
import Verif.Model.Matrix
import Verif.Model.Parameters
/-
Model of src/systematic/Systematic.{h,cpp}, Scale.{h,cpp}, Shift.{h,cpp}, ScaleFunction.{h,cpp}, Shape.{h,cpp},
Renorm.{h,cpp}. A systematic that throws in the middle of `Construct` may be left with a partly written response; the
model returns the exception only.
-/
namespace Oxsx
variable {α : Type} [Field α] [LinearOrder α]

/-- src/systematic/Systematic.h:42-45 (protected members). -/
structure SysBase (α : Type) where
  response : Matrix' α
  axes : AxisCollection α
  transObs : ObsSet
  distObs : ObsSet

namespace SysBase

/-- A default-constructed systematic. -/
def new : SysBase α := ⟨.mk' 0 0, .empty, ⟨[], []⟩, ⟨[], []⟩⟩

/-- src/systematic/Systematic.cpp:94-98 -/
def setAxes (s : SysBase α) (c : AxisCollection α) : SysBase α :=
  { s with axes := c, response := .mk' c.nBins c.nBins }

/-- src/systematic/Systematic.cpp:40-43 -/
def setTransformationObs (s : SysBase α) (o : ObsSet) : SysBase α := { s with transObs := o }

/-- src/systematic/Systematic.cpp:51-54 -/
def setDistributionObs (s : SysBase α) (o : ObsSet) : SysBase α := { s with distObs := o }

/-- src/systematic/Systematic.cpp:6-27. `wantNorm` says whether a norm pointer is passed; the second component is
what is written through it. -/
def apply (s : SysBase α) (pdf : BinnedED α) (wantNorm : Bool) : Res (BinnedED α × Option α) := do
  let v ← s.response.apply pdf.hist.contents
  let h ← pdf.hist.setBinContents v
  if wantNorm then pure ({ pdf with hist := h }, some h.integral)
  else pure ({ pdf with hist := h.normalise }, none)

end SysBase

/-- Members of the systematics which transform one observable: src/systematic/Scale.h:34-40, Shift.h, ScaleFunction.h.
The scale factor, shift or function is passed to `construct`. -/
structure AxisSys (α : Type) where
  base : SysBase α
  distTrans : List Nat
  mapping : Matrix' Nat
  cached : Bool

namespace AxisSys

/-- src/systematic/Scale.h:13 and the same constructors of Shift.h, ScaleFunction.h. -/
def new : AxisSys α := ⟨.new, [], .mk' 0 0, false⟩

/-- src/systematic/Systematic.cpp:94-98: inherited, does not touch the cache. -/
def setAxes (s : AxisSys α) (c : AxisCollection α) : AxisSys α := { s with base := s.base.setAxes c }

/-- src/systematic/Systematic.cpp:40-54, inherited. -/
def setObs (s : AxisSys α) (trans dist : ObsSet) : AxisSys α :=
  { s with base := (s.base.setTransformationObs trans).setDistributionObs dist }

/-- The axis transformed: src/systematic/Scale.cpp:27-28, 170-171 and the same lines of Shift.cpp, ScaleFunction.cpp. -/
def transIndex (b : SysBase α) : Res Nat := do
  let n ← at_ b.transObs.names 0
  b.distObs.getIndex n

/-- Loop body of src/systematic/Scale.cpp:181-184 (same in Shift.cpp, ScaleFunction.cpp). The bin number is stored in
a matrix of doubles (exact below 2^53); the model stores the number. -/
def mapStep (b : SysBase α) (ti bin : Nat) (unflat : List Nat) (m : Matrix' Nat) (j : Nat) : Res (Matrix' Nat) := do
  let u ← setIdx unflat ti j
  let i ← b.axes.flattenIndices u
  m.setComponent bin j i

/-- src/systematic/Scale.cpp:148-189, Shift.cpp:148-189, ScaleFunction.cpp:135-176 -/
def cacheBinMapping (s : AxisSys α) : Res (AxisSys α) := do
  let rel ← s.base.transObs.getRelativeIndices s.base.distObs
  let r ← at_ rel 0
  let distTrans ← Res.traverse (fun i => s.base.axes.unflattenIndex i r) (List.range s.base.axes.nBins)
  let ti ← transIndex s.base
  let ax ← s.base.axes.getAxis ti
  let mapping ← Res.forFold (fun (m : Matrix' Nat) bin => do
    let unflat ← s.base.axes.unpackIndices bin
    Res.forFold (mapStep s.base ti bin unflat) m (List.range ax.nBins))
    (Matrix'.mk' s.base.axes.nBins ax.nBins) (List.range s.base.axes.nBins)
  pure { s with distTrans := distTrans, mapping := mapping, cached := true }

/-- src/systematic/Scale.cpp:191-241, Shift.cpp:191-241, ScaleFunction.cpp:178-228 -/
def getBinContribution (ax : BinAxis α) (low high : α) (binTest : Nat) : Res α := do
  let testLow ← ax.getBinLowEdge binTest
  let testHigh ← ax.getBinHighEdge binTest
  pure
    (if testLow > high ∨ testHigh < low then 0
     else if testLow > low then
       if testHigh < high then (testHigh - testLow) / (high - low)
       else (high - testLow) / (high - low)
     else
       if testHigh < high then (testHigh - low) / (high - low)
       else 1)

/-- src/systematic/Scale.cpp:31-48 (Shift.cpp:31-48, ScaleFunction.cpp:47-64): the `std::map` of one pre-transformation
bin, as its entries in increasing key order. -/
def valsOfBin (ax : BinAxis α) (t : α → α) (bin : Nat) : Res (List (Nat × α)) := do
  let lo ← ax.getBinLowEdge bin
  let hi ← ax.getBinHighEdge bin
  let low := t lo
  let high := t hi
  let lowIndex := ax.findBin low
  let highIndex := ax.findBin high
  let cs ← Res.traverse (fun b => do
    let c ← getBinContribution ax low high b
    pure (b, c)) (List.range' lowIndex (highIndex + 1 - lowIndex))
  pure (cs.filter (fun p => decide (p.2 > 0)))

/-- Loop body of src/systematic/Scale.cpp:56-60. -/
def fillStep (s : AxisSys α) (obsBin : Nat) (m : Matrix' α) (p : Nat × α) : Res (Matrix' α) := do
  let scaled ← s.mapping.getComponent obsBin p.1
  m.setComponent scaled obsBin p.2

/-- src/systematic/Scale.cpp:50-61: filling the response matrix. -/
def fillResponse (s : AxisSys α) (vals : List (List (Nat × α))) : Res (AxisSys α) := do
  let m0 ← s.base.response.setZeros
  let m ← Res.forFold (fun (m : Matrix' α) obsBin => do
    let k ← at_ s.distTrans obsBin
    let ps ← at_ vals k
    Res.forFold (s.fillStep obsBin) m ps) m0 (List.range s.base.axes.nBins)
  pure { s with base := { s.base with response := m } }

/-- Common body of `Construct`: src/systematic/Scale.cpp:11-61, Shift.cpp:10-61, ScaleFunction.cpp:27-77, with `t` the map
applied to the bin edges. -/
def constructWith (s : AxisSys α) (t : α → α) : Res (AxisSys α) := do
  Res.throwIf (s.base.transObs.names.length ≠ 1) .representation
  Res.throwIf (s.base.axes.nBins = 0) .logic
  let s ← (if s.cached then pure s else s.cacheBinMapping)
  let ti ← transIndex s.base
  let ax ← s.base.axes.getAxis ti
  let vals ← Res.traverse (valsOfBin ax t) (List.range ax.nBins)
  s.fillResponse vals

/-- src/systematic/Scale.cpp:7-62 -/
def constructScale (s : AxisSys α) (factor : α) : Res (AxisSys α) := do
  Res.throwIf (factor ≤ 0) .value
  s.constructWith (fun x => x * factor)

/-- src/systematic/Shift.cpp:7-62 -/
def constructShift (s : AxisSys α) (shift : α) : Res (AxisSys α) := s.constructWith (fun x => x + shift)

/-- src/systematic/ScaleFunction.cpp:23-78. `none` is an empty `std::function`; the order of the two checks is as in
the code. -/
def constructScaleFunction (s : AxisSys α) (f : Option (ParamDict α → α → α)) (pd : ParamDict α) : Res (AxisSys α) := do
  Res.throwIf (s.base.transObs.names.length ≠ 1) .representation
  match f with
  | none => .throw .logic
  | some g => s.constructWith (g pd)

end AxisSys

/-- src/systematic/Shape.h:46-52 -/
structure Shape (α : Type) where
  base : SysBase α
  func : Option (ParamDict α → List α → α)
  params : ParamDict α
  transAxes : AxisCollection α
  distTrans : List Nat
  cached : Bool

namespace Shape

/-- src/systematic/Shape.h:23-24 -/
def new : Shape α := ⟨.new, none, [], .empty, [], false⟩

/-- src/systematic/Shape.cpp:4-19 -/
def setShapeFunction (s : Shape α) (f : ParamDict α → List α → α) (names : List String) : Shape α :=
  { s with func := some f, params := names.foldl (fun (d : ParamDict α) n => d.insert n 0) [] }

/-- src/systematic/Systematic.cpp:94-98, inherited. -/
def setAxes (s : Shape α) (c : AxisCollection α) : Shape α := { s with base := s.base.setAxes c }

/-- src/systematic/Systematic.cpp:40-54, inherited. -/
def setObs (s : Shape α) (trans dist : ObsSet) : Shape α :=
  { s with base := (s.base.setTransformationObs trans).setDistributionObs dist }

/-- src/systematic/Shape.cpp:119-148 -/
def cacheBinMapping (s : Shape α) : Res (Shape α) := do
  let rel ← s.base.transObs.getRelativeIndices s.base.distObs
  let transAxes ← Res.forFold (fun (c : AxisCollection α) i => do
    let a ← s.base.axes.getAxis i
    c.addAxis a) .empty rel
  let distTrans ← Res.traverse (fun i => do
    let ks ← Res.traverse (fun r => s.base.axes.unflattenIndex i r) rel
    transAxes.flattenIndices ks) (List.range s.base.axes.nBins)
  pure { s with transAxes := transAxes, distTrans := distTrans, cached := true }

/-- src/systematic/Shape.cpp:45-54: the factor of one bin of the subspace. -/
def shapeVal (s : Shape α) (f : ParamDict α → List α → α) (bin : Nat) : Res α := do
  let centres ← s.transAxes.getBinCentres bin s.transAxes.nDims
  let v := f s.params centres
  if v < 0 then .throw .value else pure v

/-- src/systematic/Shape.cpp:21-63. The response is not zeroed first; only its diagonal is ever written. -/
def construct (s : Shape α) : Res (Shape α) :=
  match s.func with
  | none => .throw .logic
  | some f => do
    Res.throwIf (s.base.axes.nBins = 0) .logic
    let s ← (if s.cached then pure s else s.cacheBinMapping)
    let vals ← Res.traverse (s.shapeVal f) (List.range s.transAxes.nBins)
    let m ← Res.forFold (fun (m : Matrix' α) b => do
      let k ← at_ s.distTrans b
      let v ← at_ vals k
      m.setComponent b b v) s.base.response (List.range s.base.axes.nBins)
    pure { s with base := { s.base with response := m } }

end Shape

/-- The parameter dictionary of the systematics that manage their own: src/systematic/Shape.cpp:70-115, Renorm.cpp:34-79,
ScaleFunction.cpp:84-130 (identical code). -/
abbrev OwnParams (α : Type) := ParamDict α

namespace OwnParams
variable {α : Type}

/-- src/systematic/Shape.cpp:70-75, Renorm.cpp:34-39, ScaleFunction.cpp:84-89 -/
def setParameter (d : OwnParams α) (n : String) (v : α) : Res (OwnParams α) :=
  match SMap.find d n with
  | none => .throw .parameter
  | some _ => .ok (SMap.insert n v d)

/-- src/systematic/Shape.cpp:77-82, Renorm.cpp:41-46, ScaleFunction.cpp:91-97 -/
def getParameter (d : OwnParams α) (n : String) : Res α :=
  match SMap.find d n with
  | none => .throw .parameter
  | some v => .ok v

/-- src/systematic/Shape.cpp:84-97, Renorm.cpp:48-61, ScaleFunction.cpp:99-112: inserts every entry of the given
dictionary (`operator[]` never throws `std::out_of_range`). -/
def setParameters (d : OwnParams α) (pd : ParamDict α) : OwnParams α :=
  pd.foldl (fun (m : ParamDict α) p => SMap.insert p.1 p.2 m) d

/-- src/systematic/Shape.cpp:99-107, Renorm.cpp:63-71, ScaleFunction.cpp:114-123 -/
def getParameterNames (d : OwnParams α) : List String := SMap.keys d

/-- src/systematic/Shape.cpp:109-115, Renorm.cpp:73-79, ScaleFunction.cpp:125-131. -/
def renameParameter (d : OwnParams α) (old new : String) : Res (OwnParams α) :=
  match SMap.find d old with
  | none => .throw .parameter
  | some v => .ok (SMap.erase (SMap.insert new v d) old)

end OwnParams

/-- src/systematic/Renorm.h: `fScaleFactor` is not initialised by the constructor (`none`). -/
structure Renorm (α : Type) where
  base : SysBase α
  scaleFactor : Option α
  params : OwnParams α

namespace Renorm

/-- src/systematic/Renorm.cpp:4-18: reading an uninitialised factor is undefined behaviour. -/
def construct (r : Renorm α) : Res (Renorm α) := do
  Res.throwIf (r.base.axes.nBins = 0) .logic
  let m ← r.base.response.setToIdentity
  match r.scaleFactor with
  | none => .ub
  | some s => pure { r with base := { r.base with response := m.scale s } }

/-- src/systematic/Renorm.cpp:20-23 -/
def setScaleFactor (r : Renorm α) (s : α) : Renorm α := { r with scaleFactor := some s }

/-- src/systematic/Renorm.cpp:48-61 -/
def setParameters (r : Renorm α) (pd : ParamDict α) : Renorm α := { r with params := r.params.setParameters pd }

end Renorm

/-- The one parameter of `Scale` and `Shift`: src/systematic/Scale.h:34-37 (`fScaleFactor`, `fParamName`), Shift.h. -/
structure OneParam (α : Type) where
  name : String
  val : α
  deriving DecidableEq, Repr

namespace OneParam
variable {α : Type}

/-- src/systematic/Scale.cpp:79-84, Shift.cpp:79-84 -/
def setParameter (p : OneParam α) (n : String) (v : α) : Res (OneParam α) :=
  if n ≠ p.name then .throw .parameter else .ok { p with val := v }

/-- src/systematic/Scale.cpp:86-92, Shift.cpp:86-92 -/
def getParameter (p : OneParam α) (n : String) : Res α :=
  if n ≠ p.name then .throw .parameter else .ok p.val

/-- src/systematic/Scale.cpp:94-104, Shift.cpp:94-104 -/
def setParameters (p : OneParam α) (pd : ParamDict α) : Res (OneParam α) :=
  match SMap.find pd p.name with
  | none => .throw .parameter
  | some v => .ok { p with val := v }

/-- src/systematic/Scale.cpp:106-112, Shift.cpp:106-112 -/
def getParameters (p : OneParam α) : ParamDict α := SMap.insert p.name p.val []

/-- src/systematic/Scale.cpp:128-133, Shift.cpp:128-133 -/
def renameParameter (p : OneParam α) (old new : String) : Res (OneParam α) :=
  if old ≠ p.name then .throw .parameter else .ok { p with name := new }

end OneParam

/-- src/systematic/Scale.h: a scale systematic with its parameter. -/
structure ScaleSys (α : Type) where
  sys : AxisSys α
  param : OneParam α

/-- src/systematic/Scale.cpp:94-104 then 7-62: set the parameters, then construct, as
src/fitutil/SystematicManager.cpp does at each fit point. -/
def ScaleSys.setAndConstruct (s : ScaleSys α) (pd : ParamDict α) : Res (ScaleSys α) := do
  let p ← s.param.setParameters pd
  let y ← s.sys.constructScale p.val
  pure ⟨y, p⟩

/-- src/systematic/Shift.h: a shift systematic with its parameter. -/
structure ShiftSys (α : Type) where
  sys : AxisSys α
  param : OneParam α

/-- src/systematic/Shift.cpp:94-104 then 7-62. -/
def ShiftSys.setAndConstruct (s : ShiftSys α) (pd : ParamDict α) : Res (ShiftSys α) := do
  let p ← s.param.setParameters pd
  let y ← s.sys.constructShift p.val
  pure ⟨y, p⟩

/-- src/systematic/Renorm.cpp:48-61 then 4-18. -/
def Renorm.setAndConstruct (r : Renorm α) (pd : ParamDict α) : Res (Renorm α) := (r.setParameters pd).construct

/-- src/systematic/Shape.cpp:84-97 then 21-63. -/
def Shape.setAndConstruct (s : Shape α) (pd : ParamDict α) : Res (Shape α) :=
  ({ s with params := OwnParams.setParameters s.params pd } : Shape α).construct

end Oxsx
