import Verif.Model.DataSet
/-
Model of src/eventSystematic/{EventSystematic,EventScale,EventShift,EventReconvolution}.cpp,
src/fitutil/EventSystematicManager.cpp, src/dist/DistFiller.cpp and src/count/*.cpp.
Not modelled: EventConvolution (random sampling), the printing functions of CountingResult (Model/Reports.lean). The manager holds pointers: the list
stands for the pointed-to objects at the time of the call.
-/
namespace Oxsx

/-- The deterministic law of each event systematic. -/
inductive EventLaw where
  | scale | shift | reconvolution
  deriving DecidableEq, Repr

/-- Members of src/eventSystematic/EventScale.h:30-33, src/eventSystematic/EventShift.h:30-33, src/eventSystematic/EventReconvolution.h:29-32 and of their
base EventSystematic.h (`fInObservables`, `fOutObservables`); `value` is `fScale`, `fShift` or `fCorrection`. -/
structure EventSys (α : Type) where
  law : EventLaw
  value : α
  paramName : String
  inObs : List String
  outObs : List String
  deriving DecidableEq, Repr

namespace EventSys
variable {α : Type} [Field α]

/-- The constructors: src/eventSystematic/EventScale.h:10, src/eventSystematic/EventShift.h:10, src/eventSystematic/EventReconvolution.h:10. -/
def new : EventLaw → EventSys α
  | .scale => ⟨.scale, 1, "scale", [], []⟩
  | .shift => ⟨.shift, 0, "shift", [], []⟩
  | .reconvolution => ⟨.reconvolution, 1, "correction", [], []⟩

/-- `operator()`: src/eventSystematic/EventScale.cpp:11-20, src/eventSystematic/EventShift.cpp:9-18, src/eventSystematic/EventReconvolution.cpp:11-24. -/
def apply (s : EventSys α) (e : Event α) : Res (Event α) :=
  match s.law with
  | .scale => do
    let o ← at_ s.outObs 0
    let v ← e.getDatumByName o
    e.setDatumByName o (v * s.value)
  | .shift => do
    let o ← at_ s.outObs 0
    let v ← e.getDatumByName o
    e.setDatumByName o (v + s.value)
  | .reconvolution => do
    let t ← at_ s.inObs 0
    let o ← at_ s.outObs 0
    let tv ← e.getDatumByName t
    let sv ← e.getDatumByName o
    e.setDatumByName o (tv + s.value * (sv - tv))

/-- `SetScale` (src/eventSystematic/EventScale.cpp:22-27), `SetShift` (src/eventSystematic/EventShift.cpp:20-23),
`SetCorrection` (src/eventSystematic/EventReconvolution.cpp:26-31). -/
def setValue [LinearOrder α] (s : EventSys α) (x : α) : Res (EventSys α) :=
  match s.law with
  | .scale => if x ≤ 0 then .throw .value else .ok { s with value := x }
  | .shift => .ok { s with value := x }
  | .reconvolution => if x < 0 then .throw .value else .ok { s with value := x }

/-- `SetParameter`: src/eventSystematic/EventScale.cpp:36-41, src/eventSystematic/EventShift.cpp:32-37, src/eventSystematic/EventReconvolution.cpp:35-40. -/
def setParameter (s : EventSys α) (n : String) (x : α) : Res (EventSys α) :=
  if n ≠ s.paramName then .throw .parameter else .ok { s with value := x }

/-- `GetParameter`: src/eventSystematic/EventScale.cpp:43-49, src/eventSystematic/EventShift.cpp:39-45, src/eventSystematic/EventReconvolution.cpp:42-48. -/
def getParameter (s : EventSys α) (n : String) : Res α :=
  if n ≠ s.paramName then .throw .parameter else .ok s.value

/-- `SetParameters`: src/eventSystematic/EventScale.cpp:51-61, src/eventSystematic/EventShift.cpp:47-57, src/eventSystematic/EventReconvolution.cpp:50-60. -/
def setParameters (s : EventSys α) (d : SMap α) : Res (EventSys α) :=
  match d.find s.paramName with
  | some x => .ok { s with value := x }
  | none => .throw .parameter

/-- `GetParameters`: src/eventSystematic/EventScale.cpp:63-69, src/eventSystematic/EventShift.cpp:59-65, src/eventSystematic/EventReconvolution.cpp:62-68. -/
def getParameters (s : EventSys α) : SMap α := SMap.insert s.paramName s.value []

/-- `RenameParameter`: src/eventSystematic/EventScale.cpp:85-90, src/eventSystematic/EventShift.cpp:81-86, src/eventSystematic/EventReconvolution.cpp:84-89. -/
def renameParameter (s : EventSys α) (old new : String) : Res (EventSys α) :=
  if old ≠ s.paramName then .throw .parameter else .ok { s with paramName := new }

/-- src/fitutil/EventSystematicManager.cpp:27-36 -/
def applyAll (ss : List (EventSys α)) (e : Event α) : Res (Event α) :=
  if ss.length = 0 then .ok e
  else Res.forFold (fun e s => EventSys.apply s e) e ss

end EventSys

namespace DistFiller
variable {α : Type} [Field α] [LinearOrder α]

/-- `int nEv_`, negative meaning all the events: src/dist/DistFiller.cpp:14-15, 32-33 (`unsigned` to `int`). -/
def nEvents (d : DataSet α) (nEv : Int) : Int :=
  if nEv < 0 then toInt32 d.getNEntries else nEv

/-- src/dist/DistFiller.cpp:9-24 -/
def fillDist (pdf : BinnedED α) (d : DataSet α) (cuts : CutCollection α) (ss : List (EventSys α)) (nEv : Int) :
    Res (BinnedED α) :=
  Res.forFold (fun (p : BinnedED α) i => do
    let e ← d.getEntry i
    let ev ← EventSys.applyAll ss e
    let b ← cuts.passesCuts ev
    if b then p.fillEvent ev 1 else pure p) pdf (List.range (nEvents d nEv).toNat)

/-- src/dist/DistFiller.cpp:26-42, the overload with a cut log. -/
def fillDistLog (pdf : BinnedED α) (d : DataSet α) (cuts : CutCollection α) (log : CutLog) (ss : List (EventSys α))
    (nEv : Int) : Res (BinnedED α × CutLog) :=
  Res.forFold (fun (p : BinnedED α × CutLog) i => do
    let e ← d.getEntry i
    let ev ← EventSys.applyAll ss e
    let r ← cuts.passesCutsLog ev p.2
    if r.1 then do
      let q ← p.1.fillEvent ev 1
      pure (q, r.2)
    else pure (p.1, r.2)) (pdf, log) (List.range (nEvents d nEv).toNat)

end DistFiller

/-- src/count/CountingResult.h:30-38 -/
structure CountingResult (α : Type) where
  observed : Int := -1
  sigEff : α
  bgLogs : List CutLog := []
  rates : List α := []
  rateErrors : List α := []
  bgNames : List String := []
  sigName : String := ""
  dataLog : CutLog := ⟨[], [], 0⟩
  sigLog : CutLog := ⟨[], [], 0⟩
  deriving Repr

namespace CountingResult
variable {α : Type} [Field α]

/-- src/count/CountingResult.h:10 -/
def new : CountingResult α := { sigEff := -1 }

/-- src/count/CountingResult.cpp:14-21 -/
def addBackground (r : CountingResult α) (rate : α) (name : String) (error : α) (log : CutLog) : CountingResult α :=
  { r with rates := r.rates ++ [rate], rateErrors := r.rateErrors ++ [error], bgNames := r.bgNames ++ [name],
           bgLogs := r.bgLogs ++ [log] }

/-- src/count/CountingResult.cpp:33-38 -/
def expectedCounts (r : CountingResult α) : α := r.rates.foldl (· + ·) 0

/-- src/count/CountingResult.cpp:40-47; `sqrt` is the C library function. -/
def expectedCountError (sqrt : α → α) (r : CountingResult α) : α :=
  sqrt (r.rateErrors.foldl (fun s x => s + x * x) 0)

end CountingResult

/-- src/count/CountingExperiment.h:24-34; one record per background, `signal = none` for the uninitialised pointer. -/
structure CountingExperiment (α : Type) where
  cuts : CutCollection α
  systs : List (EventSys α)
  backgrounds : List (DataSet α × α × String)
  signal : Option (DataSet α × String)
  result : CountingResult α

namespace CountingExperiment
variable {α : Type} [Field α] [LinearOrder α]

/-- The default constructor. -/
def new : CountingExperiment α := ⟨[], [], [], none, .new⟩

/-- src/count/CountingExperiment.cpp:59-62 -/
def addCut (x : CountingExperiment α) (c : Cut α) : CountingExperiment α := { x with cuts := x.cuts.addCut c }

/-- src/count/CountingExperiment.cpp:64-68 -/
def addSystematic (x : CountingExperiment α) (s : EventSys α) : CountingExperiment α := { x with systs := x.systs ++ [s] }

/-- src/count/CountingExperiment.cpp:70-75 -/
def addBackground (x : CountingExperiment α) (d : DataSet α) (rate : α) (name : String) : CountingExperiment α :=
  { x with backgrounds := x.backgrounds ++ [(d, rate, name)] }

/-- src/count/CountingExperiment.cpp:83-87 -/
def setSignal (x : CountingExperiment α) (d : DataSet α) (name : String) : CountingExperiment α :=
  { x with signal := some (d, name) }

/-- The counting loop repeated in src/count/CountingExperiment.cpp:10-17, 29-38, 48-55: (number passed, cut log). -/
def countPassed (x : CountingExperiment α) (d : DataSet α) : Res (Nat × CutLog) :=
  Res.forFold (fun (s : Nat × CutLog) i => do
    let e ← d.getEntry i
    let ev ← EventSys.applyAll x.systs e
    let r ← x.cuts.passesCutsLog ev s.2
    pure (if r.1 then s.1 + 1 else s.1, r.2)) (0, CutLog.ofNames x.cuts.getCutNames) (List.range d.getNEntries)

/-- src/count/CountingExperiment.cpp:8-20 -/
def countData (x : CountingExperiment α) (d : DataSet α) : Res (CountingExperiment α) := do
  let r ← x.countPassed d
  pure { x with result := { x.result with observed := r.1, dataLog := r.2 } }

/-- src/count/CountingExperiment.cpp:22-44. For an empty data set the C++ division gives NaN (here `0`). -/
def countBackgrounds (sqrt : α → α) (x : CountingExperiment α) : Res (CountingExperiment α) :=
  Res.forFold (fun (y : CountingExperiment α) b => do
    let r ← y.countPassed b.1
    let counts := (r.1 : α) * b.2.1 / (b.1.getNEntries : α)
    let error := sqrt (r.1 : α) * b.2.1 / (b.1.getNEntries : α)
    pure { y with result := y.result.addBackground counts b.2.2 error r.2 }) x x.backgrounds

/-- src/count/CountingExperiment.cpp:46-57 -/
def countSignal (x : CountingExperiment α) : Res (CountingExperiment α) :=
  match x.signal with
  | none => .ub
  | some (d, name) => do
    let r ← x.countPassed d
    pure { x with result := { x.result with sigEff := 1 * (r.1 : α) / (d.getNEntries : α), sigName := name, sigLog := r.2 } }

end CountingExperiment
end Oxsx
