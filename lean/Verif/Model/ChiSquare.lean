import Verif.Model.BinnedNLLH
/-
Model of src/teststat/ChiSquare.{h,cpp} together with the part of src/teststat/TestStatistic.{h,cpp} a `ChiSquare` object
inherits. The derived class declares its own data pointer, `fCalculatedDataDist`, systematic manager and component manager,
which hide those of the base class, and its own distribution manager, which nothing but `Evaluate` and
`RegisterFitComponents` uses. Debug mode, cut efficiencies and cut logs are not modelled; copies of the object are not modelled.
-/
namespace Oxsx

/-- The inherited members: src/teststat/TestStatistic.h:80-92. -/
structure BaseStat (α : Type) where
  sys : SysManager α
  constraints : ConstraintManager α
  components : ComponentManager
  data : Option (DataSet α)
  calculated : Bool
  cuts : CutCollection α

/-- src/teststat/ChiSquare.h:30-38. `data = none` stands for the null pointer and for the pointer the constructor does not
initialise. `objs` holds the systematics, which are owned by the user. -/
structure ChiSquare (σ α : Type) where
  base : BaseStat α
  calculated : Bool
  dataDist : BinnedED α
  data : Option (DataSet α)
  pdfs : PdfManager α
  sys : SysManager α
  components : List NllhComponent
  objs : Nat → σ

namespace ChiSquare
variable {σ α : Type} [Field α] [LinearOrder α]

/-- src/teststat/ChiSquare.h:17, src/teststat/TestStatistic.h:24 -/
def new (objs : Nat → σ) : ChiSquare σ α :=
  { base := { sys := .new, constraints := .empty, components := [], data := none, calculated := false, cuts := [] },
    calculated := false, dataDist := ⟨"", .empty, ⟨[], []⟩⟩, data := none, pdfs := .new, sys := .new, components := [],
    objs := objs }

/-- src/teststat/ChiSquare.cpp:97-100 -/
def setDataSet (X : ChiSquare σ α) (d : Option (DataSet α)) : ChiSquare σ α := { X with data := d }

/-- src/teststat/TestStatistic.cpp:108-112, called through a `TestStatistic &`: the function is not virtual. -/
def baseSetDataSet (X : ChiSquare σ α) (d : Option (DataSet α)) : ChiSquare σ α :=
  { X with base := { X.base with data := d, calculated := false } }

/-- src/teststat/TestStatistic.cpp:120-123 -/
def setCalculatedDataDist (X : ChiSquare σ α) (b : Bool) : ChiSquare σ α := { X with base := { X.base with calculated := b } }

/-- src/teststat/TestStatistic.cpp:50-58 -/
def addSystematic (name : Nat → String) (X : ChiSquare σ α) (p : Nat) (g : Option String) : Res (ChiSquare σ α) := do
  let s ← (match g with
    | none => X.base.sys.add name p
    | some g => X.base.sys.addTo name p g)
  pure { X with base := { X.base with sys := s } }

/-- src/teststat/ChiSquare.cpp:49-67: the components are appended at every call. -/
def registerFitComponents (name : Nat → String) (X : ChiSquare σ α) : ChiSquare σ α :=
  { X with components := X.components ++ .pdfs :: ((X.sys.groups.flatMap (·.2)).foldl (fun (acc : List Nat) p =>
      if name p ∈ acc.map name then acc else acc ++ [p]) []).map .sys }

/-- One component of src/core/ComponentManager.cpp:22-23. -/
def setComponent (C : FitSys σ α) (d : ParamDict α) (X : ChiSquare σ α) : NllhComponent → ChiSquare σ α × Res Unit
  | .pdfs => let r := X.pdfs.setParameters d
    ({ X with pdfs := r.1 }, r.2)
  | .sys p => let r := C.setParameters (X.objs p) d
    ({ X with objs := Function.update X.objs p r.1 }, r.2)

/-- The loop of src/core/ComponentManager.cpp:22-23. -/
def setLoop (C : FitSys σ α) (d : ParamDict α) : ChiSquare σ α → List NllhComponent → ChiSquare σ α × Res Unit
  | X, [] => (X, .ok ())
  | X, c :: cs =>
    match setComponent C d X c with
    | (X', .ok ()) => setLoop C d X' cs
    | (X', .throw e) => (X', .throw e)
    | (X', .ub) => (X', .ub)

/-- src/teststat/ChiSquare.cpp:69-79, src/core/ComponentManager.cpp:16-24 -/
def setParameters (C : FitSys σ α) (X : ChiSquare σ α) (d : ParamDict α) : ChiSquare σ α × Res Unit :=
  if d.length = 0 then (X, .ok ()) else setLoop C d X X.components

/-- One component of src/core/ComponentManager.cpp:30-34. -/
def componentParameters (C : FitSys σ α) (X : ChiSquare σ α) : NllhComponent → Res (ParamDict α)
  | .pdfs => X.pdfs.getParameters
  | .sys p => C.getParameters (X.objs p)

/-- src/teststat/ChiSquare.cpp:81-85, src/core/ComponentManager.cpp:26-36 -/
def getParameters (C : FitSys σ α) (X : ChiSquare σ α) : Res (ParamDict α) :=
  Res.forFold (fun (pd : ParamDict α) c => do
    let d ← X.componentParameters C c
    pure (pd.insertAll d)) [] X.components

/-- src/teststat/ChiSquare.cpp:36-47 -/
def binData (X : ChiSquare σ α) : Res (ChiSquare σ α) := do
  let o ← at_ X.pdfs.orig 0
  match X.data with
  | none => .ub
  | some d => do
    let dist ← Res.forFold (fun (w : BinnedED α) (i : Nat) => do
      let e ← d.getEntry i
      w.fillEvent e 1) { o with hist := o.hist.emptyContents } (List.range d.data.length)
    pure { X with dataDist := dist }

/-- One iteration of src/teststat/ChiSquare.cpp:25-31; the state is the sum and the manager (`Probability` changes it). The bin
centre is converted to an event whose names pointer is null. -/
def binStep (X : ChiSquare σ α) (s : Fl α × PdfManager α) (i : Nat) : Res (Fl α × PdfManager α) := do
  let centre ← X.dataDist.hist.axes.getBinCentres i X.dataDist.hist.axes.nDims
  let (expected, m) ← s.2.probability (Event.ofData centre)
  let n ← X.dataDist.hist.getBinContent i
  pure (Fl.add s.1 (Fl.div ((n - expected) * (n - expected)) expected), m)

/-- src/teststat/ChiSquare.cpp:6-34: the value and the object left behind. -/
def evaluate (C : FitSys σ α) (X : ChiSquare σ α) : Res (Fl α × ChiSquare σ α) := do
  let X ← (if X.calculated then pure X else do
    let Y ← X.binData
    pure { Y with calculated := true })
  let (sm, objs) ← X.sys.construct C.toSysClass X.objs
  let m ← X.pdfs.applySystematics sm
  let (v, m) ← Res.forFold (binStep X) (some 0, m) (List.range X.dataDist.hist.nBins)
  pure (v, { X with pdfs := m, sys := sm, objs := objs })

/-- The calls a program can make on a `ChiSquare` object: its own and the inherited public members. The functions returning a
reference to an inherited manager, and those replacing it, let the program put any value there. -/
inductive Call (σ α : Type) where
  | setDataSet (d : Option (DataSet α))
  | baseSetDataSet (d : Option (DataSet α))
  | setCalculatedDataDist (b : Bool)
  | addSystematic (p : Nat) (g : Option String)
  | editSystematics (s : SysManager α)
  | editConstraints (c : ConstraintManager α)
  | editComponents (c : ComponentManager)
  | editCuts (c : CutCollection α)
  | editObject (p : Nat) (s : σ)
  | registerFitComponents
  | setParameters (d : ParamDict α)
  | evaluate

/-- The object after one call, which may have thrown. src/teststat/ChiSquare.h:19-28, src/teststat/TestStatistic.h:28-70 -/
def step (C : FitSys σ α) (name : Nat → String) (X : ChiSquare σ α) : Call σ α → ChiSquare σ α
  | .setDataSet d => X.setDataSet d
  | .baseSetDataSet d => X.baseSetDataSet d
  | .setCalculatedDataDist b => X.setCalculatedDataDist b
  | .addSystematic p g => (match X.addSystematic name p g with
    | .ok Y => Y
    | _ => X)
  | .editSystematics s => { X with base := { X.base with sys := s } }
  | .editConstraints c => { X with base := { X.base with constraints := c } }
  | .editComponents c => { X with base := { X.base with components := c } }
  | .editCuts c => { X with base := { X.base with cuts := c } }
  | .editObject p s => { X with objs := Function.update X.objs p s }
  | .registerFitComponents => X.registerFitComponents name
  | .setParameters d => (X.setParameters C d).1
  | .evaluate => (match X.evaluate C with
    | .ok (_, Y) => Y
    | _ => X)

end ChiSquare
end Oxsx
