import Verif.Model.BinnedNLLH
/-
The systematics of src/systematic as fit components of a likelihood.
-/
namespace Oxsx
variable {α : Type} [Field α] [LinearOrder α]

/-- One of the systematics of src/systematic (`Scale`, `Shift`, `ScaleFunction`, `Shape`, `Renorm`; `Convolution`, whose parameters
are those of the distribution it owns, is not included). -/
inductive AnySys (α : Type) where
  | scale (s : ScaleSys α)
  | shift (s : ShiftSys α)
  | scaleFunction (sys : AxisSys α) (f : Option (ParamDict α → α → α)) (params : OwnParams α)
  | shape (s : Shape α)
  | renorm (r : Renorm α)

namespace AnySys

/-- src/systematic/Systematic.cpp:34-38 -/
def response : AnySys α → Matrix' α
  | scale s => s.sys.base.response
  | shift s => s.sys.base.response
  | scaleFunction s _ _ => s.base.response
  | shape s => s.base.response
  | renorm r => r.base.response

/-- src/systematic/Scale.cpp:7-62, Shift.cpp:7-62, ScaleFunction.cpp:23-78, Shape.cpp:21-63, Renorm.cpp:4-18 -/
def construct : AnySys α → Res (AnySys α)
  | scale s => do
    let y ← s.sys.constructScale s.param.val
    pure (scale { s with sys := y })
  | shift s => do
    let y ← s.sys.constructShift s.param.val
    pure (shift { s with sys := y })
  | scaleFunction s f ps => do
    let y ← s.constructScaleFunction f ps
    pure (scaleFunction y f ps)
  | shape s => do
    let y ← s.construct
    pure (shape y)
  | renorm r => do
    let y ← r.construct
    pure (renorm y)

/-- src/systematic/Scale.cpp:106-112, Shift.cpp:106-112, ScaleFunction.h:34, Shape.h:37, Renorm.h:23. -/
def getParameters : AnySys α → Res (ParamDict α)
  | scale s => .ok s.param.getParameters
  | shift s => .ok s.param.getParameters
  | scaleFunction _ _ ps => .ok ps
  | shape s => .ok s.params
  | renorm r => .ok r.params

/-- src/systematic/Scale.cpp:94-104, Shift.cpp:94-104, ScaleFunction.cpp:99-112, Shape.cpp:84-97, Renorm.cpp:48-61 -/
def setParameters (s : AnySys α) (pd : ParamDict α) : AnySys α × Res Unit :=
  match s with
  | scale s =>
    match s.param.setParameters pd with
    | .ok p => (scale { s with param := p }, .ok ())
    | .throw e => (scale s, .throw e)
    | .ub => (scale s, .ub)
  | shift s =>
    match s.param.setParameters pd with
    | .ok p => (shift { s with param := p }, .ok ())
    | .throw e => (shift s, .throw e)
    | .ub => (shift s, .ub)
  | scaleFunction s f ps => (scaleFunction s f (OwnParams.setParameters ps pd), .ok ())
  | shape s => (shape { s with params := OwnParams.setParameters s.params pd }, .ok ())
  | renorm r => (renorm (r.setParameters pd), .ok ())

/-- The systematics of src/systematic as components. -/
def fit : FitSys (AnySys α) α := ⟨⟨response, construct⟩, getParameters, setParameters⟩

end AnySys
end Oxsx
