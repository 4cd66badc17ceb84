import Verif.Model.FailedCalls
import Verif.Model.FitSystematics
/-
What a call of `Construct` leaves of a systematic, also when it throws (src/systematic/Scale.cpp, Shift.cpp, ScaleFunction.cpp,
Shape.cpp, Renorm.cpp). Simplified: a bin mapping that could not be cached is left as it was; in the code part of it may have been
written, but the flag is still unset and the next call starts it afresh.
-/
namespace Oxsx
variable {α : Type} [Field α] [LinearOrder α]

namespace AxisSys

/-- src/systematic/Scale.cpp:46-61, Shift.cpp:46-61, ScaleFunction.cpp:62-77: the matrix is zeroed, then written entry by entry. -/
def fillResponseLeft (s : AxisSys α) (vals : List (List (Nat × α))) : AxisSys α × Res Unit :=
  match s.base.response.setZeros with
  | .throw e => (s, .throw e)
  | .ub => (s, .ub)
  | .ok m0 =>
    let r := Res.forLeft (fun (m : Matrix' α) obsBin =>
      match (do
        let k ← at_ s.distTrans obsBin
        at_ vals k : Res (List (Nat × α))) with
      | .throw e => (m, .throw e)
      | .ub => (m, .ub)
      | .ok ps => Res.forLeft (fun m p => Res.keep m (s.fillStep obsBin m p)) m ps) m0 (List.range s.base.axes.nBins)
    ({ s with base := { s.base with response := r.1 } }, r.2)

/-- Common body of `Construct`: src/systematic/Scale.cpp:11-61, Shift.cpp:10-61, ScaleFunction.cpp:27-77. -/
def constructWithLeft (s : AxisSys α) (t : α → α) : AxisSys α × Res Unit :=
  if s.base.transObs.names.length ≠ 1 then (s, .throw .representation)
  else if s.base.axes.nBins = 0 then (s, .throw .logic)
  else
    Res.andThen (if s.cached then (s, .ok ()) else Res.keep s s.cacheBinMapping) (fun (s : AxisSys α) _ =>
      match (do
        let ti ← transIndex s.base
        let ax ← s.base.axes.getAxis ti
        Res.traverse (valsOfBin ax t) (List.range ax.nBins) : Res (List (List (Nat × α)))) with
      | .throw e => (s, .throw e)
      | .ub => (s, .ub)
      | .ok vals => s.fillResponseLeft vals)

end AxisSys

namespace Shape

/-- src/systematic/Shape.cpp:21-63 -/
def constructLeft (s : Shape α) : Shape α × Res Unit :=
  match s.func with
  | none => (s, .throw .logic)
  | some f =>
    if s.base.axes.nBins = 0 then (s, .throw .logic)
    else
      Res.andThen (if s.cached then (s, .ok ()) else Res.keep s s.cacheBinMapping) (fun (s : Shape α) _ =>
        match Res.traverse (s.shapeVal f) (List.range s.transAxes.nBins) with
        | .throw e => (s, .throw e)
        | .ub => (s, .ub)
        | .ok vals =>
          let r := Res.forLeft (fun (m : Matrix' α) b => Res.keep m (do
            let k ← at_ s.distTrans b
            let v ← at_ vals k
            m.setComponent b b v)) s.base.response (List.range s.base.axes.nBins)
          ({ s with base := { s.base with response := r.1 } }, r.2))

end Shape

namespace AnySys

/-- src/systematic/Scale.cpp:7-62, Shift.cpp:7-62, ScaleFunction.cpp:23-78, Shape.cpp:21-63, Renorm.cpp:4-18 (which throws before it
writes anything). -/
def constructLeft : AnySys α → AnySys α × Res Unit
  | scale s =>
    if s.param.val ≤ 0 then (scale s, .throw .value)
    else
      let r := s.sys.constructWithLeft (fun x => x * s.param.val)
      (scale { s with sys := r.1 }, r.2)
  | shift s =>
    let r := s.sys.constructWithLeft (fun x => x + s.param.val)
    (shift { s with sys := r.1 }, r.2)
  | scaleFunction s f ps =>
    if s.base.transObs.names.length ≠ 1 then (scaleFunction s f ps, .throw .representation)
    else
      match f with
      | none => (scaleFunction s none ps, .throw .logic)
      | some g =>
        let r := s.constructWithLeft (g ps)
        (scaleFunction r.1 (some g) ps, r.2)
  | shape s =>
    let r := s.constructLeft
    (shape r.1, r.2)
  | renorm r => Res.keep (renorm r) (do
      let y ← r.construct
      pure (renorm y))

/-- What a call of `Construct` that throws leaves of a systematic. -/
def left (s : AnySys α) : AnySys α := s.constructLeft.1

end AnySys
end Oxsx
