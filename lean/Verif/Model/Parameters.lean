import Verif.Basic
import Verif.Map
/-
Model of src/core/ParameterManager.{h,hpp,cpp}, src/core/DoubleParameter.h,
src/core/ContainerParameter.{h,hpp} and src/core/ComponentManager.{h,cpp}.
Registered parameters are references to doubles owned by somebody else; the doubles live in a `Store`.
Memory management (who deletes the `FitParameter` objects) is not modelled. A mutating call returns the
store it leaves behind together with its outcome, so that what an exception leaves half done is visible.
-/
namespace Oxsx

/-- The variables parameters can refer to: single doubles and containers of doubles. -/
structure Store (α : Type) where
  dbl : Nat → α
  cont : Nat → List α

/-- A `FitParameter`: src/core/DoubleParameter.h:5-14 (`dbl`) or src/core/ContainerParameter.h:10-22
(`elem`: element `index` of container `c`). -/
inductive Ref where
  | dbl (i : Nat)
  | elem (c index : Nat)
  deriving DecidableEq, Repr

namespace Ref
variable {α : Type}

/-- src/core/DoubleParameter.h:9, src/core/ContainerParameter.hpp:6-13 -/
def get (r : Ref) (s : Store α) : Res α :=
  match r with
  | dbl i => .ok (s.dbl i)
  | elem c i => at_ (s.cont c) i

/-- src/core/DoubleParameter.h:10, src/core/ContainerParameter.hpp:15-21 -/
def set (r : Ref) (s : Store α) (v : α) : Res (Store α) :=
  match r with
  | dbl i => .ok { s with dbl := Function.update s.dbl i v }
  | elem c i =>
    if i ≥ (s.cont c).length then .throw .outOfRange
    else .ok { s with cont := Function.update s.cont c ((s.cont c).set i v) }

end Ref

/-- src/core/ParameterManager.h:44 (`fParamPtrs`). -/
abbrev ParamManager := SMap Ref

/-- src/core/ParameterDict.h -/
abbrev ParamDict (α : Type) := SMap α

/-- `try {..} catch (std::out_of_range) { throw ParameterError }` -/
def toParameterError (e : Exc) : Exc := if e = .outOfRange then .parameter else e

namespace ParamManager
variable {α : Type}

/-- src/core/ParameterManager.cpp:55-63 (`Add`, `AddDouble`). -/
def add (m : ParamManager) (r : Ref) (n : String) : ParamManager := m.insert n r

/-- src/core/ParameterManager.hpp:18-27. The container `c` currently has `size` elements. -/
def addContainer (m : ParamManager) (c size : Nat) (names : List String) : Res ParamManager :=
  if size ≠ names.length then .throw .dimension
  else .ok ((names.zipIdx).foldl (fun m p => m.insert p.1 (.elem c p.2)) m)

/-- One iteration of src/core/ParameterManager.cpp:23-24 -/
def setOne (m : ParamManager) (d : ParamDict α) (s : Store α) (n : String) : Res (Store α) :=
  match m.find n, d.find n with
  | some r, some v => r.set s v
  | _, _ => .throw .outOfRange

/-- The loop of src/core/ParameterManager.cpp:23-24 over the given names: the store reached, and the
outcome. -/
def setLoop (m : ParamManager) (d : ParamDict α) : Store α → List String → Store α × Res Unit
  | s, [] => (s, .ok ())
  | s, n :: ns =>
    match m.setOne d s n with
    | .ok s' => setLoop m d s' ns
    | .throw e => (s, .throw (toParameterError e))
    | .ub => (s, .ub)

/-- src/core/ParameterManager.cpp:18-30 -/
def setParameters (m : ParamManager) (d : ParamDict α) (s : Store α) : Store α × Res Unit :=
  m.setLoop d s m.keys

/-- src/core/ParameterManager.cpp:32-41: `std::out_of_range` from a shrunk container escapes. -/
def getParameters (m : ParamManager) (s : Store α) : Res (ParamDict α) :=
  Res.forFold (fun (d : ParamDict α) (p : String × Ref) => do
    let v ← p.2.get s
    pure (d.insert p.1 v)) [] m

/-- src/core/ParameterManager.cpp:43-47 -/
def getParameterNames (m : ParamManager) : List String := m.keys

/-- src/core/ParameterManager.cpp:49-53 -/
def getParameterCount (m : ParamManager) : Nat := m.length

/-- src/core/ParameterManager.cpp:84-95 -/
def getParameter (m : ParamManager) (s : Store α) (n : String) : Res α :=
  Res.mapExc toParameterError
    (match m.find n with
     | some r => r.get s
     | none => .throw .outOfRange)

/-- src/core/ParameterManager.cpp:97-107 -/
def setParameter (m : ParamManager) (s : Store α) (n : String) (v : α) : Res (Store α) :=
  Res.mapExc toParameterError
    (match m.find n with
     | some r => r.set s v
     | none => .throw .outOfRange)

/-- src/core/ParameterManager.cpp:72-82. `fParamPtrs[new_] = fParamPtrs[old_]` with `old_` present. -/
def renameParameter (m : ParamManager) (old new : String) : Res ParamManager :=
  match m.find old with
  | none => .throw .parameter
  | some r =>
    match m.find new with
    | some _ => .throw .parameter
    | none => .ok ((SMap.insert new r m).erase old)

end ParamManager

/-- src/core/ComponentManager.h:24-25. Every component is taken to delegate to a `ParameterManager`
(src/core/FitComponent.h; true of scale, shift, Gaussian pdfs, normalisations). -/
abbrev ComponentManager := List ParamManager

namespace ComponentManager
variable {α : Type}

/-- src/core/ComponentManager.cpp:10-14 -/
def addComponent (cm : ComponentManager) (c : ParamManager) : ComponentManager := cm ++ [c]

/-- Loop of src/core/ComponentManager.cpp:22-23 -/
def setLoop (d : ParamDict α) : Store α → List ParamManager → Store α × Res Unit
  | s, [] => (s, .ok ())
  | s, c :: cs =>
    match c.setParameters d s with
    | (s', .ok ()) => setLoop d s' cs
    | (s', .throw e) => (s', .throw e)
    | (s', .ub) => (s', .ub)

/-- src/core/ComponentManager.cpp:16-24: an empty dictionary is a no-op. -/
def setParameters (cm : ComponentManager) (d : ParamDict α) (s : Store α) : Store α × Res Unit :=
  if d.length = 0 then (s, .ok ()) else setLoop d s cm

/-- src/core/ComponentManager.cpp:26-36 -/
def getParameters (cm : ComponentManager) (s : Store α) : Res (ParamDict α) :=
  Res.forFold (fun (pd : ParamDict α) (c : ParamManager) => do
    let d ← c.getParameters s
    pure (pd.insertAll d)) [] cm

/-- src/core/ComponentManager.cpp:38-42 -/
def getParameterNames (cm : ComponentManager) (s : Store α) : Res (List String) := do
  let pd ← cm.getParameters s
  pure pd.keys

/-- src/core/ComponentManager.cpp:44-47 -/
def getTotalParameterCount (cm : ComponentManager) (s : Store α) : Res Nat := do
  let pd ← cm.getParameters s
  pure pd.length

/-- src/core/ComponentManager.cpp:55-67 -/
def getParameter (cm : ComponentManager) (s : Store α) (n : String) : Res α := do
  let pd ← cm.getParameters s
  match pd.find n with
  | some v => pure v
  | none => .throw .parameter

end ComponentManager
end Oxsx
