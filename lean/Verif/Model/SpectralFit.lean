import Verif.Model.Event
import Verif.Model.Parameters
import Mathlib.Algebra.Order.Floor.Ring
/-
Model of src/dist/SpectralFitDist.{h,cpp}.
-/
namespace Oxsx

/-- src/dist/SpectralFitDist.h:25-27; `fName` hides the name of the base class and only matters for `GetName`. -/
structure SpectralFit (α : Type) where
  dist : BinnedED α
  binNames : List String
  name : String

namespace SpectralFit
variable {α : Type} [Field α] [LinearOrder α]

/-- src/dist/SpectralFitDist.cpp:15-23 -/
def new (name : String) (axes : AxisCollection α) : SpectralFit α :=
  ⟨.ofAxes name axes, (List.range axes.nBins).map (fun i => name ++ "_bin_" ++ toString i), name⟩

/-- The conversion `double` to (signed) `char` and on to `std::string`: truncation, undefined outside the range of the type. A byte is
shown as the character of the same code. -/
def byteString [FloorRing α] (v : α) : Res String :=
  let i : Int := if 0 ≤ v then ⌊v⌋ else ⌈v⌉
  if -128 ≤ i ∧ i ≤ 127 then .ok (String.ofList [Char.ofNat (i % 256).toNat]) else .ub

/-- src/dist/SpectralFitDist.cpp:25-32: `*it = value` assigns to the *name*. -/
def setParameter [FloorRing α] (s : SpectralFit α) (n : String) (v : α) : Res (SpectralFit α) :=
  match findPos s.binNames n with
  | none => .throw .parameter
  | some i => do
    let b ← byteString v
    pure { s with binNames := s.binNames.set i b }

/-- src/dist/SpectralFitDist.cpp:34-41 -/
def getParameter (s : SpectralFit α) (n : String) : Res α :=
  match findPos s.binNames n with
  | none => .throw .parameter
  | some i => s.dist.hist.getBinContent i

/-- One iteration of src/dist/SpectralFitDist.cpp:45-53. -/
def setStep (d : ParamDict α) (h : Histogram α) (p : String × Nat) : Res (Histogram α) :=
  match SMap.find d p.1 with
  | none => .throw .parameter
  | some v => h.setBinContent p.2 v

/-- The loop of src/dist/SpectralFitDist.cpp:45-53: an exception leaves the earlier bins set. -/
def setLoop (d : ParamDict α) : Histogram α → List (String × Nat) → Histogram α × Res Unit
  | h, [] => (h, .ok ())
  | h, p :: ps =>
    match setStep d h p with
    | .ok h => setLoop d h ps
    | .throw e => (h, .throw e)
    | .ub => (h, .ub)

/-- src/dist/SpectralFitDist.cpp:43-54 -/
def setParameters (s : SpectralFit α) (d : ParamDict α) : SpectralFit α × Res Unit :=
  let r := setLoop d s.dist.hist s.binNames.zipIdx
  ({ s with dist := { s.dist with hist := r.1 } }, r.2)

/-- src/dist/SpectralFitDist.cpp:56-60 with src/core/ContainerTools.hpp:13-33 (no `assert`). -/
def getParameters (s : SpectralFit α) : Res (ParamDict α) :=
  if s.dist.hist.contents.length < s.binNames.length then .ub
  else .ok ((s.binNames.zip s.dist.hist.contents).foldl (fun (m : ParamDict α) p => m.insert p.1 p.2) [])

/-- src/dist/SpectralFitDist.cpp:62-66 -/
def getParameterCount (s : SpectralFit α) : Nat := s.dist.hist.nBins

/-- src/dist/SpectralFitDist.cpp:68-72 -/
def getParameterNames (s : SpectralFit α) : SMap Unit := s.binNames.foldl (fun (m : SMap Unit) n => m.insert n ()) []

/-- src/dist/SpectralFitDist.cpp:74-80 -/
def renameParameter (s : SpectralFit α) (o n : String) : Res (SpectralFit α) :=
  match findPos s.binNames o with
  | none => .throw .parameter
  | some i => .ok { s with binNames := s.binNames.set i n }

end SpectralFit
end Oxsx
