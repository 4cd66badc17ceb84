import Verif.Model.Functions
import Verif.Model.EventSystematic
/-
Model of src/eventSystematic/EventConvolution.{h,cpp} and of the drawing of random values: Gaussian::Sample, JumpPDF::Sample,
VaryingCDF::Sample, Rand::Gaus.
The random generator is a sequence `z` of standard normal values and the number already used; `Rand::Gaus(m, s)` takes the next one, `x`, and
gives `m + s x`, as ROOT's TRandom::Gaus is documented to. Objects owned through pointers are values here: leaks, and the function objects
shared by copies of a VaryingCDF, are not visible in this model.
-/
namespace Oxsx

/-- The random numbers: the sequence and how many of them are used. -/
structure Draws (α : Type) where
  seq : Nat → α
  used : Nat

namespace Draws
variable {α : Type} [Field α]

/-- src/rand/Rand.cpp:27-31 -/
def gaus (z : Draws α) (mean sigma : α) : α × Draws α := (mean + sigma * z.seq z.used, { z with used := z.used + 1 })

end Draws

namespace Gaussian
variable {α : Type} [Field α] [LinearOrder α]

/-- One iteration of src/function/Gaussian.cpp:233-236. -/
def sampleStep (g : Gaussian α) (s : List α × Draws α) (i : Nat) : Res (List α × Draws α) :=
  at_ g.means i >>= fun m => at_ g.stdDevs i >>= fun sd =>
    setIdx s.1 i (s.2.gaus m sd).1 >>= fun l => Res.ok (l, (s.2.gaus m sd).2)

/-- src/function/Gaussian.cpp:229-238 -/
def sample (g : Gaussian α) (z : Draws α) : Res (List α × Draws α) :=
  Res.forFold (sampleStep g) (List.replicate g.nDims 0, z) (List.range g.nDims)

end Gaussian

namespace JumpPDF
variable {α : Type} [Field α] [LinearOrder α]

/-- src/function/JumpPDF.cpp:89-97 -/
def sample (j : JumpPDF α) (x2 : List α) (z : Draws α) : Res (List α × Draws α) :=
  match j.pdf with
  | none => .throw .nullPtr
  | some g => g.sample z >>= fun p => sum p.1 x2 >>= fun l => Res.ok (l, p.2)

/-- src/function/JumpPDF.cpp:132-138 -/
def setParameter (j : JumpPDF α) (n : String) (v : α) : Res (JumpPDF α) :=
  match j.pdf with
  | none => .throw .nullPtr
  | some g => g.setParameter n v >>= fun g => Res.ok { j with pdf := some g }

/-- src/function/JumpPDF.cpp:140-147 -/
def getParameter (j : JumpPDF α) (n : String) : Res α :=
  match j.pdf with
  | none => .throw .nullPtr
  | some g => g.getParameter n

/-- src/function/JumpPDF.cpp:164-171 -/
def getParameters (j : JumpPDF α) : Res (ParamDict α) :=
  match j.pdf with
  | none => .throw .nullPtr
  | some g => g.getParameters

/-- src/function/JumpPDF.cpp:26-34, 68-72 -/
def clone (j : JumpPDF α) : Res (JumpPDF α) := make j.name j.pdf

end JumpPDF

namespace VaryingCDF
variable {α : Type} [Field α] [LinearOrder α]

/-- src/function/VaryingCDF.cpp:107-114 -/
def sample (rt : α → α) (v : VaryingCDF α) (x2 : List α) (z : Draws α) : Res ((List α × Draws α) × VaryingCDF α) :=
  match v.kernel with
  | none => .ub
  | some j => v.setupParameters rt x2 >>= fun d => j.setParameters d >>= fun j =>
      j.sample x2 z >>= fun r => Res.ok (r, { v with kernel := some j })

/-- src/function/VaryingCDF.cpp:35-40, 51-55; the functions are the same objects in the copy. -/
def clone (v : VaryingCDF α) : Res (VaryingCDF α) :=
  match v.kernel with
  | none => .ub
  | some j => j.clone >>= fun j => Res.ok { v with kernel := some j }

end VaryingCDF

/-- The conditional distributions of the library. -/
inductive Kernel (α : Type) where
  | jump (j : JumpPDF α)
  | varying (v : VaryingCDF α)
  deriving DecidableEq

namespace Kernel
variable {α : Type} [Field α] [LinearOrder α]

/-- `ConditionalPDF::Sample`: src/function/JumpPDF.cpp:89-97, src/function/VaryingCDF.cpp:107-114. -/
def sample (rt : α → α) (k : Kernel α) (x2 : List α) (z : Draws α) : Res ((List α × Draws α) × Kernel α) :=
  match k with
  | .jump j => j.sample x2 z >>= fun r => Res.ok (r, .jump j)
  | .varying v => v.sample rt x2 z >>= fun r => Res.ok (r.1, .varying r.2)

/-- `ConditionalPDF::Clone`: src/function/JumpPDF.cpp:68-72, src/function/VaryingCDF.cpp:51-55. -/
def clone (k : Kernel α) : Res (Kernel α) :=
  match k with
  | .jump j => j.clone >>= fun j => Res.ok (.jump j)
  | .varying v => v.clone >>= fun v => Res.ok (.varying v)

/-- `SetParameter`: src/function/JumpPDF.cpp:132-138, src/function/VaryingCDF.cpp:116-122. -/
def setParameter (k : Kernel α) (n : String) (x : α) : Res (Kernel α) :=
  match k with
  | .jump j => j.setParameter n x >>= fun j => Res.ok (.jump j)
  | .varying v => v.setParameter n x >>= fun v => Res.ok (.varying v)

/-- `SetParameters`: src/function/JumpPDF.cpp:149-162, src/function/VaryingCDF.cpp:148-154. -/
def setParameters (k : Kernel α) (d : ParamDict α) : Res (Kernel α) :=
  match k with
  | .jump j => j.setParameters d >>= fun j => Res.ok (.jump j)
  | .varying v => v.setParameters d >>= fun v => Res.ok (.varying v)

/-- `GetParameter`: src/function/JumpPDF.cpp:140-147, src/function/VaryingCDF.cpp:124-146. -/
def getParameter (k : Kernel α) (n : String) : Res α :=
  match k with
  | .jump j => j.getParameter n
  | .varying v => v.getParameter n

/-- `GetParameters`: src/function/JumpPDF.cpp:164-171, src/function/VaryingCDF.cpp:156-166. -/
def getParameters (k : Kernel α) : Res (ParamDict α) :=
  match k with
  | .jump j => j.getParameters
  | .varying v => .ok v.getParameters

end Kernel

/-- src/eventSystematic/EventConvolution.h:42-43 and the observables of its base, src/eventSystematic/EventSystematic.h:20-21. -/
structure EventConvolution (α : Type) where
  name : String
  dist : Option (Kernel α)
  inObs : ObsSet
  outObs : ObsSet
  deriving DecidableEq

namespace EventConvolution
variable {α : Type} [Field α] [LinearOrder α]

/-- src/eventSystematic/EventConvolution.h:15 -/
def new (name : String) : EventConvolution α := ⟨name, none, .ofNames [], .ofNames []⟩

/-- src/eventSystematic/EventSystematic.cpp:15-18 -/
def setOutObservables (s : EventConvolution α) (ns : List String) : EventConvolution α := { s with outObs := .ofNames ns }

/-- src/eventSystematic/EventConvolution.cpp:18-26: the name is not copied. -/
def copy (s : EventConvolution α) : Res (EventConvolution α) :=
  match s.dist with
  | some k => k.clone >>= fun k => Res.ok ⟨"", some k, s.inObs, s.outObs⟩
  | none => .ok ⟨"", none, s.inObs, s.outObs⟩

/-- src/eventSystematic/EventConvolution.cpp:28-39: the left side keeps its name (what is returned by value is a further copy). -/
def assign (s other : EventConvolution α) : Res (EventConvolution α) :=
  match other.dist with
  | some k => k.clone >>= fun k => Res.ok ⟨s.name, some k, other.inObs, other.outObs⟩
  | none => .ok ⟨s.name, none, other.inObs, other.outObs⟩

/-- src/eventSystematic/EventConvolution.cpp:45-57 -/
def setPDF (s : EventConvolution α) (g : Option (Gaussian α)) : Res (EventConvolution α) :=
  match g with
  | none => .ok { s with dist := none }
  | some g => if g.nDims ≠ 1 then .throw .dimension
      else JumpPDF.make "kernel" (some g) >>= fun j => Res.ok { s with dist := some (.jump j) }

/-- src/eventSystematic/EventConvolution.cpp:59-65 -/
def setConditionalPDF (s : EventConvolution α) (k : Option (Kernel α)) : Res (EventConvolution α) :=
  match k with
  | none => .ok { s with dist := none }
  | some k => k.clone >>= fun k => Res.ok { s with dist := some k }

/-- src/eventSystematic/EventConvolution.cpp:79-85 -/
def setParameter (s : EventConvolution α) (n : String) (x : α) : Res (EventConvolution α) :=
  match s.dist with
  | none => .throw .nullPtr
  | some k => k.setParameter n x >>= fun k => Res.ok { s with dist := some k }

/-- src/eventSystematic/EventConvolution.cpp:87-94 -/
def getParameter (s : EventConvolution α) (n : String) : Res α :=
  match s.dist with
  | none => .throw .nullPtr
  | some k => k.getParameter n

/-- src/eventSystematic/EventConvolution.cpp:96-109 -/
def setParameters (s : EventConvolution α) (d : ParamDict α) : Res (EventConvolution α) :=
  match s.dist with
  | none => .throw .nullPtr
  | some k => k.setParameters d >>= fun k => Res.ok { s with dist := some k }

/-- src/eventSystematic/EventConvolution.cpp:111-118 -/
def getParameters (s : EventConvolution α) : Res (ParamDict α) :=
  match s.dist with
  | none => .throw .nullPtr
  | some k => k.getParameters

/-- `operator()`, src/eventSystematic/EventConvolution.cpp:149-165: the event, the random numbers left and the systematic left behind (a
varying kernel keeps the parameters of the last event). -/
def apply (rt : α → α) (s : EventConvolution α) (e : Event α) (z : Draws α) : Res (Event α × Draws α × EventConvolution α) :=
  match s.dist with
  | none => .throw .nullPtr
  | some k => at_ s.outObs.names 0 >>= fun o => e.toObsSet s.outObs >>= fun x => k.sample rt x z >>= fun r =>
      at_ r.1.1 0 >>= fun v => e.setDatumByName o v >>= fun e => Res.ok (e, r.1.2, { s with dist := some r.2 })

/-- The systematic applied to one event after the other, as `DistFiller` and `CountingExperiment` do. -/
def applySeq (rt : α → α) : EventConvolution α → List (Event α) → Draws α → Res (List (Event α) × Draws α × EventConvolution α)
  | s, [], z => .ok ([], z, s)
  | s, e :: es, z => s.apply rt e z >>= fun r => applySeq rt r.2.2 es r.2.1 >>= fun q => Res.ok (r.1 :: q.1, q.2)

end EventConvolution
end Oxsx
