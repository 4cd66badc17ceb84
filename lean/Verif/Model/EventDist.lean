import Verif.Model.Event
import Verif.Model.Parameters
/-
Model of src/dist/EventDistribution.h, src/dist/AnalyticED.{h,cpp} (without its fit parameters), src/dist/CompositeED.{h,cpp} and
src/fitutil/EDManager.{h,cpp}. Cloned objects are values, so that copies are deep; the implicit copy constructors of `CompositeED` and
`EDManager`, which share the cloned objects, are not modelled. Dimensions are natural numbers (`unsigned` in the code).
-/
namespace Oxsx

/-- The classes derived from src/dist/EventDistribution.h:8-24. An analytic distribution holds its function (which throws or returns),
its number of dimensions, and `fNorm`. -/
inductive EDist (α : Type) where
  | binned (d : BinnedED α)
  | analytic (name : String) (obs : ObsSet) (f : List α → Res α) (nDims : Nat) (norm : α)
  | composite (name : String) (parts : List (EDist α))

namespace EDist
variable {α : Type} [Field α] [LinearOrder α]

/-- src/dist/AnalyticED.cpp:6-11: a new analytic distribution has `fNorm = 1` and no observables. -/
def ofFunction (name : String) (f : List α → Res α) (nDims : Nat) : EDist α := .analytic name ⟨[], []⟩ f nDims 1

/-- src/dist/BinnedED.cpp (GetName), src/dist/AnalyticED.cpp:88-92, src/dist/CompositeED.cpp:78-82 -/
def name : EDist α → String
  | binned d => d.name
  | analytic n _ _ _ _ => n
  | composite n _ => n

mutual
/-- src/dist/BinnedED.cpp:172-176, src/dist/AnalyticED.cpp:82-86, src/dist/CompositeED.cpp:69-76 -/
def nDims : EDist α → Nat
  | binned d => d.hist.nDims
  | analytic _ _ _ n _ => n
  | composite _ ps => nDimsSum 0 ps
/-- The loop of src/dist/CompositeED.cpp:72-74. -/
def nDimsSum : Nat → List (EDist α) → Nat
  | n, [] => n
  | n, p :: ps => nDimsSum (n + p.nDims) ps
end

mutual
/-- src/dist/BinnedED.cpp:104-116, src/dist/AnalyticED.cpp:32-58 (`DimensionError` and `RepresentationError` are rethrown as such),
src/dist/CompositeED.cpp:32-39. -/
def probability (e : Event α) : EDist α → Res α
  | binned d => d.probabilityEvent e
  | analytic _ obs f _ norm => do
    let vs ← e.toObsSet obs
    let p ← f vs
    pure (p / norm)
  | composite _ ps => probabilityProd e 1 ps
/-- The loop of src/dist/CompositeED.cpp:36-37. -/
def probabilityProd (e : Event α) : α → List (EDist α) → Res α
  | a, [] => .ok a
  | a, p :: ps => do
    let x ← p.probability e
    probabilityProd e (a * x) ps
end

mutual
/-- src/dist/BinnedED.cpp:118-122, src/dist/AnalyticED.cpp:60-64, src/dist/CompositeED.cpp:47-54 -/
def integral : EDist α → α
  | binned d => d.hist.integral
  | analytic _ _ _ _ norm => norm
  | composite _ ps => integralProd 1 ps
/-- The loop of src/dist/CompositeED.cpp:51-52. -/
def integralProd : α → List (EDist α) → α
  | a, [] => a
  | a, p :: ps => integralProd (a * p.integral) ps
end

mutual
/-- src/dist/BinnedED.cpp:124-127, src/dist/AnalyticED.cpp:66-69, src/dist/CompositeED.cpp:41-45 -/
def normalise : EDist α → EDist α
  | binned d => .binned { d with hist := d.hist.normalise }
  | analytic n o f k _ => .analytic n o f k 1
  | composite n ps => .composite n (normaliseAll ps)
/-- The loop of src/dist/CompositeED.cpp:43-44. -/
def normaliseAll : List (EDist α) → List (EDist α)
  | [] => []
  | p :: ps => p.normalise :: normaliseAll ps
end

/-- src/dist/CompositeED.cpp:6-11 and 63-67: the product. -/
def mul (a b : EDist α) : EDist α := .composite (a.name ++ "*" ++ b.name) [a, b]

/-- src/dist/CompositeED.cpp:13-25 -/
def ofList (ps : List (EDist α)) : EDist α :=
  .composite (ps.zipIdx.foldl (fun (s : String) (p : EDist α × Nat) => if p.2 ≠ ps.length - 1 then s ++ p.1.name ++ "*" else s ++ p.1.name) "") ps

end EDist

/-- src/fitutil/EDManager.h:41-48. The fit parameters refer to the elements of `norms`, container 0 of the store. -/
structure EDManager (α : Type) where
  params : ParamManager
  nDists : Nat
  nDims : Nat
  dists : List (EDist α)
  norms : List α

namespace EDManager
variable {α : Type} [Field α] [LinearOrder α]

/-- src/fitutil/EDManager.h:13 -/
def new : EDManager α := ⟨[], 0, 0, [], []⟩

/-- Where the registered parameters point. -/
def store (m : EDManager α) : Store α := ⟨fun _ => 0, fun _ => m.norms⟩

/-- src/fitutil/EDManager.cpp:72-80 -/
def registerParameters (m : EDManager α) : Res (EDManager α) := do
  let p ← ParamManager.addContainer [] 0 m.norms.length (m.dists.map (·.name))
  pure { m with params := p }

/-- src/fitutil/EDManager.cpp:12-25 -/
def addDist (m : EDManager α) (d : EDist α) : Res (EDManager α) :=
  if m.dists.length = 0 then
    ({ m with nDims := d.nDims, dists := m.dists ++ [d], nDists := m.nDists + 1, norms := resize m.norms (m.nDists + 1) 0 } :
      EDManager α).registerParameters
  else if d.nDims ≠ m.nDims then .throw .dimension
  else ({ m with dists := m.dists ++ [d], nDists := m.nDists + 1, norms := resize m.norms (m.nDists + 1) 0 } :
      EDManager α).registerParameters

/-- src/fitutil/EDManager.cpp:27-32 -/
def addDists (m : EDManager α) (ds : List (EDist α)) : Res (EDManager α) := do
  let m ← Res.forFold addDist m ds
  m.registerParameters

/-- src/fitutil/EDManager.cpp:34-42 -/
def probability (m : EDManager α) (e : Event α) : Res α :=
  Res.forFold (fun (s : α) i => do
    let n ← at_ m.norms i
    let d ← at_ m.dists i
    let p ← d.probability e
    pure (s + n * p)) 0 (List.range m.dists.length)

/-- src/fitutil/EDManager.cpp:50-56. The vectors have the same length, so that the registered references stay valid. -/
def setNormalisations (m : EDManager α) (ns : List α) : Res (EDManager α) :=
  if ns.length ≠ m.nDists then .throw .dimension else .ok { m with norms := ns }

/-- src/fitutil/EDManager.cpp:109-112: the manager left behind, and the outcome. -/
def setParameters (m : EDManager α) (d : ParamDict α) : EDManager α × Res Unit :=
  let (s, r) := m.params.setParameters d m.store
  ({ m with norms := s.cont 0 }, r)

/-- src/fitutil/EDManager.cpp:98-101 -/
def setParameter (m : EDManager α) (n : String) (v : α) : Res (EDManager α) := do
  let s ← m.params.setParameter m.store n v
  pure { m with norms := s.cont 0 }

/-- src/fitutil/EDManager.cpp:103-107 -/
def getParameter (m : EDManager α) (n : String) : Res α := m.params.getParameter m.store n

/-- src/fitutil/EDManager.cpp:93-96 -/
def renameParameter (m : EDManager α) (o n : String) : Res (EDManager α) := do
  let p ← m.params.renameParameter o n
  pure { m with params := p }

end EDManager
end Oxsx
