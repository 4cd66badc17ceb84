import Verif.Model.SystematicManager
import Verif.Model.Shrinker
import Verif.Model.Parameters
/-
Model of src/fitutil/BinnedEDManager.{h,cpp}. `fNDims` is never set and not modelled. The two vectors
the parameters refer to are containers 0 (`fNormalisations`) and 1 (`fFittableNorms`) of a store.
A call that throws returns the exception only, except where stated.
-/
namespace Oxsx

/-- src/fitutil/BinnedEDManager.h:15-21 (`FALSE = 0`, `DIRECT = 1`, `INDIRECT = 2`). -/
inductive NormStatus where
  | off
  | direct
  | indirect
  deriving DecidableEq, Repr

namespace NormStatus
/-- `if (norm_fitting_status)`: a non-zero enum value. -/
def fittable : NormStatus → Bool
  | off => false
  | _ => true
end NormStatus

/-- src/dist/BinnedED.cpp:217-234. The joined name is `fName_n1_…_nk_proj`. -/
def BinnedED.marginalise {α : Type} [Field α] [LinearOrder α] (d : BinnedED α) (names : List String) :
    Res (BinnedED α) := do
  let h ← d.hist.marginalise names
  pure ⟨names.foldl (fun s n => s ++ "_" ++ n) d.name ++ "_proj", h, ObsSet.ofNames names⟩

/-- src/fitutil/BinnedEDManager.h:60-71 (members). -/
structure PdfManager (α : Type) where
  params : ParamManager
  orig : List (BinnedED α)
  work : List (BinnedED α)
  norms : List α
  status : List NormStatus
  fitNorms : List α
  allDirect : Bool

namespace PdfManager
variable {α : Type} [Field α] [LinearOrder α] {σ : Type}

/-- src/fitutil/BinnedEDManager.h:25 -/
def new : PdfManager α := ⟨[], [], [], [], [], [], true⟩

/-- The doubles the parameter manager's references point to. -/
def store (m : PdfManager α) : Store α :=
  ⟨fun _ => 0, fun c => if c = 0 then m.norms else if c = 1 then m.fitNorms else []⟩

/-- The manager after its doubles have been written through the references. -/
def withStore (m : PdfManager α) (s : Store α) : PdfManager α :=
  { m with norms := s.cont 0, fitNorms := s.cont 1 }

/-- The names passed to `AddContainer` in src/fitutil/BinnedEDManager.cpp:283-302. -/
def paramNames (m : PdfManager α) : Res (List String) :=
  if m.allDirect then .ok (m.orig.map (·.name))
  else do
    let ns ← Res.traverse (fun i => do
      let s ← at_ m.status i
      let d ← at_ m.orig i
      pure (if s.fittable then [d.name] else [])) (List.range m.orig.length)
    pure ns.flatten

/-- src/fitutil/BinnedEDManager.cpp:280-303 -/
def registerParameters (m : PdfManager α) : Res (PdfManager α) := do
  let names ← m.paramNames
  let p ← (if m.allDirect then ParamManager.addContainer [] 0 m.norms.length names
    else ParamManager.addContainer [] 1 m.fitNorms.length names)
  pure { m with params := p }

/-- src/fitutil/BinnedEDManager.cpp:126-142 -/
def addPdf (m : PdfManager α) (pdf : BinnedED α) (st : NormStatus) : Res (PdfManager α) :=
  registerParameters
    { m with
      orig := m.orig ++ [pdf]
      work := m.work ++ [pdf]
      norms := resize m.norms (m.orig.length + 1) 0
      status := m.status ++ [st]
      fitNorms := if st.fittable then m.fitNorms ++ [0] else m.fitNorms
      allDirect := if st ≠ .direct then false else m.allDirect }

/-- src/fitutil/BinnedEDManager.cpp:144-164, with the statuses given. -/
def addPdfs (m : PdfManager α) (pdfs : List (BinnedED α)) (sts : List NormStatus) : Res (PdfManager α) := do
  Res.throwIf (pdfs.length ≠ sts.length) .dimension
  let m ← Res.forFold (fun (m : PdfManager α) (p : BinnedED α × NormStatus) => m.addPdf p.1 p.2) m (pdfs.zip sts)
  m.registerParameters

/-- src/fitutil/BinnedEDManager.cpp:84-89 -/
def setNormalisations (m : PdfManager α) (ns : List α) : Res (PdfManager α) :=
  if ns.length ≠ m.orig.length then .throw .logic else .ok { m with norms := ns }

/-- One iteration of src/fitutil/BinnedEDManager.cpp:316-323; the state is (`fNormalisations`, `j`). -/
def reassertStep (m : PdfManager α) (binprob : Bool) (s : List α × Nat) (i : Nat) : Res (List α × Nat) := do
  let st ← at_ m.status i
  if st = (if binprob then NormStatus.direct else NormStatus.indirect) then do
    let v ← at_ m.fitNorms s.2
    let ns ← setIdx s.1 i v
    pure (ns, s.2 + 1)
  else pure s

/-- src/fitutil/BinnedEDManager.cpp:305-325 -/
def reassertNorms (m : PdfManager α) (binprob : Bool) : Res (PdfManager α) :=
  if m.allDirect then .ok m
  else do
    let (ns, _) ← Res.forFold (m.reassertStep binprob) (m.norms, 0) (List.range m.norms.length)
    pure { m with norms := ns }

/-- One iteration of src/fitutil/BinnedEDManager.cpp:57-75 (and of l.26-44 with `f` the probability of
an event instead of a bin content); the state is (`sum`, `j`). -/
def probStep (m : PdfManager α) (f : BinnedED α → Res α) (s : α × Nat) (i : Nat) : Res (α × Nat) := do
  let st ← at_ m.status i
  let w ← at_ m.work i
  match st with
  | .direct => do
    let n ← at_ m.norms i
    let c ← f w
    pure (s.1 + n * c, s.2 + 1)
  | .indirect => do
    let n ← at_ m.fitNorms s.2
    let c ← f w
    pure (s.1 + n * c, s.2 + 1)
  | .off => do
    let c ← f w
    pure (s.1 + c, s.2)

/-- src/fitutil/BinnedEDManager.cpp:49-82: the value and the manager left behind (the call re-asserts
normalisations). -/
def binProbability (m : PdfManager α) (bin : Nat) : Res (α × PdfManager α) := do
  let m ← m.reassertNorms true
  let (sum, _) ← Res.mapExc (fun e => if e = .outOfRange then .logic else e)
    (Res.forFold (m.probStep (fun w => w.hist.getBinContent bin)) (0, 0) (List.range m.work.length))
  pure (sum, m)

/-- src/fitutil/BinnedEDManager.cpp:20-47 -/
def probability (m : PdfManager α) (e : Event α) : Res (α × PdfManager α) := do
  let m ← m.reassertNorms true
  let (sum, _) ← Res.forFold (m.probStep (fun w => w.probabilityEvent e)) (0, 0) (List.range m.work.length)
  pure (sum, m)

/-- One iteration of src/fitutil/BinnedEDManager.cpp:106-116. -/
def sysNormStep (m : PdfManager α) (ns : List α) (acc : List α) (i : Nat) : Res (List α) := do
  let st ← at_ m.status i
  match st with
  | .off => do
    let n ← at_ ns i
    setIdx acc i n
  | .indirect => do
    let n ← at_ ns i
    let o ← idx acc i
    setIdx acc i (o * n)
  | .direct => pure acc

/-- src/fitutil/BinnedEDManager.cpp:91-118 -/
def applySystematics (m : PdfManager α) (sm : SysManager α) : Res (PdfManager α) :=
  if sm.countSystematics = 0 then .ok m
  else if m.allDirect then do
    let (w, _) ← sm.distortEDs m.orig m.work none
    pure { m with work := w }
  else do
    let (w, ns) ← sm.distortEDs m.orig m.work (some (List.replicate m.norms.length 0))
    let ns := ns.getD []
    let norms ← Res.forFold (m.sysNormStep ns) m.norms (List.range ns.length)
    pure { m with work := w, norms := norms }

/-- src/fitutil/BinnedEDManager.cpp:327-342 -/
def assertDimensions (m : PdfManager α) (obs : List String) : Res (PdfManager α) := do
  let w ← Res.traverse (fun (d : BinnedED α) => if d.obs.names ≠ obs then d.marginalise obs else pure d) m.work
  pure { m with work := w }

/-- One iteration of src/fitutil/BinnedEDManager.cpp:196-223. Division by a zero integral (l.220 and
`Normalise`) is not finite in the code; here it follows the field convention and the theorems exclude it. -/
def shrinkStep (s : Shrinker α) (m : PdfManager α) (i : Nat) : Res (PdfManager α) := do
  let w ← at_ m.work i
  let w' ← s.shrinkDist w
  let st ← at_ m.status i
  match st with
  | .direct => do
    let ws ← setIdx m.work i { w' with hist := w'.hist.normalise }
    pure { m with work := ws }
  | .off => do
    let ws ← setIdx m.work i w'
    let ns ← setIdx m.norms i w'.hist.integral
    pure { m with work := ws, norms := ns }
  | .indirect => do
    let ws ← setIdx m.work i w'
    let o ← idx m.norms i
    let ns ← setIdx m.norms i
      (if w.hist.integral = 0 ∧ w'.hist.integral = 0 then 0
       else o * (w'.hist.integral / w.hist.integral))
    pure { m with work := ws, norms := ns }

/-- src/fitutil/BinnedEDManager.cpp:172-224. The comparison of l.191 is made on `size_t`s; with fewer
than 2^63 bins and buffer bins it is the comparison of integers written here. -/
def applyShrink (m : PdfManager α) (s : Shrinker α) : Res (PdfManager α) :=
  if s.buffers = [] then .ok m
  else do
    let bufferBins : Nat := (s.buffers.map (fun (p : String × (Nat × Nat)) => p.2.1 + p.2.2)).sum
    let w0 ← at_ m.work 0
    let o0 ← at_ m.orig 0
    if (w0.hist.nBins : Int) = (o0.hist.nBins : Int) - (bufferBins : Int) then pure m
    else if w0.hist.nBins ≠ o0.hist.nBins then .throw .dimension
    else Res.forFold (shrinkStep s) m (List.range m.work.length)

/-- src/fitutil/BinnedEDManager.cpp:257-260: the manager left behind, and the outcome. -/
def setParameters (m : PdfManager α) (d : ParamDict α) : PdfManager α × Res Unit :=
  let (s, r) := m.params.setParameters d m.store
  (m.withStore s, r)

/-- src/fitutil/BinnedEDManager.cpp:246-249 -/
def setParameter (m : PdfManager α) (n : String) (v : α) : Res (PdfManager α) := do
  let s ← m.params.setParameter m.store n v
  pure (m.withStore s)

/-- src/fitutil/BinnedEDManager.cpp:251-255 -/
def getParameter (m : PdfManager α) (n : String) : Res α := m.params.getParameter m.store n

/-- src/fitutil/BinnedEDManager.cpp:262-266 -/
def getParameters (m : PdfManager α) : Res (ParamDict α) := m.params.getParameters m.store

/-- src/fitutil/BinnedEDManager.cpp:166-170 -/
def getNormalisations (m : PdfManager α) : List α := m.norms

end PdfManager
end Oxsx
