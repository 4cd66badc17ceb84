import Verif.Model.PdfManager
import Verif.Model.Constraint
import Verif.Model.EventSystematic
/-
Model of src/teststat/BinnedNLLH.{h,cpp} and the parts of src/teststat/TestStatistic.{h,cpp} it uses. Doubles are elements of a
field; a value that is not finite is `none` (`Fl`). Debug printing and the signal cut log and efficiency are not modelled. A call
that throws returns the exception only, except `SetParameters`.
-/
namespace Oxsx

/-- The functions of `<math.h>` used: `none` where the C function returns a value that is not finite. -/
structure CMath (α : Type) where
  log : α → Fl α
  sqrt : α → Fl α

/-- A systematic as a fit component: src/systematic/Systematic.h, src/core/FitComponent.h. -/
structure FitSys (σ α : Type) extends SysClass σ α where
  getParameters : σ → Res (ParamDict α)
  setParameters : σ → ParamDict α → σ × Res Unit

/-- What the component manager's pointers point to. -/
inductive NllhComponent where
  | pdfs
  | sys (p : Nat)
  deriving DecidableEq

/-- src/teststat/BinnedNLLH.h:49-58 and src/teststat/TestStatistic.h:80-92; `objs` holds the systematics, which are owned by
the user. (`BinnedNLLH::fCalculatedDataDist` is never used: the accessors use the base class member.) -/
structure NLLH (σ α : Type) where
  pdfs : PdfManager α
  sys : SysManager α
  objs : Nat → σ
  shrinker : Shrinker α
  constraints : ConstraintManager α
  components : List NllhComponent
  data : Option (DataSet α)
  dataDist : BinnedED α
  calculated : Bool
  alreadyShrunk : Bool
  genRates : List Nat
  useBB : Bool
  cuts : CutCollection α

namespace NLLH
variable {σ α : Type} [Field α] [LinearOrder α]

/-- src/teststat/TestStatistic.h:24, src/teststat/BinnedNLLH.h:13, 58; the systematics exist already. -/
def new (objs : Nat → σ) : NLLH σ α :=
  { pdfs := .new, sys := .new, objs := objs, shrinker := .new, constraints := .empty, components := [], data := none,
    dataDist := ⟨"", .empty, ⟨[], []⟩⟩, calculated := false, alreadyShrunk := false, genRates := [], useBB := false, cuts := [] }

/-- `(unsigned) int` -/
def toUInt32 (i : Int) : Nat := (i % 2 ^ 32).toNat

/-- The four overloads of src/teststat/BinnedNLLH.cpp:238-274: `groups = none` for those without groups, `rate = none` for those
without a generated rate. -/
def addPdf (name : Nat → String) (L : NLLH σ α) (pdf : BinnedED α) (groups : Option (List String)) (rate : Option Int)
    (st : NormStatus) : Res (NLLH σ α) := do
  Res.throwIf (rate = none ∧ L.useBB) .oxsx
  let m ← L.pdfs.addPdf pdf st
  let s ← L.sys.addDist name pdf.name (groups.getD [""])
  pure { L with pdfs := m, sys := s, genRates := match rate with
    | some r => L.genRates ++ [toUInt32 r]
    | none => L.genRates }

/-- src/teststat/BinnedNLLH.cpp:368-371. `ParameterManager::operator=` (src/core/ParameterManager.h:19) changes nothing, so the
registered parameters stay those of before. -/
def setPdfManager (L : NLLH σ α) (m : PdfManager α) : NLLH σ α := { L with pdfs := { m with params := L.pdfs.params } }

/-- src/teststat/BinnedNLLH.cpp:136-139 -/
def setNormalisations (L : NLLH σ α) (ns : List α) : Res (NLLH σ α) := do
  let m ← L.pdfs.setNormalisations ns
  pure { L with pdfs := m }

/-- src/teststat/BinnedNLLH.cpp:276-280 -/
def setDataDist (L : NLLH σ α) (d : BinnedED α) : NLLH σ α := { L with dataDist := d, calculated := true }

/-- src/teststat/TestStatistic.cpp:108-112 -/
def setDataSet (L : NLLH σ α) (d : Option (DataSet α)) : NLLH σ α := { L with data := d, calculated := false }

/-- src/teststat/BinnedNLLH.cpp:288-291 -/
def setBarlowBeeston (L : NLLH σ α) (b : Bool) : NLLH σ α := { L with useBB := b }

/-- src/teststat/BinnedNLLH.cpp:293-296 -/
def setBuffer (L : NLLH σ α) (dim : String) (lower upper : Nat) : NLLH σ α :=
  { L with shrinker := L.shrinker.setBuffer dim lower upper }

/-- src/teststat/BinnedNLLH.cpp:304-307 -/
def setBufferAsOverflow (L : NLLH σ α) (b : Bool) : NLLH σ α := { L with shrinker := L.shrinker.setUsingOverflows b }

/-- src/teststat/TestStatistic.cpp:50-58 -/
def addSystematic (name : Nat → String) (L : NLLH σ α) (p : Nat) (g : Option String) : Res (NLLH σ α) := do
  let s ← (match g with
    | none => L.sys.add name p
    | some g => L.sys.addTo name p g)
  pure { L with sys := s }

/-- src/teststat/BinnedNLLH.cpp:317-336: the distributions, then every systematic, once per name. -/
def registerFitComponents (name : Nat → String) (L : NLLH σ α) : NLLH σ α :=
  { L with components := .pdfs :: ((L.sys.groups.flatMap (·.2)).foldl (fun (acc : List Nat) p =>
      if name p ∈ acc.map name then acc else acc ++ [p]) []).map .sys }

/-- One component of src/core/ComponentManager.cpp:16-24. -/
def setComponent (C : FitSys σ α) (d : ParamDict α) (L : NLLH σ α) : NllhComponent → NLLH σ α × Res Unit
  | .pdfs => let r := L.pdfs.setParameters d
    ({ L with pdfs := r.1 }, r.2)
  | .sys p => let r := C.setParameters (L.objs p) d
    ({ L with objs := Function.update L.objs p r.1 }, r.2)

/-- The loop of src/core/ComponentManager.cpp:22-23. -/
def setLoop (C : FitSys σ α) (d : ParamDict α) : NLLH σ α → List NllhComponent → NLLH σ α × Res Unit
  | L, [] => (L, .ok ())
  | L, c :: cs =>
    match setComponent C d L c with
    | (L', .ok ()) => setLoop C d L' cs
    | (L', .throw e) => (L', .throw e)
    | (L', .ub) => (L', .ub)

/-- src/teststat/BinnedNLLH.cpp:338-348, src/core/ComponentManager.cpp:16-24 -/
def setParameters (C : FitSys σ α) (L : NLLH σ α) (d : ParamDict α) : NLLH σ α × Res Unit :=
  if d.length = 0 then (L, .ok ()) else setLoop C d L L.components

/-- One component of src/core/ComponentManager.cpp:30-34. -/
def componentParameters (C : FitSys σ α) (L : NLLH σ α) : NllhComponent → Res (ParamDict α)
  | .pdfs => L.pdfs.getParameters
  | .sys p => C.getParameters (L.objs p)

/-- src/teststat/BinnedNLLH.cpp:350-354, src/core/ComponentManager.cpp:26-36 -/
def getParameters (C : FitSys σ α) (L : NLLH σ α) : Res (ParamDict α) :=
  Res.forFold (fun (pd : ParamDict α) c => do
    let d ← L.componentParameters C c
    pure (pd.insertAll d)) [] L.components

/-- src/teststat/BinnedNLLH.cpp:126-134 -/
def binData (L : NLLH σ α) : Res (NLLH σ α) := do
  let o ← at_ L.pdfs.orig 0
  match L.data with
  | none => .ub
  | some d => do
    let (dist, _) ← DistFiller.fillDistLog { o with hist := o.hist.emptyContents } d L.cuts (CutLog.ofNames L.cuts.getCutNames) [] (-1)
    pure { L with dataDist := dist, calculated := true }

/-- src/teststat/BinnedNLLH.cpp:22-27 -/
def shrinkData (L : NLLH σ α) : Res (NLLH σ α) :=
  if L.alreadyShrunk then .ok L
  else do
    let s ← L.shrinker.setBinMap L.dataDist
    let d ← s.shrinkDist L.dataDist
    pure { L with shrinker := s, dataDist := d, alreadyShrunk := true }

/-- src/teststat/BinnedNLLH.cpp:15-35: everything before the loop over bins. -/
def prepare (C : FitSys σ α) (L : NLLH σ α) : Res (NLLH σ α) := do
  Res.throwIf (L.data.isNone ∧ ¬ L.calculated) .logic
  let L ← (if L.calculated then pure L else L.binData)
  let m ← L.pdfs.reassertNorms false
  let L ← shrinkData { L with pdfs := m }
  let (sm, objs) ← L.sys.construct C.toSysClass L.objs
  let m ← L.pdfs.applySystematics sm
  let m ← m.assertDimensions L.dataDist.obs.names
  let m ← m.applyShrink L.shrinker
  pure { L with pdfs := m, sys := sm, objs := objs }

/-- One term of src/teststat/BinnedNLLH.cpp:72-73; division by zero is not finite. -/
def sigma2Step (norms : List α) (rates : List Nat) (prob : α) (s : Fl α) (j : Nat) : Res (Fl α) := do
  let n ← at_ norms j
  let g ← at_ rates j
  pure (Fl.add s (Fl.div n ((g : α) * prob * prob)))

/-- src/teststat/BinnedNLLH.cpp:71-73 -/
def sigma2 (norms : List α) (rates : List Nat) (prob : α) : Res (Fl α) :=
  Res.forFold (sigma2Step norms rates prob) (some 0) (List.range norms.length)

/-- src/teststat/BinnedNLLH.cpp:77-98: the new rate and the penalty. When `sigma2` is not finite neither is `beta` and
`det < 0` is false. When `q` is zero so is `n·sigma2`, `x2` and hence `beta` are not finite. -/
def barlowBeeston (M : CMath α) (n prob : α) (sigma2 : Fl α) : Res (Fl (α × α)) :=
  match sigma2 with
  | none => .ok none
  | some s =>
    let b := prob * s - 1
    let det := b * b + 4 * n * s
    if det < 0 then .throw .oxsx
    else
      match M.sqrt det with
      | none => .ok none
      | some r =>
        let sign : α := if b ≥ 0 then 1 else -1
        let q := -(1 / 2) * (b + sign * r)
        match Fl.div (n * s) q with
        | none => .ok none
        | some x2 =>
          let beta := if q > x2 then q else x2
          match Fl.div ((beta - 1) * (beta - 1)) (2 * s) with
          | none => .ok none
          | some p => .ok (some (beta * prob, p))

/-- src/teststat/BinnedNLLH.cpp:108 -/
def addTerm (M : CMath α) (acc : Fl α) (n : α) (np : Fl (α × α)) : Fl α :=
  match acc, np with
  | some a, some (newProb, penalty) =>
    match M.log newProb with
    | some l => some (a - n * l + penalty + newProb)
    | none => none
  | _, _ => none

/-- One iteration of src/teststat/BinnedNLLH.cpp:46-109: the sum so far and the manager (`BinProbability` changes it). -/
def binStep (M : CMath α) (L : NLLH σ α) (s : Fl α × PdfManager α) (i : Nat) : Res (Fl α × PdfManager α) := do
  let (prob, m) ← s.2.binProbability i
  Res.throwIf (prob = 0) .runtime
  let n ← L.dataDist.hist.getBinContent i
  if L.useBB then do
    let s2 ← sigma2 m.norms L.genRates prob
    let np ← barlowBeeston M n prob s2
    pure (addTerm M s.1 n np, m)
  else pure (addTerm M s.1 n (some (prob, 0)), m)

/-- src/teststat/BinnedNLLH.cpp:12-124: the value and the likelihood object left behind. -/
def evaluate (C : FitSys σ α) (M : CMath α) (L : NLLH σ α) : Res (Fl α × NLLH σ α) := do
  let L ← L.prepare C
  let (v, m) ← Res.forFold (binStep M L) (some 0, L.pdfs) (List.range L.dataDist.hist.nBins)
  let L := { L with pdfs := m }
  let ps ← L.getParameters C
  let c ← L.constraints.evaluate ps
  pure (Fl.add v c, L)

end NLLH
end Oxsx
