import Verif.Model.FailedCalls
import Verif.Model.EventDist
/-
Configuration calls, with what they leave behind when they refuse: src/teststat/BinnedNLLH.cpp:147-274,
src/teststat/TestStatistic.cpp:50-74, src/fitutil/BinnedEDManager.cpp:126-164, src/fitutil/EDManager.cpp:12-32,
src/histogram/AxisCollection.cpp:70-88, src/histogram/Histogram.cpp:432-457, src/dist/DistFiller.cpp:9-42 and
src/data/OXSXDataSet.cpp:5-21, 52-59. A call is a pair: the object left behind, and the outcome. Each write is made where
the code makes it, so that what precedes an exception stays.
-/
namespace Oxsx
variable {σ α : Type} [Field α] [LinearOrder α]

/-- src/histogram/AxisCollection.cpp:84-88: one `AddAxis` after the other; `AddAxis` (l.70-82) checks before it writes. -/
def AxisCollection.addAxesLeft (c : AxisCollection α) (as : List (BinAxis α)) : AxisCollection α × Res Unit :=
  Res.forLeft (fun (c : AxisCollection α) a => Res.keep c (c.addAxis a)) c as

namespace Histogram

/-- The loop of src/histogram/Histogram.cpp:432-457, writing bin after bin. -/
def combineLeft (h other : Histogram α) (f : α → α → α) : Histogram α × Res Unit :=
  if !(other.axes.eq h.axes) then (h, .throw .value)
  else Res.forLeft (fun (s : Histogram α) i => Res.keep s (do
    let x ← s.getBinContent i
    let y ← other.getBinContent i
    s.setBinContent i (f x y))) h (List.range h.nBins)

/-- src/histogram/Histogram.cpp:432-439 -/
def addLeft (h other : Histogram α) (w : α) : Histogram α × Res Unit := h.combineLeft other (fun x y => x + y * w)
/-- src/histogram/Histogram.cpp:441-448 -/
def multiplyLeft (h other : Histogram α) : Histogram α × Res Unit := h.combineLeft other (fun x y => x * y)
/-- src/histogram/Histogram.cpp:450-457 -/
def divideLeft (h other : Histogram α) : Histogram α × Res Unit := h.combineLeft other (fun x y => x / y)

end Histogram

namespace DataSet

/-- src/data/OXSXDataSet.cpp:5-21: the number of observables is written before the event is found to be empty. -/
def addEntryLeft (d : DataSet α) (e : Event α) : DataSet α × Res Unit :=
  if d.nObs ≠ 0 ∧ d.nObs ≠ e.obs.length then (d, .throw .dimension)
  else
    let d1 : DataSet α := if d.nObs = 0 then { d with nObs := e.obs.length } else d
    if e.obs.length = 0 then (d1, .throw .dimension)
    else ({ d1 with data := d1.data ++ [e.obs] }, .ok ())

/-- src/data/OXSXDataSet.cpp:52-59, `a + b` for two different objects: `a` afterwards. -/
def plusLeft (a b : DataSet α) : DataSet α × Res Unit :=
  Res.forLeft (fun (a : DataSet α) i =>
    match b.getEntry i with
    | .ok e => a.addEntryLeft e
    | .throw x => (a, .throw x)
    | .ub => (a, .ub)) a (List.range b.getNEntries)

end DataSet

/-- src/dist/DistFiller.cpp:9-24: `Fill` (src/dist/BinnedED.cpp, src/histogram/Histogram.cpp:68-74) checks before it
writes. -/
def DistFiller.fillDistLeft (pdf : BinnedED α) (d : DataSet α) (cuts : CutCollection α) (ss : List (EventSys α)) (nEv : Int) :
    BinnedED α × Res Unit :=
  Res.forLeft (fun (p : BinnedED α) i => Res.keep p (do
    let e ← d.getEntry i
    let ev ← EventSys.applyAll ss e
    let b ← cuts.passesCuts ev
    if b then p.fillEvent ev 1 else pure p)) pdf (List.range (nEvents d nEv).toNat)

namespace EDManager

/-- src/fitutil/EDManager.cpp:72-80: the registered parameters are removed first. -/
def registerParametersLeft (m : EDManager α) : EDManager α × Res Unit :=
  match ParamManager.addContainer [] 0 m.norms.length (m.dists.map (·.name)) with
  | .ok p => ({ m with params := p }, .ok ())
  | .throw e => ({ m with params := [] }, .throw e)
  | .ub => ({ m with params := [] }, .ub)

/-- src/fitutil/EDManager.cpp:12-25 -/
def addDistLeft (m : EDManager α) (d : EDist α) : EDManager α × Res Unit :=
  if m.dists.length ≠ 0 ∧ d.nDims ≠ m.nDims then (m, .throw .dimension)
  else
    let m1 : EDManager α := if m.dists.length = 0 then { m with nDims := d.nDims } else m
    ({ m1 with dists := m1.dists ++ [d], nDists := m1.nDists + 1, norms := resize m1.norms (m1.nDists + 1) 0 } :
      EDManager α).registerParametersLeft

/-- src/fitutil/EDManager.cpp:27-32 -/
def addDistsLeft (m : EDManager α) (ds : List (EDist α)) : EDManager α × Res Unit :=
  Res.andThen (Res.forLeft addDistLeft m ds) (fun m _ => m.registerParametersLeft)

end EDManager

namespace PdfManager

/-- src/fitutil/BinnedEDManager.cpp:280-303: the registered parameters are removed first. -/
def registerParametersLeft (m : PdfManager α) : PdfManager α × Res Unit :=
  match m.paramNames with
  | .throw e => ({ m with params := [] }, .throw e)
  | .ub => ({ m with params := [] }, .ub)
  | .ok names =>
    match (if m.allDirect then ParamManager.addContainer [] 0 m.norms.length names
      else ParamManager.addContainer [] 1 m.fitNorms.length names) with
    | .ok p => ({ m with params := p }, .ok ())
    | .throw e => ({ m with params := [] }, .throw e)
    | .ub => ({ m with params := [] }, .ub)

/-- src/fitutil/BinnedEDManager.cpp:126-142 -/
def addPdfLeft (m : PdfManager α) (pdf : BinnedED α) (st : NormStatus) : PdfManager α × Res Unit :=
  registerParametersLeft
    { m with
      orig := m.orig ++ [pdf]
      work := m.work ++ [pdf]
      norms := resize m.norms (m.orig.length + 1) 0
      status := m.status ++ [st]
      fitNorms := if st.fittable then m.fitNorms ++ [0] else m.fitNorms
      allDirect := if st ≠ .direct then false else m.allDirect }

/-- One iteration of src/fitutil/BinnedEDManager.cpp:152-162. -/
def addPdfsStep (pdfs : List (BinnedED α)) (sts : Option (List NormStatus)) (m : PdfManager α) (i : Nat) : PdfManager α × Res Unit :=
  match at_ pdfs i, (match sts with
    | none => Res.ok NormStatus.indirect
    | some s => at_ s i) with
  | .ok p, .ok st => m.addPdfLeft p st
  | .ub, _ => (m, .ub)
  | _, .ub => (m, .ub)
  | _, _ => (m, .throw .outOfRange)

/-- src/fitutil/BinnedEDManager.cpp:144-164; `sts = none` when no statuses are given, which are then those of
src/fitutil/BinnedEDManager.h:27. -/
def addPdfsLeft (m : PdfManager α) (pdfs : List (BinnedED α)) (sts : Option (List NormStatus)) : PdfManager α × Res Unit :=
  if (∃ s, sts = some s ∧ pdfs.length ≠ s.length) then (m, .throw .dimension)
  else Res.andThen (Res.forLeft (addPdfsStep pdfs sts) m (List.range pdfs.length)) (fun m _ => m.registerParametersLeft)

end PdfManager

namespace NLLH

/-- The four overloads of src/teststat/BinnedNLLH.cpp:238-274: `groups = none` for those without groups, `rate = none` for those
without a generated rate. The distribution is added before the groups are looked up. -/
def addPdfLeft (name : Nat → String) (L : NLLH σ α) (pdf : BinnedED α) (groups : Option (List String)) (rate : Option Int)
    (st : NormStatus) : NLLH σ α × Res Unit :=
  if rate = none ∧ L.useBB then (L, .throw .oxsx)
  else
    let r := L.pdfs.addPdfLeft pdf st
    Res.andThen ({ L with pdfs := r.1 }, r.2) (fun (L : NLLH σ α) _ =>
      match L.sys.addDist name pdf.name (groups.getD [""]) with
      | .throw e => (L, .throw e)
      | .ub => (L, .ub)
      | .ok s => ({ L with sys := s, genRates := match rate with
          | some r => L.genRates ++ [toUInt32 r]
          | none => L.genRates }, .ok ()))

/-- The `i`-th argument of a call whose list may be left out. -/
def argAt {β : Type} (l : Option (List β)) (i : Nat) : Res (Option β) :=
  match l with
  | none => .ok none
  | some l => do
    let b ← at_ l i
    pure (some b)

/-- The body of the loops of src/teststat/BinnedNLLH.cpp:161-171, 183-193, 205-215, 225-235: every argument is read with `.at`
before the call is made; a status that is not given is that of src/teststat/BinnedNLLH.h:30-33. -/
def addPdfsStep (name : Nat → String) (pdfs : List (BinnedED α)) (syss : Option (List (List String)))
    (rates : Option (List Int)) (sts : Option (List NormStatus)) (L : NLLH σ α) (i : Nat) : NLLH σ α × Res Unit :=
  match (do
    let p ← at_ pdfs i
    let g ← argAt syss i
    let r ← argAt rates i
    let st ← argAt sts i
    pure (p, g, r, st)) with
  | .throw e => (L, .throw e)
  | .ub => (L, .ub)
  | .ok a => L.addPdfLeft name a.1 a.2.1 a.2.2.1 (a.2.2.2.getD .indirect)

/-- The four overloads of src/teststat/BinnedNLLH.cpp:147-236. The generated rates are never counted, and the overload with
groups and rates does not count the statuses. -/
def addPdfs (name : Nat → String) (L : NLLH σ α) (pdfs : List (BinnedED α)) (syss : Option (List (List String)))
    (rates : Option (List Int)) (sts : Option (List NormStatus)) : NLLH σ α × Res Unit :=
  if rates = none ∧ L.useBB then (L, .throw .oxsx)
  else if (∃ s, syss = some s ∧ pdfs.length ≠ s.length) then (L, .throw .dimension)
  else if ¬ (syss.isSome ∧ rates.isSome) ∧ (∃ s, sts = some s ∧ pdfs.length ≠ s.length) then (L, .throw .dimension)
  else Res.forLeft (addPdfsStep name pdfs syss rates sts) L (List.range pdfs.length)

/-- src/teststat/TestStatistic.cpp:50-58, src/fitutil/SystematicManager.cpp:56-73 -/
def addSystematicLeft (name : Nat → String) (L : NLLH σ α) (p : Nat) (g : Option String) : NLLH σ α × Res Unit :=
  Res.keep L (L.addSystematic name p g)

/-- src/teststat/TestStatistic.cpp:60-74; `gs = none` for the overload without groups. -/
def addSystematics (name : Nat → String) (L : NLLH σ α) (ps : List Nat) (gs : Option (List String)) : NLLH σ α × Res Unit :=
  match gs with
  | none => Res.forLeft (fun (L : NLLH σ α) p => L.addSystematicLeft name p none) L ps
  | some gs =>
    if gs.length ≠ ps.length then (L, .throw .dimension)
    else Res.forLeft (fun (L : NLLH σ α) i =>
      match (do
        let p ← at_ ps i
        let g ← at_ gs i
        pure (p, g)) with
      | .throw e => (L, .throw e)
      | .ub => (L, .ub)
      | .ok a => L.addSystematicLeft name a.1 (some a.2)) L (List.range ps.length)

end NLLH
end Oxsx
