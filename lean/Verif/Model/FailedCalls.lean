import Verif.Model.BinnedNLLH
/-
What the calls of an evaluation leave behind, also when they throw: the model of src/teststat/BinnedNLLH.cpp:12-124 and of the calls
it makes (src/fitutil/BinnedEDManager.cpp, src/fitutil/SystematicManager.cpp, src/fitutil/BinnedEDShrinker.cpp) in which every
member written before the exception keeps what was written. A call is a pair: the object left behind, and the outcome. After
undefined behaviour the object means nothing. The models that forget the object of a failed call are in the files those of
these calls are named after; `done` forgets it.
-/
namespace Oxsx

namespace Res
variable {S A B ι : Type}

/-- The object after a call whose only write to it is its last action. -/
def keep (s : S) : Res S → S × Res Unit
  | .ok s' => (s', .ok ())
  | .throw e => (s, .throw e)
  | .ub => (s, .ub)

/-- A loop stopped by the first exception. -/
def forLeft (f : S → ι → S × Res Unit) : S → List ι → S × Res Unit
  | s, [] => (s, .ok ())
  | s, i :: is =>
    match f s i with
    | (s', .ok ()) => forLeft f s' is
    | (s', .throw e) => (s', .throw e)
    | (s', .ub) => (s', .ub)

/-- A call, then another unless the first threw. -/
def andThen (r : S × Res A) (k : S → A → S × Res B) : S × Res B :=
  match r.2 with
  | .ok a => k r.1 a
  | .throw e => (r.1, .throw e)
  | .ub => (r.1, .ub)

/-- Computing the elements of a list up to the first exception. -/
def mapLeft (f : A → Res B) : List A → List B × Res Unit
  | [] => ([], .ok ())
  | a :: as =>
    match f a with
    | .ok b => let r := mapLeft f as
      (b :: r.1, r.2)
    | .throw e => ([], .throw e)
    | .ub => ([], .ub)

/-- Replacing the elements of a list one by one up to the first exception. -/
def replaceLeft (f : A → Res A) : List A → List A × Res Unit
  | [] => ([], .ok ())
  | a :: as =>
    match f a with
    | .ok b => let r := replaceLeft f as
      (b :: r.1, r.2)
    | .throw e => (a :: as, .throw e)
    | .ub => (a :: as, .ub)

/-- The outcome without the object of a call that failed. -/
def done (r : S × Res Unit) : Res S :=
  match r.2 with
  | .ok _ => .ok r.1
  | .throw e => .throw e
  | .ub => .ub

/-- The same for a call that returns a value. -/
def doneV (r : S × Res A) : Res (A × S) :=
  match r.2 with
  | .ok a => .ok (a, r.1)
  | .throw e => .throw e
  | .ub => .ub

end Res

section
variable {α : Type} [Field α] [LinearOrder α] {σ : Type}

namespace PdfManager

/-- src/fitutil/BinnedEDManager.cpp:305-325 -/
def reassertNormsLeft (m : PdfManager α) (binprob : Bool) : PdfManager α × Res Unit :=
  if m.allDirect then (m, .ok ())
  else
    let r := Res.forLeft (fun s i => Res.keep s (m.reassertStep binprob s i)) (m.norms, 0) (List.range m.norms.length)
    ({ m with norms := r.1.1 }, r.2)

/-- src/fitutil/BinnedEDManager.cpp:49-82 -/
def binProbabilityLeft (m : PdfManager α) (bin : Nat) : PdfManager α × Res α :=
  Res.andThen (m.reassertNormsLeft true) (fun m _ => (m, do
    let (sum, _) ← Res.mapExc (fun e => if e = .outOfRange then .logic else e)
      (Res.forFold (m.probStep (fun w => w.hist.getBinContent bin)) (0, 0) (List.range m.work.length))
    pure sum))

end PdfManager

namespace SysManager

/-- src/fitutil/SystematicManager.cpp:156-179: the working distribution is a copy of the original, then changed by one group after
the other. -/
def distortLeft (m : SysManager α) (orig : BinnedED α) (gs : List String) : BinnedED α × Res Unit :=
  match m.groupAt "" with
  | .throw e => (orig, .throw e)
  | .ub => (orig, .ub)
  | .ok gl =>
    Res.andThen (if "" ∉ gs ∧ gl.length ≠ 0 then Res.keep orig (m.applyGroup orig "") else (orig, .ok ()))
      (fun w _ => Res.forLeft (fun (w : BinnedED α) g => Res.keep w (
        if g = "" ∧ gl.length = 0 then pure w
        else do
          let l ← m.groupAt g
          Res.throwIf (l.length = 0) .logic
          m.applyGroup w g)) w gs)

/-- One iteration of src/fitutil/SystematicManager.cpp:149-184. -/
def distortStepLeft (m : SysManager α) (orig : List (BinnedED α)) (s : List (BinnedED α) × Option (List α)) (j : Nat) :
    (List (BinnedED α) × Option (List α)) × Res Unit :=
  match at_ orig j with
  | .throw e => (s, .throw e)
  | .ub => (s, .ub)
  | .ok o =>
    match SMap.find m.edGroups o.name with
    | none => (s, .ok ())
    | some gs =>
      let r := m.distortLeft o gs
      Res.andThen ((s.1.set j r.1, s.2), r.2) (fun s' _ => Res.keep s' (do
        let work ← setIdx s.1 j r.1
        match s.2 with
        | none => pure (work, none)
        | some ns => do
          let ns ← setIdx ns j r.1.hist.integral
          pure (work, some ns)))

/-- src/fitutil/SystematicManager.cpp:145-185 -/
def distortEDsLeft (m : SysManager α) (orig work : List (BinnedED α)) (norms : Option (List α)) :
    (List (BinnedED α) × Option (List α)) × Res Unit :=
  Res.forLeft (m.distortStepLeft orig) (work, norms) (List.range work.length)

/-- src/fitutil/SystematicManager.cpp:16-23; `fail s` is what a call of `Construct` that throws leaves of the systematic `s`. -/
def constructAllLeft (C : SysClass σ α) (fail : σ → σ) (m : SysManager α) (h : Nat → σ) : (Nat → σ) × Res Unit :=
  Res.forLeft (fun (h : Nat → σ) (g : String × List Nat) =>
    Res.forLeft (fun (h : Nat → σ) p =>
      match C.construct (h p) with
      | .ok s => (Function.update h p s, .ok ())
      | .throw e => (Function.update h p (fail (h p)), .throw e)
      | .ub => (h, .ub)) h g.2) h m.groups

/-- src/fitutil/SystematicManager.cpp:9-40 -/
def constructLeft (C : SysClass σ α) (fail : σ → σ) (m : SysManager α) (h : Nat → σ) : (SysManager α × (Nat → σ)) × Res Unit :=
  if m.countSystematics = 0 then ((m, h), .ok ())
  else
    let r := m.constructAllLeft C fail h
    Res.andThen ((m, r.1), r.2) (fun (s : SysManager α × (Nat → σ)) _ =>
      let q := Res.forLeft (fun (rs : SMap (Matrix' α)) (g : String × List Nat) => Res.keep rs (
        if g.1 = "" ∧ g.2.length = 0 then pure rs
        else do
          let r ← groupResponse C s.2 g.2
          pure (rs.insert g.1 r))) s.1.responses s.1.groups
      (({ s.1 with responses := q.1 }, s.2), q.2))

end SysManager

namespace PdfManager

/-- src/fitutil/BinnedEDManager.cpp:91-118 -/
def applySystematicsLeft (m : PdfManager α) (sm : SysManager α) : PdfManager α × Res Unit :=
  if sm.countSystematics = 0 then (m, .ok ())
  else if m.allDirect then
    let r := sm.distortEDsLeft m.orig m.work none
    ({ m with work := r.1.1 }, r.2)
  else
    let r := sm.distortEDsLeft m.orig m.work (some (List.replicate m.norms.length 0))
    Res.andThen ({ m with work := r.1.1 }, r.2) (fun (m' : PdfManager α) _ =>
      let q := Res.forLeft (fun acc i => Res.keep acc (m.sysNormStep (r.1.2.getD []) acc i)) m'.norms
        (List.range (r.1.2.getD []).length)
      ({ m' with norms := q.1 }, q.2))

/-- src/fitutil/BinnedEDManager.cpp:327-342 -/
def assertDimensionsLeft (m : PdfManager α) (obs : List String) : PdfManager α × Res Unit :=
  let r := Res.replaceLeft (fun (d : BinnedED α) => if d.obs.names ≠ obs then d.marginalise obs else pure d) m.work
  ({ m with work := r.1 }, r.2)

/-- One iteration of src/fitutil/BinnedEDManager.cpp:196-223: the shrunk distribution is stored before its status is looked up. -/
def shrinkStepLeft (s : Shrinker α) (m : PdfManager α) (i : Nat) : PdfManager α × Res Unit :=
  match (do
    let w ← at_ m.work i
    let w' ← s.shrinkDist w
    let ws ← setIdx m.work i w'
    pure (w, w', ws) : Res (BinnedED α × BinnedED α × List (BinnedED α))) with
  | .throw e => (m, .throw e)
  | .ub => (m, .ub)
  | .ok (w, w', ws) =>
    Res.keep { m with work := ws } (do
      let st ← at_ m.status i
      match st with
      | .direct => do
        let ws ← setIdx ws i { w' with hist := w'.hist.normalise }
        pure { m with work := ws }
      | .off => do
        let ns ← setIdx m.norms i w'.hist.integral
        pure { m with work := ws, norms := ns }
      | .indirect => do
        let o ← idx m.norms i
        let ns ← setIdx m.norms i
          (if w.hist.integral = 0 ∧ w'.hist.integral = 0 then 0
           else o * (w'.hist.integral / w.hist.integral))
        pure { m with work := ws, norms := ns })

/-- src/fitutil/BinnedEDManager.cpp:172-224 -/
def applyShrinkLeft (m : PdfManager α) (s : Shrinker α) : PdfManager α × Res Unit :=
  if s.buffers = [] then (m, .ok ())
  else
    match (do
      let w0 ← at_ m.work 0
      let o0 ← at_ m.orig 0
      if (w0.hist.nBins : Int) = (o0.hist.nBins : Int) -
          (((s.buffers.map (fun (p : String × (Nat × Nat)) => p.2.1 + p.2.2)).sum : Nat) : Int) then pure false
      else if w0.hist.nBins ≠ o0.hist.nBins then .throw .dimension
      else pure true : Res Bool) with
    | .throw e => (m, .throw e)
    | .ub => (m, .ub)
    | .ok false => (m, .ok ())
    | .ok true => Res.forLeft (shrinkStepLeft s) m (List.range m.work.length)

end PdfManager

namespace Shrinker

/-- src/fitutil/BinnedEDShrinker.cpp:94-130 for one bin: the flag is appended first (and taken back when an index falls in a
buffer), the bin number last. -/
def binEntryLeft (s : Shrinker α) (dist : BinnedED α) (c : AxisCollection α) (v : List Int × List Bool) (i : Nat) :
    (List Int × List Bool) × Res Unit :=
  let ks := Res.mapLeft (fun j => do
    let a ← dist.hist.axes.getAxis j
    let old ← dist.hist.axes.unflattenIndex i j
    let b ← c.getAxis j
    pure (s.newIndex a.name b.nBins old)) (List.range dist.hist.nDims)
  Res.andThen ((v.1, v.2 ++ [ks.1.all (·.2)]), ks.2) (fun (v : List Int × List Bool) _ => Res.keep v (do
    let newBin ← c.flattenIndices (ks.1.map (·.1))
    pure (v.1 ++ [Int.bmod newBin (2 ^ 32)], v.2)))

/-- src/fitutil/BinnedEDShrinker.cpp:64-131 (undefined where `setBinMap` is): the new axes are added one by one to the member. -/
def setBinMapLeft (s : Shrinker α) (dist : BinnedED α) : Shrinker α × Res Unit :=
  if s.buffers = [] then (s, .ok ())
  else
    let r := Res.forLeft (fun c i => Res.keep c (s.axisStep dist c i)) s.newAxes (List.range dist.hist.nDims)
    Res.andThen ({ s with newAxes := r.1 }, r.2) (fun (s' : Shrinker α) _ =>
      if s.binVec ≠ [] then (s', .ub)
      else
        let q := Res.forLeft (s.binEntryLeft dist r.1) ([], []) (List.range dist.hist.nBins)
        ({ s' with binVec := q.1.1, useContent := q.1.2 }, q.2))

end Shrinker

/-- src/dist/DistFiller.cpp:26-42 without event systematics: the distribution is filled event by event. -/
def DistFiller.fillDistLogLeft (pdf : BinnedED α) (d : DataSet α) (cuts : CutCollection α) (log : CutLog) :
    (BinnedED α × CutLog) × Res Unit :=
  Res.forLeft (fun (p : BinnedED α × CutLog) i => Res.keep p (do
    let e ← d.getEntry i
    let ev ← EventSys.applyAll [] e
    let c ← cuts.passesCutsLog ev p.2
    if c.1 then do
      let q ← p.1.fillEvent ev 1
      pure (q, c.2)
    else pure (p.1, c.2))) (pdf, log) (List.range (DistFiller.nEvents d (-1)).toNat)

namespace NLLH

/-- src/teststat/BinnedNLLH.cpp:126-134, src/dist/DistFiller.cpp:26-42: the data distribution is filled in place, and known to be
filled only at the end. -/
def binDataLeft (L : NLLH σ α) : NLLH σ α × Res Unit :=
  match at_ L.pdfs.orig 0 with
  | .throw e => (L, .throw e)
  | .ub => (L, .ub)
  | .ok o =>
    match L.data with
    | none => (L, .ub)
    | some d =>
      let r := DistFiller.fillDistLogLeft { o with hist := o.hist.emptyContents } d L.cuts (CutLog.ofNames L.cuts.getCutNames)
      Res.andThen ({ L with dataDist := r.1.1 }, r.2) (fun (L : NLLH σ α) _ => ({ L with calculated := true }, .ok ()))

/-- src/teststat/BinnedNLLH.cpp:22-27 -/
def shrinkDataLeft (L : NLLH σ α) : NLLH σ α × Res Unit :=
  if L.alreadyShrunk then (L, .ok ())
  else
    let r := L.shrinker.setBinMapLeft L.dataDist
    Res.andThen ({ L with shrinker := r.1 }, r.2) (fun (L : NLLH σ α) _ => Res.keep L (do
      let d ← L.shrinker.shrinkDist L.dataDist
      pure { L with dataDist := d, alreadyShrunk := true }))

/-- A call on the manager of distributions. -/
def onPdfs (L : NLLH σ α) {A : Type} (r : PdfManager α × Res A) : NLLH σ α × Res A := ({ L with pdfs := r.1 }, r.2)

/-- src/teststat/BinnedNLLH.cpp:15-35 -/
def prepareLeft (C : FitSys σ α) (fail : σ → σ) (L : NLLH σ α) : NLLH σ α × Res Unit :=
  if L.data.isNone ∧ ¬ L.calculated then (L, .throw .logic)
  else
    Res.andThen (if L.calculated then (L, .ok ()) else L.binDataLeft) fun L _ =>
    Res.andThen (L.onPdfs (L.pdfs.reassertNormsLeft false)) fun L _ =>
    Res.andThen L.shrinkDataLeft fun L _ =>
    Res.andThen (let r := L.sys.constructLeft C.toSysClass fail L.objs
      ({ L with sys := r.1.1, objs := r.1.2 }, r.2)) fun (L : NLLH σ α) _ =>
    Res.andThen (L.onPdfs (L.pdfs.applySystematicsLeft L.sys)) fun L _ =>
    Res.andThen (L.onPdfs (L.pdfs.assertDimensionsLeft L.dataDist.obs.names)) fun L _ =>
    L.onPdfs (L.pdfs.applyShrinkLeft L.shrinker)

/-- One iteration of src/teststat/BinnedNLLH.cpp:46-109. -/
def binStepLeft (M : CMath α) (L : NLLH σ α) (s : Fl α × PdfManager α) (i : Nat) : (Fl α × PdfManager α) × Res Unit :=
  let r := s.2.binProbabilityLeft i
  Res.andThen ((s.1, r.1), r.2) (fun (s : Fl α × PdfManager α) prob => Res.keep s (do
    Res.throwIf (prob = 0) .runtime
    let n ← L.dataDist.hist.getBinContent i
    if L.useBB then do
      let s2 ← sigma2 s.2.norms L.genRates prob
      let np ← barlowBeeston M n prob s2
      pure (addTerm M s.1 n np, s.2)
    else pure (addTerm M s.1 n (some (prob, 0)), s.2)))

/-- src/teststat/BinnedNLLH.cpp:12-124: the likelihood object left behind by an evaluation, whether it returns a value or throws, and
the outcome. -/
def evaluateLeft (C : FitSys σ α) (fail : σ → σ) (M : CMath α) (L : NLLH σ α) : NLLH σ α × Res (Fl α) :=
  Res.andThen (L.prepareLeft C fail) fun L _ =>
    let r := Res.forLeft (binStepLeft M L) (some 0, L.pdfs) (List.range L.dataDist.hist.nBins)
    Res.andThen ({ L with pdfs := r.1.2 }, r.2) fun (L : NLLH σ α) _ => (L, do
      let ps ← L.getParameters C
      let c ← L.constraints.evaluate ps
      pure (Fl.add r.1.1 c))

end NLLH
end
end Oxsx
