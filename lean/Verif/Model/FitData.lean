import Verif.Model.BinnedNLLH
/-
The cuts of a likelihood and the log of how its data passed them.
-/
namespace Oxsx.NLLH
variable {σ α : Type} [Field α] [LinearOrder α]

/-- src/teststat/TestStatistic.cpp:130-133 -/
def addCut (L : NLLH σ α) (c : Cut α) : NLLH σ α := { L with cuts := L.cuts.addCut c }

/-- src/teststat/TestStatistic.cpp:135-138 -/
def setCuts (L : NLLH σ α) (cs : CutCollection α) : NLLH σ α := { L with cuts := cs }

/-- src/teststat/TestStatistic.cpp:140-143 -/
def getCuts (L : NLLH σ α) : CutCollection α := L.cuts

/-- src/teststat/BinnedNLLH.cpp:126-134 with the log it stores in l.133 (src/teststat/TestStatistic.cpp:162-165). -/
def binDataLog (L : NLLH σ α) : Res (NLLH σ α × CutLog) := do
  let o ← at_ L.pdfs.orig 0
  match L.data with
  | none => .ub
  | some d => do
    let (dist, lg) ← DistFiller.fillDistLog { o with hist := o.hist.emptyContents } d L.cuts (CutLog.ofNames L.cuts.getCutNames) [] (-1)
    pure ({ L with dataDist := dist, calculated := true }, lg)

/-- src/teststat/BinnedNLLH.cpp:12-124 with the stored log before and after (src/teststat/TestStatistic.cpp:156-160 returns it): only
l.17-19 touch it. -/
def evaluateLog (C : FitSys σ α) (M : CMath α) (L : NLLH σ α) (lg : CutLog) : Res (Fl α × NLLH σ α × CutLog) := do
  Res.throwIf (L.data.isNone ∧ ¬ L.calculated) .logic
  let (L, lg) ← (if L.calculated then pure (L, lg) else L.binDataLog)
  let (v, L) ← L.evaluate C M
  pure (v, L, lg)

end Oxsx.NLLH
