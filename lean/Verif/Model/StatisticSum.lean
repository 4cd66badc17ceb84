import Verif.Model.BinnedNLLH
/-
Model of src/teststat/StatisticSum.{h,cpp}. Statistics are objects in a world `W`: a `TestStatistic &` is what its virtual functions do
to the world.
-/
namespace Oxsx

/-- src/teststat/TestStatistic.h:71-73: the virtual functions of one statistic. -/
structure Statistic (W α : Type) where
  evaluate : W → Res (Fl α × W)
  setParameters : W → ParamDict α → W × Res Unit
  getParameters : W → Res (ParamDict α)

/-- src/teststat/StatisticSum.h:29-30 and the constraints of src/teststat/TestStatistic.h:82. -/
structure StatSum (W α : Type) where
  stats : List (Statistic W α)
  constraints : ConstraintManager α

namespace StatSum
variable {W α : Type} [Field α] [LinearOrder α]

/-- src/teststat/StatisticSum.h:14 -/
def new : StatSum W α := ⟨[], .empty⟩

/-- src/teststat/StatisticSum.cpp:50-53 -/
def addStat (s : StatSum W α) (t : Statistic W α) : StatSum W α := { s with stats := s.stats ++ [t] }

/-- src/teststat/StatisticSum.cpp:26-36 -/
def getParameters (s : StatSum W α) (w : W) : Res (ParamDict α) :=
  Res.forFold (fun (pd : ParamDict α) (t : Statistic W α) => do
    let d ← t.getParameters w
    pure (pd.insertAll d)) [] s.stats

/-- src/teststat/StatisticSum.cpp:14-15 -/
def evaluateParts (s : StatSum W α) (w : W) : Res (Fl α × W) :=
  Res.forFold (fun (a : Fl α × W) (t : Statistic W α) => do
    let (v, w) ← t.evaluate a.2
    pure (Fl.add a.1 v, w)) (some 0, w) s.stats

/-- src/teststat/StatisticSum.cpp:10-18 -/
def evaluate (s : StatSum W α) (w : W) : Res (Fl α × W) := do
  let (v, w) ← s.evaluateParts w
  let ps ← s.getParameters w
  let c ← s.constraints.evaluate ps
  pure (Fl.add v c, w)

/-- The loop of src/teststat/StatisticSum.cpp:22-23: an exception leaves the earlier statistics set. -/
def setLoop (d : ParamDict α) : W → List (Statistic W α) → W × Res Unit
  | w, [] => (w, .ok ())
  | w, t :: ts =>
    match t.setParameters w d with
    | (w, .ok ()) => setLoop d w ts
    | (w, .throw e) => (w, .throw e)
    | (w, .ub) => (w, .ub)

/-- src/teststat/StatisticSum.cpp:20-24 -/
def setParameters (s : StatSum W α) (w : W) (d : ParamDict α) : W × Res Unit := setLoop d w s.stats

/-- src/teststat/StatisticSum.cpp:38-42 -/
def getParameterNames (s : StatSum W α) (w : W) : Res (List String) := do
  let ps ← s.getParameters w
  pure ps.keys

/-- src/teststat/StatisticSum.cpp:55-60 -/
def getParameterCount (s : StatSum W α) (w : W) : Res Nat := do
  let ps ← s.getParameters w
  pure ps.length

/-- A sum is a statistic itself. -/
def toStatistic (s : StatSum W α) : Statistic W α := ⟨s.evaluate, s.setParameters, s.getParameters⟩

/-- src/teststat/StatisticSum.cpp:64-67 -/
def plus (t u : Statistic W α) : StatSum W α := (new.addStat t).addStat u

/-- src/teststat/StatisticSum.cpp:69-74: the copy keeps the constraints of the sum. -/
def plusStat (s : StatSum W α) (t : Statistic W α) : StatSum W α := s.addStat t

/-- src/teststat/StatisticSum.cpp:80-86 -/
def sum (ts : List (Statistic W α)) : StatSum W α := ts.foldl addStat new

end StatSum

/-- The likelihood at address `p` of a heap of likelihoods: src/teststat/BinnedNLLH.h:36-40. -/
def NLLH.statistic {ι σ α : Type} [DecidableEq ι] [Field α] [LinearOrder α] (C : FitSys σ α) (M : CMath α) (p : ι) :
    Statistic (ι → NLLH σ α) α where
  evaluate h := do
    let (v, L) ← (h p).evaluate C M
    pure (v, Function.update h p L)
  setParameters h d :=
    let r := (h p).setParameters C d
    (Function.update h p r.1, r.2)
  getParameters h := (h p).getParameters C

end Oxsx
