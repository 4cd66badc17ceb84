import Verif.Model.StatisticSum
import Verif.Model.GridSearch
import Verif.Model.Minuit
/-
The optimisers of src/optimise run on a test statistic object: every `SetParameters` and `Evaluate` changes the object, the next one sees it changed.
(`TestStat` in Model/MCMC.lean is a function; here the object itself is called, in the order of the code.)
-/
namespace Oxsx

/-- src/teststat/TestStatistic.h:71-77: the virtual functions an optimiser calls. `GetParameterNames` and `GetParameterCount` are the names and the size of
`GetParameters` (src/core/ComponentManager.cpp:38-47, src/teststat/StatisticSum.cpp:38-42, 55-60). -/
structure FitObject (W α : Type) extends Statistic W α where
  register : W → W

/-- A likelihood by itself: src/teststat/BinnedNLLH.h:36-40. -/
def NLLH.object {σ α : Type} [Field α] [LinearOrder α] (name : Nat → String) (C : FitSys σ α) (M : CMath α) : FitObject (NLLH σ α) α where
  evaluate L := L.evaluate C M
  setParameters L d := L.setParameters C d
  getParameters L := L.getParameters C
  register L := L.registerFitComponents name

/-- A sum of likelihoods at the addresses `ps`: src/teststat/StatisticSum.cpp:44-48. -/
def StatSum.object {ι σ α : Type} [DecidableEq ι] [Field α] [LinearOrder α] (name : Nat → String) (s : StatSum (ι → NLLH σ α) α) (ps : List ι) : FitObject (ι → NLLH σ α) α where
  toStatistic := s.toStatistic
  register h := ps.foldl (fun h p => Function.update h p ((h p).registerFitComponents name)) h

namespace FitObject
variable {W α : Type} [Field α] [LinearOrder α]

/-- `SetParameters` and then `Evaluate`, as in src/optimise/GridSearch.cpp:112-113, src/optimise/MCMC.cpp:174-175, 222-223 and src/optimise/MinuitFCN.cpp:9-14. An infinite
value is not a number the comparisons of the optimisers are modelled for. -/
def ask (O : FitObject W α) (w : W) (p : ParamDict α) : Res (α × W) :=
  (O.setParameters w p).2 >>= fun _ => O.evaluate (O.setParameters w p).1 >>= fun r =>
    match r.1 with
    | some v => .ok (v, r.2)
    | none => .ub

end FitObject

namespace GridSearch
variable {W α : Type} [Field α] [LinearOrder α]

/-- src/optimise/GridSearch.cpp:100-124, as `loop`. -/
def loopOn (g : GridSearch α) (O : FitObject W α) : Nat → W → ParamDict α → α × ParamDict α → Option (Res (((α × ParamDict α) × List (ParamDict α)) × W))
  | 0, _, _, _ => none
  | fuel + 1, w, p, s =>
    match g.increment g.steps.keys 0 g.steps.keys.length p with
    | .ub => some .ub
    | .throw e => some (.throw e)
    | .ok (false, _) => some (.ok ((s, []), w))
    | .ok (true, p') =>
      match O.ask w p' with
      | .ub => some .ub
      | .throw e => some (.throw e)
      | .ok (v, w') => (loopOn g O fuel w' p' (g.consider s p' v)).map (fun r => r >>= fun x => Res.ok ((x.1.1, p' :: x.1.2), x.2))

/-- src/optimise/GridSearch.cpp:48-128: what `Optimise` leaves in the result, the points tried, and the object afterwards. The parameters read at l.55 are not used. -/
def optimiseOn (g : GridSearch α) (O : FitObject W α) (w : W) (fuel : Nat) : Option (Res ((GridResult α × List (ParamDict α)) × W)) :=
  match O.getParameters (O.register w) with
  | .ub => some .ub
  | .throw e => some (.throw e)
  | .ok _ =>
    if g.steps.keys ≠ g.maxima.keys ∨ g.steps.keys ≠ g.minima.keys then some (.throw .logic)
    else match Res.forFold (fun _ q => g.countOne q) () g.minima with
      | .ub => some .ub
      | .throw e => some (.throw e)
      | .ok _ => (g.loopOn O fuel (O.register w) g.minima (0, [])).map (fun r => r >>= fun x => Res.ok ((⟨x.1.1.2, x.1.1.1⟩, x.1.2), x.2))

end GridSearch

namespace MCMC
variable {W α : Type} [Field α] [LinearOrder α]

/-- src/optimise/MCMC.cpp:174-177, 222-228 -/
def valueOn (m : MCMC α) (O : FitObject W α) (w : W) (p : ParamDict α) : Res (α × W) :=
  O.ask w p >>= fun r => Res.ok (if m.flip then -r.1 else r.1, r.2)

/-- src/optimise/MCMC.cpp:212-255 -/
def stepAcceptedOn (ex : α → α) (m : MCMC α) (O : FitObject W α) (w : W) (p : ParamDict α) (corr u : α) : Res ((MCMC α × Bool) × W) :=
  m.inBounds p m.curStep.keys >>= fun b =>
    if b then m.valueOn O w p >>= fun r => Res.ok (decideStep ex m.noteBest p r.1 corr u, r.2) else Res.ok ((m, false), w)

/-- src/optimise/MCMC.cpp:193-200 -/
def iterateOn (ex : α → α) (O : FitObject W α) (m : MCMC α × W) (i : MCInput α) : Res (MCMC α × W) :=
  i.draw m.1.curStep >>= fun d => m.1.stepAcceptedOn ex O m.2 d.1 d.2 i.unif >>= fun r =>
    r.1.1.samples.fill r.1.1.bounds r.1.1.curStep r.1.1.curVal r.1.2 >>= fun s => Res.ok ({ r.1.1 with samples := s }, r.2)

/-- src/optimise/MCMC.cpp:156-167 -/
def startOn (r : String → α) (m : MCMC α) (names : List String) : MCMC α :=
  if m.trial.length ≠ 0 then { m with curStep := m.trial } else names.foldl (randomCoord r) m

/-- src/optimise/MCMC.cpp:174-180 -/
def beginOn (m : MCMC α) (O : FitObject W α) (w : W) : Res (MCMC α × W) :=
  m.valueOn O w m.curStep >>= fun v => Res.ok ({ m with curVal := v.1, bestFit := m.curStep, maxVal := v.1 }, v.2)

/-- src/optimise/MCMC.cpp:135-210 -/
def optimiseOn (ex : α → α) (m : MCMC α) (O : FitObject W α) (w : W) (r : String → α) (ins : List (MCInput α)) : Res ((MCMC α × MCMCResult α) × W) :=
  O.getParameters (O.register w) >>= fun ps =>
    if (m.trial.length ≠ ps.length ∧ m.trial.length ≠ 0) ∨ m.maxima.length ≠ ps.length ∨ m.minima.length ≠ ps.length then .throw .logic
    else (m.startOn r ps.keys).beginOn O (O.register w) >>= fun m0 =>
      Res.forFold (iterateOn ex O) m0 (ins.take m0.1.maxIter) >>= fun m' => Res.ok ((m'.1, ⟨m'.1.bestFit, true, m'.1.maxVal⟩), m'.2)

end MCMC

namespace Minuit
variable {W α : Type} [Field α] [LinearOrder α]

/-- src/optimise/MinuitFCN.cpp:3-15 with the statistic at `pTestStatistic` (not null). `f.stat` is not used. -/
def callOn (f : MinuitFCN α) (O : FitObject W α) (w : W) (vals : List α) : Res ((α × MinuitFCN α) × W) :=
  MinuitFCN.setValues f.cur f.names vals >>= fun d => O.ask w d >>= fun v =>
    Res.ok ((if f.flip then -1 * v.1 else v.1, { f with cur := d }), v.2)

/-- As `MnRun.run`. -/
def runOn (O : FitObject W α) : MnRun α → MinuitFCN α → W → Res ((MnOutcome α × MinuitFCN α × List (List α × α)) × W)
  | .done o, f, w => .ok ((o, f, []), w)
  | .ask x k, f, w => callOn f O w x >>= fun r => runOn O (k r.1.1) r.1.2 r.2 >>= fun s => Res.ok ((s.1.1, s.1.2.1, (x, r.1.1) :: s.1.2.2), s.2)

/-- src/optimise/Minuit.cpp:165-206. `t` only stands for the pointer that `Initialise` keeps. -/
def optimiseOn (m : Minuit α) (O : FitObject W α) (t : TestStat α) (w : W) (mn : MnSetup α → MnRun α) :
    Res ((Minuit α × MinuitResult α × MnSetup α × List (List α × α)) × W) :=
  m.initialise t >>= fun i =>
    O.getParameters (O.register w) >>= fun ps =>
    if ps.keys ≠ m.initErrs.keys then .throw .logic
    else Res.traverse (fixOne m.initErrs.keys) m.fixed >>= fun fx =>
      let su := { i.2 with fixed := fx }
      runOn O (mn su) i.1.fcn (O.register w) >>= fun r =>
      createMap m.initErrs.keys r.1.1.params >>= fun best =>
      covMatrix r.1.1.cov >>= fun c =>
      Res.ok (({ i.1 with fcn := r.1.2.1 }, ⟨best, r.1.1.valid, if m.maximising then -r.1.1.fval else r.1.1.fval, c⟩, su, r.1.2.2), r.2)

end Minuit
end Oxsx
