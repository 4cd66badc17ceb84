import Verif.Model.MCMCSamples
/-
Model of src/optimise/MCMC.{h,cpp}, src/optimise/MCSampler.h and src/optimise/MetropolisSampler.{h,cpp}.
-/
namespace Oxsx

/-- What an optimiser sees of a test statistic (src/teststat/TestStatistic.h:21-130): the sorted set of its parameter names and, for every
dictionary given to `SetParameters`, the outcome of `SetParameters` followed by `Evaluate`. That this outcome depends on the dictionary
alone, whatever was evaluated before, is the content of C29 and C33 for the binned likelihood. -/
structure TestStat (α : Type) where
  names : List String
  eval : ParamDict α → Res α

/-- One iteration's random inputs: `draw` stands for `fSampler.Draw` followed by `fSampler.CorrectAccParam()` (src/optimise/MCSampler.h:8-9),
any sampler; `unif` is the value of `Rand::Uniform()` (drawn only if needed). -/
structure MCInput (α : Type) where
  draw : ParamDict α → Res (ParamDict α × α)
  unif : α

/-- src/optimise/MCMC.h:63-88. `nGuess` is the number of bins of default histograms, see `MCMCBounds`. -/
structure MCMC (α : Type) where
  logged : Bool
  flip : Bool
  maxIter : Nat
  minima : ParamDict α
  maxima : ParamDict α
  trial : ParamDict α
  nGuess : Nat
  maxVal : α
  curVal : α
  bestFit : ParamDict α
  curStep : ParamDict α
  samples : MCMCSamples α

/-- What `Optimise` returns (src/optimise/MCMC.cpp:205-209). -/
structure MCMCResult (α : Type) where
  bestFit : ParamDict α
  valid : Bool
  extremeVal : α

namespace MCMC
variable {α : Type} [Field α] [LinearOrder α]

/-- src/optimise/MCMC.h:13-22 -/
def new : MCMC α := ⟨false, false, 100000, [], [], [], 0, 0, 0, [], [], .new⟩

/-- `.at(name)` of a `ParameterDict` -/
def dictAt (m : ParamDict α) (n : String) : Res α :=
  match m.find n with
  | some v => .ok v
  | none => .throw .outOfRange

/-- `Evaluate` and the sign flip: src/optimise/MCMC.cpp:174-177, 222-228 -/
def value (m : MCMC α) (t : TestStat α) (p : ParamDict α) : Res α := t.eval p >>= fun v => Res.ok (if m.flip then -v else v)

/-- src/optimise/MCMC.cpp:214-220: false as soon as one coordinate is outside. -/
def inBounds (m : MCMC α) (p : ParamDict α) : List String → Res Bool
  | [] => .ok true
  | n :: ns =>
    dictAt p n >>= fun v => dictAt m.minima n >>= fun lo =>
      if v < lo then .ok false
      else dictAt m.maxima n >>= fun hi => if v > hi then .ok false else inBounds m p ns

/-- src/optimise/MCMC.cpp:236-246. `ex` is the exponential. A ratio with zero denominator is infinite (accepted) or, if the numerator is
zero too, not a number (rejected). -/
def accepts (ex : α → α) (logged : Bool) (prop cur corr u : α) : Bool :=
  if logged then decide (ex (prop - cur + corr) > 1 ∨ ex (prop - cur + corr) ≥ u)
  else if cur = 0 then decide (prop ≠ 0)
  else decide (prop / cur > 1 ∨ prop / cur ≥ u)

/-- src/optimise/MCMC.cpp:230-234 -/
def noteBest (m : MCMC α) : MCMC α := if m.curVal > m.maxVal then { m with maxVal := m.curVal, bestFit := m.curStep } else m

/-- src/optimise/MCMC.cpp:236-254 -/
def decideStep (ex : α → α) (m : MCMC α) (p : ParamDict α) (v corr u : α) : MCMC α × Bool :=
  if accepts ex m.logged v m.curVal corr u then ({ m with curVal := v, curStep := p }, true) else (m, false)

/-- src/optimise/MCMC.cpp:212-255 -/
def stepAccepted (ex : α → α) (m : MCMC α) (t : TestStat α) (p : ParamDict α) (corr u : α) : Res (MCMC α × Bool) :=
  m.inBounds p m.curStep.keys >>= fun b =>
    if b then m.value t p >>= fun v => Res.ok (decideStep ex m.noteBest p v corr u) else Res.ok (m, false)

/-- The parent as seen by its sample store. -/
def bounds (m : MCMC α) : MCMCBounds α := ⟨m.minima, m.maxima, m.nGuess⟩

/-- src/optimise/MCMC.cpp:193-200 (the progress printout every 100000 steps is left out). -/
def iterate (ex : α → α) (t : TestStat α) (m : MCMC α) (i : MCInput α) : Res (MCMC α) :=
  i.draw m.curStep >>= fun d => m.stepAccepted ex t d.1 d.2 i.unif >>= fun r =>
    r.1.samples.fill r.1.bounds r.1.curStep r.1.curVal r.2 >>= fun s => Res.ok { r.1 with samples := s }

/-- src/optimise/MCMC.cpp:161-166 for one name; `operator[]` creates missing bounds as 0. `fCurrentStep` is not cleared first. -/
def randomCoord (r : String → α) (m : MCMC α) (n : String) : MCMC α :=
  let mn := m.minima.insertNew n 0
  let mx := m.maxima.insertNew n 0
  let lo := (mn.find n).getD 0
  let hi := (mx.find n).getD 0
  { m with minima := mn, maxima := mx, curStep := m.curStep.insert n (lo + r n * (hi - lo)) }

/-- src/optimise/MCMC.cpp:156-167 -/
def start (r : String → α) (m : MCMC α) (t : TestStat α) : MCMC α :=
  if m.trial.length ≠ 0 then { m with curStep := m.trial } else t.names.foldl (randomCoord r) m

/-- src/optimise/MCMC.cpp:174-180 -/
def begin_ (m : MCMC α) (t : TestStat α) : Res (MCMC α) :=
  m.value t m.curStep >>= fun v => Res.ok { m with curVal := v, bestFit := m.curStep, maxVal := v }

/-- src/optimise/MCMC.cpp:135-210; `r` gives the random numbers of the starting point, `ins` those of the iterations (the first `maxIter`
are used). -/
def optimise (ex : α → α) (m : MCMC α) (t : TestStat α) (r : String → α) (ins : List (MCInput α)) : Res (MCMC α × MCMCResult α) :=
  if (m.trial.length ≠ t.names.length ∧ m.trial.length ≠ 0) ∨ m.maxima.length ≠ t.names.length ∨ m.minima.length ≠ t.names.length then .throw .logic
  else (m.start r t).begin_ t >>= fun m0 =>
    Res.forFold (iterate ex t) m0 (ins.take m0.maxIter) >>= fun m' => Res.ok (m', ⟨m'.bestFit, true, m'.maxVal⟩)

end MCMC

/-- src/optimise/MetropolisSampler.h:19-22 -/
structure MetropolisSampler (α : Type) where
  sigmas : ParamDict α
  fixed : List String

namespace MetropolisSampler
variable {α : Type} [Field α]

/-- src/optimise/MetropolisSampler.cpp:15-18 -/
def fix (s : MetropolisSampler α) (n : String) : MetropolisSampler α := { s with fixed := if n ∈ s.fixed then s.fixed else n :: s.fixed }

/-- src/optimise/MetropolisSampler.cpp:20-23 -/
def release (s : MetropolisSampler α) (n : String) : MetropolisSampler α := { s with fixed := s.fixed.filter (· ≠ n) }

/-- One iteration of src/optimise/MetropolisSampler.cpp:29-36; `g n sigma` is the Gaussian deviate drawn for parameter `n`. -/
def drawOne (s : MetropolisSampler α) (g : String → α → α) (new : ParamDict α) (p : String × α) : Res (ParamDict α) :=
  if p.1 ∈ s.fixed then .ok (new.insert p.1 p.2)
  else match s.sigmas.find p.1 with
    | some sg => .ok (new.insert p.1 (p.2 + g p.1 sg))
    | none => .throw .outOfRange

/-- src/optimise/MetropolisSampler.cpp:25-38 -/
def draw (s : MetropolisSampler α) (g : String → α → α) (cur : ParamDict α) : Res (ParamDict α) := Res.forFold (s.drawOne g) [] cur

/-- The sampler as used by MCMC, with src/optimise/MetropolisSampler.h:17. -/
def input (s : MetropolisSampler α) (g : String → α → α) (u : α) : MCInput α := ⟨fun c => s.draw g c >>= fun d => Res.ok (d, 0), u⟩

end MetropolisSampler
end Oxsx
