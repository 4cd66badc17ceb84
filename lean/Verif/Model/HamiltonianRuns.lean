import Verif.Model.OptimiserRuns
import Verif.Model.LeapFrog
/-
The Hamiltonian sampler of src/optimise on a test statistic object: the gradients it takes call `SetParameters` and `Evaluate` on the object that the Markov chain
also calls, in the order of the code.
-/
namespace Oxsx
variable {W α : Type} [Field α] [LinearOrder α]

/-- src/optimise/HamiltonianSampler.hpp:8-9 with src/optimise/Gradient.h:9-10, 14: the gradient keeps a reference to a statistic, which is the object itself or
(`negate`) the negative energy of src/optimise/HMCEnergy.hpp:1-12 around it. -/
def FitObject.askEnergy (O : FitObject W α) (negate : Bool) (w : W) (p : ParamDict α) : Res (α × W) :=
  O.ask w p >>= fun r => Res.ok (if negate then -r.1 else r.1, r.2)

/-- One iteration of src/optimise/Gradient.hpp:9-24 on the object. -/
def gradientOneOn (O : FitObject W α) (negate : Bool) (h : α) (x0 : ParamDict α) (s : ParamDict α × W) (p : String × α) : Res (ParamDict α × W) :=
  O.askEnergy negate s.2 (x0.insert p.1 (p.2 + h)) >>= fun hi => O.askEnergy negate hi.2 (x0.insert p.1 (p.2 - h)) >>= fun lo =>
    Res.ok (s.1.insert p.1 ((hi.1 - lo.1) / 2 / h), lo.2)

/-- src/optimise/Gradient.hpp:3-27 on the object. -/
def gradientOn (O : FitObject W α) (negate : Bool) (h : α) (w : W) (x0 : ParamDict α) : Res (ParamDict α × W) :=
  Res.forFold (gradientOneOn O negate h x0) ([], w) x0

namespace LeapFrog

/-- A differentiator that changes the object: `differ_(qs_)`, src/optimise/LeapFrog.hpp:8. -/
abbrev DifferOn (W α : Type) := W → ParamDict α → Res (ParamDict α × W)

/-- src/optimise/LeapFrog.hpp:33-46, as `midStep`. -/
def midStepOn (masses : ParamDict α) (e : α) (d : DifferOn W α) (last : Bool) (s : (ParamDict α × ParamDict α) × W) : Res ((ParamDict α × ParamDict α) × W) :=
  drift e masses s.1.1 s.1.2 >>= fun r => if last then Res.ok (r, s.2) else d s.2 r.1 >>= fun g => Res.ok ((r.1, kick e g.1 r.2), g.2)

/-- src/optimise/LeapFrog.hpp:22-52, as `nSteps`. -/
def nStepsOn (masses : ParamDict α) (e : α) (d : DifferOn W α) (n : Nat) (w : W) (s : ParamDict α × ParamDict α) : Res ((ParamDict α × ParamDict α) × W) :=
  d w s.1 >>= fun g =>
  Res.forFold (fun s (i : Nat) => midStepOn masses e d (decide (i = n - 1)) s) ((s.1, kick (e / 2) g.1 s.2), g.2) (List.range n) >>= fun r =>
  d r.2 r.1.1 >>= fun g => Res.ok ((r.1.1, kick (e / 2) g.1 r.1.2), g.2)

/-- src/optimise/LeapFrog.hpp:64-104, as `reflectStep`; the walls are found without the object. -/
def reflectStepOn (masses minima maxima : ParamDict α) (e : α) (d : DifferOn W α) (fuel : Nat) (w : W) (s : ParamDict α × ParamDict α) :
    Res (Option (ParamDict α × ParamDict α) × W) :=
  d w s.1 >>= fun g => reflectDrift masses minima maxima e fuel (s.1, kick (e / 2) g.1 s.2) >>= fun
    | none => Res.ok (none, g.2)
    | some r => d g.2 r.1 >>= fun g => Res.ok (some (r.1, kick (e / 2) g.1 r.2), g.2)

/-- src/optimise/LeapFrog.hpp:54-105, as `reflectSteps`. -/
def reflectStepsOn (masses minima maxima : ParamDict α) (e : α) (d : DifferOn W α) (fuel : Nat) : Nat → W → ParamDict α × ParamDict α → Res (Option (ParamDict α × ParamDict α) × W)
  | 0, w, s => Res.ok (some s, w)
  | n + 1, w, s => reflectStepOn masses minima maxima e d fuel w s >>= fun r =>
    match r.1 with
    | none => Res.ok (none, r.2)
    | some x => reflectStepsOn masses minima maxima e d fuel n r.2 x

end LeapFrog

namespace HamiltonianSampler

/-- src/optimise/HamiltonianSampler.hpp:9: the differentiator on the object. `s.stat` is not used. -/
def differOn (s : HamiltonianSampler α) (O : FitObject W α) (negate : Bool) : LeapFrog.DifferOn W α := gradientOn O negate (s.eps * 5 / 100)

/-- src/optimise/HamiltonianSampler.hpp:32-37 on the object. -/
def evolveOn (s : HamiltonianSampler α) (O : FitObject W α) (negate : Bool) (fuel : Nat) (w : W) (x : ParamDict α × ParamDict α) : Res (Option (ParamDict α × ParamDict α) × W) :=
  if s.minima.length ≠ 0 ∧ s.maxima.length ≠ 0 then LeapFrog.reflectStepsOn s.masses s.minima s.maxima s.eps (s.differOn O negate) fuel s.nSteps w x
  else LeapFrog.nStepsOn s.masses s.eps (s.differOn O negate) s.nSteps w x >>= fun r => Res.ok (some r.1, r.2)

/-- src/optimise/HamiltonianSampler.hpp:18-42, 81-86 on the object; `fuel` reflections at most, as in `input`. -/
def drawOn (s : HamiltonianSampler α) (O : FitObject W α) (negate : Bool) (g : String → α → α) (fuel : Nat) (w : W) (q : ParamDict α) : Res ((ParamDict α × α) × W) :=
  kinetic (s.momenta g q).1.masses (s.momenta g q).2 >>= fun k0 => (s.momenta g q).1.evolveOn O negate fuel w (q, (s.momenta g q).2) >>= fun r =>
    match r.1 with
    | none => .ub
    | some x => kinetic (s.momenta g q).1.masses x.2 >>= fun k1 => Res.ok ((x.1, k0 - k1), r.2)

end HamiltonianSampler

namespace MCMC

/-- The random numbers of one iteration with the Hamiltonian sampler: the Gaussian deviates of src/optimise/HamiltonianSampler.hpp:25-28, the reflections
followed, and the uniform deviate of src/optimise/MCMC.cpp:244-252. -/
structure HmcNoise (α : Type) where
  gauss : String → α → α
  fuel : Nat
  unif : α

/-- src/optimise/MCMC.cpp:193-200 with src/optimise/HamiltonianSampler.hpp:18-42: sampler and chain call the same object in turn. -/
def iterateHmcOn (ex : α → α) (s : HamiltonianSampler α) (negate : Bool) (O : FitObject W α) (m : MCMC α × W) (i : HmcNoise α) : Res (MCMC α × W) :=
  s.drawOn O negate i.gauss i.fuel m.2 m.1.curStep >>= fun d => m.1.stepAcceptedOn ex O d.2 d.1.1 d.1.2 i.unif >>= fun r =>
    r.1.1.samples.fill r.1.1.bounds r.1.1.curStep r.1.1.curVal r.1.2 >>= fun x => Res.ok ({ r.1.1 with samples := x }, r.2)

/-- src/optimise/MCMC.cpp:135-210 with the Hamiltonian sampler on the same object. -/
def optimiseHmcOn (ex : α → α) (m : MCMC α) (s : HamiltonianSampler α) (negate : Bool) (O : FitObject W α) (w : W) (r : String → α) (ins : List (HmcNoise α)) :
    Res ((MCMC α × MCMCResult α) × W) :=
  O.getParameters (O.register w) >>= fun ps =>
    if (m.trial.length ≠ ps.length ∧ m.trial.length ≠ 0) ∨ m.maxima.length ≠ ps.length ∨ m.minima.length ≠ ps.length then .throw .logic
    else (m.startOn r ps.keys).beginOn O (O.register w) >>= fun m0 =>
      Res.forFold (iterateHmcOn ex s negate O) m0 (ins.take m0.1.maxIter) >>= fun m' => Res.ok ((m'.1, ⟨m'.1.bestFit, true, m'.1.maxVal⟩), m'.2)

end MCMC
end Oxsx
