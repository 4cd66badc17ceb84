import Verif.Model.MCMC
/-
Model of src/optimise/LeapFrog.{h,hpp,cpp}, src/optimise/Gradient.{h,hpp}, src/optimise/HamiltonianSampler.{h,hpp} and
src/optimise/HMCEnergy.{h,hpp}.
Arithmetic is that of a field: a division by zero mass gives 0 here, infinity or not-a-number in the code; the theorems assume non-zero masses.
-/
namespace Oxsx
namespace LeapFrog
variable {α : Type} [Field α] [LinearOrder α]

/-- A differentiator: `differ_(qs_)` (src/optimise/LeapFrog.hpp:8). -/
abbrev Differ (α : Type) := ParamDict α → Res (ParamDict α)

/-- The loops of src/optimise/LeapFrog.hpp:9-10, 18-19, 29-30, 43-44, 50-51: `it->second -= c * grad[it->first]` (`operator[]` gives 0 for a
missing entry). -/
def kick (c : α) (grad ps : ParamDict α) : ParamDict α := ps.map (fun p => (p.1, p.2 - c * (grad.find p.1).getD 0))

/-- One iteration of src/optimise/LeapFrog.hpp:13-14 etc.; the position list is rebuilt, `ps_[..]` creates missing momenta, `.at` throws. -/
def driftOne (e : α) (masses : ParamDict α) (s : ParamDict α × ParamDict α) (p : String × α) : Res (ParamDict α × ParamDict α) :=
  let ps := s.2.insertNew p.1 0
  match masses.find p.1 with
  | some m => .ok (s.1 ++ [(p.1, p.2 + e * (ps.find p.1).getD 0 / m)], ps)
  | none => .throw .outOfRange

/-- src/optimise/LeapFrog.hpp:13-14, 36-37, 84-85, 97-98: positions and momenta after the loop. -/
def drift (e : α) (masses qs ps : ParamDict α) : Res (ParamDict α × ParamDict α) := Res.forFold (driftOne e masses) ([], ps) qs

/-- src/optimise/LeapFrog.hpp:2-20: positions and momenta after one step. -/
def oneStep (masses : ParamDict α) (e : α) (d : Differ α) (s : ParamDict α × ParamDict α) : Res (ParamDict α × ParamDict α) :=
  d s.1 >>= fun g => drift e masses s.1 (kick (e / 2) g s.2) >>= fun r => d r.1 >>= fun g => Res.ok (r.1, kick (e / 2) g r.2)

/-- One iteration of src/optimise/LeapFrog.hpp:33-46 (`last`: `i == nSteps_ - 1`). -/
def midStep (masses : ParamDict α) (e : α) (d : Differ α) (last : Bool) (s : ParamDict α × ParamDict α) : Res (ParamDict α × ParamDict α) :=
  drift e masses s.1 s.2 >>= fun r => if last then Res.ok r else d r.1 >>= fun g => Res.ok (r.1, kick e g r.2)

/-- src/optimise/LeapFrog.hpp:22-52. `nSteps_` is an `int`; a negative one behaves like 0. -/
def nSteps (masses : ParamDict α) (e : α) (d : Differ α) (n : Nat) (s : ParamDict α × ParamDict α) : Res (ParamDict α × ParamDict α) :=
  d s.1 >>= fun g =>
  Res.forFold (fun s (i : Nat) => midStep masses e d (decide (i = n - 1)) s) (s.1, kick (e / 2) g s.2) (List.range n) >>= fun r =>
  d r.1 >>= fun g => Res.ok (r.1, kick (e / 2) g r.2)

/-- src/optimise/LeapFrog.cpp:3-7 -/
def intersectionTime (wall pos vel : α) : α := (wall - pos) / vel

/-- One iteration of src/optimise/LeapFrog.cpp:17-42 on (`dim_`, `crossTime_`). A zero velocity gives an infinite or undefined time in the
code and 0 here: no crossing in both cases. -/
def crossOne (ps masses minima maxima : ParamDict α) (e : α) (s : String × α) (q : String × α) : Res (String × α) :=
  MCMC.dictAt ps q.1 >>= fun p => MCMC.dictAt masses q.1 >>= fun m => MCMC.dictAt minima q.1 >>= fun lo => MCMC.dictAt maxima q.1 >>= fun hi =>
  let tmin := intersectionTime lo q.2 (p / m)
  let tmax := intersectionTime hi q.2 (p / m)
  let minc := decide (tmin > 0 ∧ tmin < e ∧ q.2 > lo)
  let maxc := decide (tmax > 0 ∧ tmax < e ∧ q.2 < hi)
  if !minc && !maxc then Res.ok s
  else
    let t := if minc then tmin else tmax
    if s.2 = -1 ∨ t < s.2 then Res.ok (q.1, t) else Res.ok s

/-- src/optimise/LeapFrog.cpp:9-45: (`dim_`, `crossTime_`). -/
def firstIntersection (qs ps masses minima maxima : ParamDict α) (e : α) : Res (String × α) :=
  Res.forFold (crossOne ps masses minima maxima e) ("", -1) qs

/-- The loop of src/optimise/LeapFrog.hpp:77-92 on positions, momenta and elapsed time, at most `fuel` reflections; `none` if it is still
going on then. -/
def reflectLoop (masses minima maxima : ParamDict α) (e : α) : Nat → ParamDict α × ParamDict α × α → Res (Option (ParamDict α × ParamDict α × α))
  | fuel, s =>
    firstIntersection s.1 s.2.1 masses minima maxima (e - s.2.2) >>= fun dt =>
      if dt.1 = "" then Res.ok (some s)
      else match fuel with
        | 0 => Res.ok none
        | fuel + 1 =>
          drift dt.2 masses s.1 s.2.1 >>= fun r => MCMC.dictAt r.2 dt.1 >>= fun p =>
            reflectLoop masses minima maxima e fuel (r.1, r.2.insert dt.1 (p * -1), s.2.2 + dt.2)

/-- src/optimise/LeapFrog.hpp:71-98: the drift of one reflective step, at most `fuel` reflections. -/
def reflectDrift (masses minima maxima : ParamDict α) (e : α) (fuel : Nat) (s : ParamDict α × ParamDict α) : Res (Option (ParamDict α × ParamDict α)) :=
  reflectLoop masses minima maxima e fuel (s.1, s.2, 0) >>= fun
    | none => Res.ok none
    | some r => drift (e - r.2.2) masses r.1 r.2.1 >>= fun x => Res.ok (some x)

/-- One iteration of src/optimise/LeapFrog.hpp:64-104. -/
def reflectStep (masses minima maxima : ParamDict α) (e : α) (d : Differ α) (fuel : Nat) (s : ParamDict α × ParamDict α) :
    Res (Option (ParamDict α × ParamDict α)) :=
  d s.1 >>= fun g => reflectDrift masses minima maxima e fuel (s.1, kick (e / 2) g s.2) >>= fun
    | none => Res.ok none
    | some r => d r.1 >>= fun g => Res.ok (some (r.1, kick (e / 2) g r.2))

/-- src/optimise/LeapFrog.hpp:54-105; at most `fuel` reflections in each step. -/
def reflectSteps (masses minima maxima : ParamDict α) (e : α) (d : Differ α) (fuel : Nat) : Nat → ParamDict α × ParamDict α → Res (Option (ParamDict α × ParamDict α))
  | 0, s => Res.ok (some s)
  | n + 1, s => reflectStep masses minima maxima e d fuel s >>= fun
    | none => Res.ok none
    | some r => reflectSteps masses minima maxima e d fuel n r

end LeapFrog

/-- One iteration of src/optimise/Gradient.hpp:9-24. -/
def gradientOne {α : Type} [Field α] (f : ParamDict α → Res α) (h : α) (x0 grad : ParamDict α) (p : String × α) : Res (ParamDict α) :=
  f (x0.insert p.1 (p.2 + h)) >>= fun hi => f (x0.insert p.1 (p.2 - h)) >>= fun lo => Res.ok (grad.insert p.1 ((hi - lo) / 2 / h))

/-- src/optimise/Gradient.hpp:3-27; `f` is `SetParameters` followed by `Evaluate`. -/
def gradient {α : Type} [Field α] (f : ParamDict α → Res α) (h : α) (x0 : ParamDict α) : Res (ParamDict α) :=
  Res.forFold (gradientOne f h x0) [] x0

/-- src/optimise/HMCEnergy.hpp:1-6 -/
def hmcEnergy {α : Type} [Field α] (ll : ParamDict α → Res α) (p : ParamDict α) : Res α := ll p >>= fun v => Res.ok (-v)

/-- src/optimise/HamiltonianSampler.h:29-39. `stat` is what the sampler differentiates. -/
structure HamiltonianSampler (α : Type) where
  stat : TestStat α
  masses : ParamDict α
  minima : ParamDict α
  maxima : ParamDict α
  eps : α
  nSteps : Nat

namespace HamiltonianSampler
variable {α : Type} [Field α] [LinearOrder α]

/-- src/optimise/HamiltonianSampler.hpp:7-16 -/
def new (t : TestStat α) (e : α) (n : Nat) : HamiltonianSampler α := ⟨t, t.names.foldl (fun m n => m.insert n 1) [], [], [], e, n⟩

/-- src/optimise/HamiltonianSampler.hpp:9: the differentiator, with step 0.05 epsilon. -/
def differ (s : HamiltonianSampler α) : LeapFrog.Differ α := gradient s.stat.eval (s.eps * 5 / 100)

/-- One term of src/optimise/HamiltonianSampler.hpp:74-76 -/
def kineticOne (masses : ParamDict α) (k : α) (p : String × α) : Res α := MCMC.dictAt masses p.1 >>= fun m => Res.ok (k + p.2 * p.2 / 2 / m)

/-- src/optimise/HamiltonianSampler.hpp:70-79 -/
def kinetic (masses ps : ParamDict α) : Res α := Res.forFold (kineticOne masses) 0 ps

/-- src/optimise/HamiltonianSampler.hpp:22-28; `g name mass` is the Gaussian deviate of width `sqrt(mass)`; `fMasses[..]` creates missing masses
as 0. -/
def momenta (g : String → α → α) (s : HamiltonianSampler α) (q : ParamDict α) : HamiltonianSampler α × ParamDict α :=
  q.foldl (fun r p =>
    let ms := r.1.masses.insertNew p.1 0
    ({ r.1 with masses := ms }, r.2.insert p.1 (g p.1 ((ms.find p.1).getD 0)))) (s, [])

/-- src/optimise/HamiltonianSampler.hpp:32-37 -/
def evolve (s : HamiltonianSampler α) (fuel : Nat) (x : ParamDict α × ParamDict α) : Res (Option (ParamDict α × ParamDict α)) :=
  if s.minima.length ≠ 0 ∧ s.maxima.length ≠ 0 then LeapFrog.reflectSteps s.masses s.minima s.maxima s.eps s.differ fuel s.nSteps x
  else LeapFrog.nSteps s.masses s.eps s.differ s.nSteps x >>= fun r => Res.ok (some r)

/-- src/optimise/HamiltonianSampler.hpp:18-42 (with `CorrectAccParam` of l.81-86): the proposal and the correction. `none`: reflections still
going on after `fuel` of them. -/
def draw (s : HamiltonianSampler α) (g : String → α → α) (fuel : Nat) (q : ParamDict α) : Res (Option (ParamDict α × α)) :=
  let r := s.momenta g q
  kinetic r.1.masses r.2 >>= fun k0 => r.1.evolve fuel (q, r.2) >>= fun
    | none => Res.ok none
    | some x => kinetic r.1.masses x.2 >>= fun k1 => Res.ok (some (x.1, k0 - k1))

/-- The sampler as used by MCMC: src/optimise/HamiltonianSampler.hpp:18-42, 81-86 with src/optimise/MCMC.cpp:193-197. Reflections still going on
after `fuel` of them have no result. -/
def input (s : HamiltonianSampler α) (g : String → α → α) (fuel : Nat) (u : α) : MCInput α :=
  ⟨fun q => s.draw g fuel q >>= fun | some x => Res.ok x | none => .ub, u⟩

end HamiltonianSampler
end Oxsx
