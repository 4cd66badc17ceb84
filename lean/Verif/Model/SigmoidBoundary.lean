import Verif.Model.StatisticSum
import Mathlib.Analysis.SpecialFunctions.Log.Basic
/-
Model of src/optimise/SigmoidBoundary.{h,hpp}. The wrapped statistic is an object in a world `W`, as in Model/StatisticSum; numbers are
real, so the overflow of `exp` in a double is not modelled.
-/
namespace Oxsx

/-- src/optimise/SigmoidBoundary.h:18-23 -/
structure SigmoidBoundary (W : Type) where
  stat : Statistic W ℝ
  mu : ℝ
  params : ParamDict ℝ
  minima : ParamDict ℝ
  maxima : ParamDict ℝ

namespace SigmoidBoundary
variable {W : Type}

/-- src/optimise/SigmoidBoundary.h:9-12: `fParams` starts empty. -/
def new (stat : Statistic W ℝ) (minima maxima : ParamDict ℝ) (mu : ℝ := 1000) : SigmoidBoundary W := ⟨stat, mu, [], minima, maxima⟩

/-- src/optimise/SigmoidBoundary.hpp:3-8. If the statistic throws, the second line is not reached. -/
def setParameters (b : SigmoidBoundary W) (w : W) (d : ParamDict ℝ) : (SigmoidBoundary W × W) × Res Unit :=
  match b.stat.setParameters w d with
  | (w', .ok _) => (({ b with params := d }, w'), .ok ())
  | (w', r) => ((b, w'), r)

/-- `fParams[name]`: makes the entry, with value zero, if it is not there (src/optimise/SigmoidBoundary.hpp:20, 26). -/
def access (p : ParamDict ℝ) (n : String) : ℝ × ParamDict ℝ :=
  match p.find n with
  | some v => (v, p)
  | none => (0, p.insert n 0)

/-- src/optimise/SigmoidBoundary.hpp:17-21 -/
noncomputable def addMinima (mu : ℝ) (s : Fl ℝ × ParamDict ℝ) (q : String × ℝ) : Fl ℝ × ParamDict ℝ :=
  let r := access s.2 q.1
  (Fl.add s.1 (some (Real.log (1 + Real.exp (-mu * (r.1 - q.2))))), r.2)

/-- src/optimise/SigmoidBoundary.hpp:23-27 -/
noncomputable def addMaxima (mu : ℝ) (s : Fl ℝ × ParamDict ℝ) (q : String × ℝ) : Fl ℝ × ParamDict ℝ :=
  let r := access s.2 q.1
  (Fl.add s.1 (some (Real.log (1 + Real.exp (mu * (r.1 - q.2))))), r.2)

/-- src/optimise/SigmoidBoundary.hpp:10-29 -/
noncomputable def evaluate (b : SigmoidBoundary W) (w : W) : Res (Fl ℝ × SigmoidBoundary W × W) :=
  b.stat.evaluate w >>= fun x =>
    let s := b.maxima.foldl (addMaxima b.mu) (b.minima.foldl (addMinima b.mu) (x.1, b.params))
    .ok (s.1, { b with params := s.2 }, x.2)

end SigmoidBoundary
end Oxsx
