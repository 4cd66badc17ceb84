import Verif.Model.StatisticSum
import Verif.Model.MCMC
/-
Specification for C109: joint fits.
-/
namespace Oxsx
variable {W α : Type} [Field α] [LinearOrder α]

/-- The values a fit of a sum of statistics sees: for each dictionary in turn, `SetParameters` and `Evaluate`. -/
def StatSum.scan (s : StatSum W α) : W → List (ParamDict α) → Res (List (Fl α))
  | _, [] => .ok []
  | w, ps :: pss => do
    (s.setParameters w ps).2
    let (v, w) ← s.evaluate (s.setParameters w ps).1
    let vs ← s.scan w pss
    pure (v :: vs)

/-- A sum of statistics, in the state `w`, as an optimiser sees it: its names, and `SetParameters` followed by `Evaluate` (an infinite value is not a number
the optimiser's comparisons are modelled for). -/
def StatSum.seen (s : StatSum W α) (w : W) : TestStat α :=
  ⟨(s.getParameterNames w).toOption.getD [], fun ps => do
    (s.setParameters w ps).2
    let r ← s.evaluate (s.setParameters w ps).1
    match r.1 with | some v => .ok v | none => .ub⟩

end Oxsx
