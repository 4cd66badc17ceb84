import Verif.Model.OptimiserRuns
/-
Specification for C112: an object that is fitted, and a function.
-/
namespace Oxsx
variable {W α : Type} [Field α] [LinearOrder α]

/-- The values seen by a program that calls `SetParameters` and `Evaluate` with one dictionary after the other. -/
def FitObject.scan (O : FitObject W α) : W → List (ParamDict α) → Res (List (Fl α))
  | _, [] => .ok []
  | w, ps :: pss => do
    (O.setParameters w ps).2
    let (v, w) ← O.evaluate (O.setParameters w ps).1
    let vs ← O.scan w pss
    pure (v :: vs)

/-- The object in the state `w` answers like the function `t`: whatever dictionaries in the domain of `t` it is given, one after the other, it
returns the values of `t`. -/
def FitObject.AnswersLike (O : FitObject W α) (w : W) (t : TestStat α) : Prop :=
  ∀ pss : List (ParamDict α), (∀ p ∈ pss, ∃ v, t.eval p = .ok v) → O.scan w pss = .ok (pss.map fun p => (t.eval p).toOption)

end Oxsx
