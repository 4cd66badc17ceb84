import Verif.Model.StatisticSum
/-
Specification side of the sum of statistics.
-/
namespace Oxsx
variable {α : Type} [Field α] [LinearOrder α]

/-- The sum of values: not finite if one of them is not. -/
def flSum (l : List (Fl α)) : Fl α := if ∀ x ∈ l, x.isSome then some ((l.map (·.getD 0)).sum) else none

/-- `g` holds every entry of the dictionaries, the first one where they disagree. -/
def FirstUnion (ds : List (ParamDict α)) (g : ParamDict α) : Prop :=
  SMap.Sorted g ∧ ∀ k, SMap.find g k = (ds.filterMap (fun d => SMap.find d k)).head?

/-- Statistic `t` returns the value `v` and reports the parameters `g` from every world of `I`, and evaluating it leads to a world of
`I`. -/
def Statistic.Settled {W : Type} (I : W → Prop) (t : Statistic W α) (v : Fl α) (g : ParamDict α) : Prop :=
  ∀ w, I w → t.getParameters w = .ok g ∧ ∃ w', t.evaluate w = .ok (v, w') ∧ I w'

end Oxsx
