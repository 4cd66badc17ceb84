import Mathlib.Algebra.Field.Defs
import Mathlib.Algebra.BigOperators.Group.List.Basic
/-
What the autocorrelation of a chain is estimated from, independent of the model.
-/
namespace Oxsx.Spec
variable {α : Type} [Field α]

/-- The last at most `q` of the values up to and including time `t`. -/
def recent (q : Nat) (h : List α) (t : Nat) : List α := (h.take (t + 1)).drop (t + 1 - q)

/-- Their mean. -/
def recentMean (q : Nat) (h : List α) (t : Nat) : α := (recent q h t).sum / ((recent q h t).length : α)

/-- The sum, over all times `t` at which a value `i` steps earlier exists, of the product of the two deviations from the mean at `t`. -/
def lagSum (q : Nat) (h : List α) (i : Nat) : α :=
  ((List.range h.length).map (fun t => if i ≤ t then (h.getD t 0 - recentMean q h t) * (h.getD (t - i) 0 - recentMean q h t) else 0)).sum

/-- The sum of the squared deviations of the later value of the same pairs. -/
def lagNorm (q : Nat) (h : List α) (i : Nat) : α :=
  ((List.range h.length).map (fun t => if i ≤ t then (h.getD t 0 - recentMean q h t) * (h.getD t 0 - recentMean q h t) else 0)).sum

end Oxsx.Spec
