import Verif.Model.Constraint
import Mathlib.Algebra.BigOperators.Finprod
/-
Specification of the constraint manager: what is registered after a history of calls, and the total penalty.
-/
namespace Oxsx
variable {α : Type} [Field α] [LinearOrder α]

/-- The public calls that register constraints. -/
inductive ConCall (α : Type) where
  | ind (n : String) (q : QuadraticConstraint α)
  | pair (n1 : String) (mean1 sigma1 : α) (n2 : String) (mean2 sigma2 corr : α)
  | ratio (n1 n2 : String) (mean sigma : α)
  | frac (n1 n2 : String) (mean sigma : α)
  | interp (label : String) (h : Histogram α)
  | shape (key : ParamDict α) (f : ParamDict α → α) (mean sigma : α)

/-- The constraints in force, by name. -/
structure Registered (α : Type) where
  ind : String → Option (QuadraticConstraint α)
  pair : String × String → Option (BivariateConstraint α)
  ratio : String × String → Option (RatioConstraint α)
  frac : String × String → Option (FractionalConstraint α)
  interp : String → Option (Histogram α)
  shape : ParamDict α → Option (ShapeConstraint α)

namespace Registered

def empty : Registered α := ⟨fun _ => none, fun _ => none, fun _ => none, fun _ => none, fun _ => none, fun _ => none⟩

/-- The parameter takes part in some pair constraint. -/
def InPair (R : Registered α) (n : String) : Prop := ∃ k, (R.pair k).isSome ∧ (n = k.1 ∨ n = k.2)

open Classical in
/-- What a call does: `none` if it is accepted, otherwise the exception. -/
noncomputable def outcome (R : Registered α) : ConCall α → Option Exc
  | .ind n _ => if R.InPair n then some .logic else none
  | .pair a _ _ b _ _ corr =>
    if (R.pair (a, b)).isNone ∧ ((R.ind a).isSome ∨ (R.ind b).isSome ∨ R.InPair a ∨ R.InPair b) then some .logic
    else if corr = 1 then some .value else none
  | _ => none

/-- The effect of an accepted call: the constraint replaces any previous one of the same kind with the same name(s). -/
def update (R : Registered α) : ConCall α → Registered α
  | .ind n q => { R with ind := Function.update R.ind n (some q) }
  | .pair a m1 s1 b m2 s2 c => { R with pair := Function.update R.pair (a, b) (some ⟨m1, s1, m2, s2, c⟩) }
  | .ratio a b m s => { R with ratio := Function.update R.ratio (a, b) (some ⟨m, s⟩) }
  | .frac a b m s => { R with frac := Function.update R.frac (a, b) (some ⟨m, s⟩) }
  | .interp l h => { R with interp := Function.update R.interp l (some h) }
  | .shape k f m s => { R with shape := Function.update R.shape k (some ⟨f, m, s⟩) }

/-- A call which throws changes nothing. -/
noncomputable def step (R : Registered α) (c : ConCall α) : Registered α :=
  match R.outcome c with
  | none => R.update c
  | some _ => R

noncomputable def run (cs : List (ConCall α)) : Registered α := cs.foldl step empty

/-- Each registered constraint has a finite value: `vi`, `vp`, … are those values, 0 where nothing is registered. -/
structure Values (R : Registered α) (p : ParamDict α) (vi : String → α) (vp vr vf : String × String → α)
    (vh : String → α) (vs : ParamDict α → α) : Prop where
  ind : ∀ n, match R.ind n with
    | some q => ∃ x, SMap.find p n = some x ∧ q.evaluate x = some (vi n)
    | none => vi n = 0
  pair : ∀ k, match R.pair k with
    | some q => ∃ x y, SMap.find p k.1 = some x ∧ SMap.find p k.2 = some y ∧ q.evaluate x y = some (vp k)
    | none => vp k = 0
  ratio : ∀ k, match R.ratio k with
    | some q => ∃ x y, SMap.find p k.1 = some x ∧ SMap.find p k.2 = some y ∧ q.evaluate x y = some (vr k)
    | none => vr k = 0
  frac : ∀ k, match R.frac k with
    | some q => ∃ x y, SMap.find p k.1 = some x ∧ SMap.find p k.2 = some y ∧ q.evaluate x y = some (vf k)
    | none => vf k = 0
  interp : ∀ l, match R.interp l with
    | some h => ShapeInterp.evaluate h p = .ok (some (vh l))
    | none => vh l = 0
  shape : ∀ k, match R.shape k with
    | some c => c.evaluate p = some (vs k)
    | none => vs k = 0

end Registered
end Oxsx
