import Verif.Spec.MCMCSamples
import Mathlib.Algebra.Order.Field.Basic
/-
The Metropolis-Hastings chain, independent of the model of the code.
-/
namespace Oxsx.Spec
variable {α : Type} [Field α] [LinearOrder α]

/-- The box: every named coordinate is present and lies between its minimum and its maximum. -/
def InBox (names : List String) (lo hi p : ParamDict α) : Prop :=
  ∀ n ∈ names, ∃ a b v, lo.find n = some a ∧ hi.find n = some b ∧ p.find n = some v ∧ a ≤ v ∧ v ≤ b

/-- With the uniform deviate `u`, is a proposal of value `w` taken from a point of value `v`? If the values are logarithms: with probability
`min(1, e^(w - v + c))`. Otherwise: with probability `min(1, w/v)`; from a point of value zero every point of non-zero value is taken and
no point of zero value. -/
def Taken (ex : α → α) (logged : Bool) (w v c u : α) : Prop :=
  if logged then u ≤ min 1 (ex (w - v + c)) else if v = 0 then w ≠ 0 else u ≤ min 1 (w / v)

/-- `Walk … x v l h`: starting from the point `x` of value `v`, with proposal functions and uniform deviates as in `l`, the chain goes
through the steps `h`: a proposal inside the box is taken iff `Taken`; otherwise, and for every proposal outside the box, the chain stays
where it was. -/
inductive Walk (ex : α → α) (logged : Bool) (inBox : ParamDict α → Prop) (val : ParamDict α → α → Prop) :
    (x : ParamDict α) → (v : α) → List ((ParamDict α → Option (ParamDict α × α)) × α) → List (ChainStep α) → Prop
  | nil {x v} : Walk ex logged inBox val x v [] []
  | accept {x v d y w c u l h} : d x = some (y, c) → inBox y → val y w → Taken ex logged w v c u → Walk ex logged inBox val y w l h →
      Walk ex logged inBox val x v ((d, u) :: l) (⟨y, w, true⟩ :: h)
  | reject {x v d y w c u l h} : d x = some (y, c) → inBox y → val y w → ¬ Taken ex logged w v c u → Walk ex logged inBox val x v l h →
      Walk ex logged inBox val x v ((d, u) :: l) (⟨x, v, false⟩ :: h)
  | outside {x v d y c u l h} : d x = some (y, c) → ¬ inBox y → Walk ex logged inBox val x v l h →
      Walk ex logged inBox val x v ((d, u) :: l) (⟨x, v, false⟩ :: h)

end Oxsx.Spec
