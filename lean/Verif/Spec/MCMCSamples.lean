import Verif.Model.Parameters
/-
Which steps of a chain are to be recorded, independent of the model.
-/
namespace Oxsx.Spec

/-- One step of a chain: where it is, the statistic there, and whether the proposal was accepted. -/
structure ChainStep (α : Type) where
  params : ParamDict α
  val : α
  accepted : Bool

/-- The steps whose number (from 0) is larger than the burn-in and a multiple of the thinning factor, in order. -/
def recorded {α : Type} (burnIn thin : Int) (h : List (ChainStep α)) : List (ChainStep α) :=
  (h.zipIdx.filter (fun p => decide (burnIn < (p.2 : Int) ∧ thin ∣ (p.2 : Int)))).map (·.1)

end Oxsx.Spec
