import Verif.Spec.BinnedNLLH
import Mathlib.Order.Bounds.Defs
/-
What the likelihood with Barlow-Beeston should be: in each bin the smallest value, over a factor on the rate, of the Poisson term plus a
Gaussian penalty on the factor.
-/
namespace Oxsx

/-- The squared fractional uncertainty of a bin of rate `mu`: the sum over distributions of normalisation over the number of events
generated, relative to the rate squared. -/
noncomputable def bbVariance (norms : List ℝ) (rates : List Nat) (mu : ℝ) : ℝ :=
  ((norms.zip rates).map (fun p => p.1 / ((p.2 : ℝ) * mu ^ 2))).sum

/-- `t` is the smallest, over all positive factors on the rate, of the Poisson term plus the penalty. -/
def IsProfiled (n mu s t : ℝ) : Prop :=
  IsLeast {x | ∃ beta : ℝ, 0 < beta ∧ x = poissonTerm n (beta * mu) + (beta - 1) ^ 2 / (2 * s)} t

/-- A likelihood configured with Barlow-Beeston: distributions added, each with the number of events it was made from, to a new
likelihood, constraints, the fit components registered, the parameters and the data set, Barlow-Beeston switched on. -/
def NLLH.configuredBB {σ α : Type} [Field α] [LinearOrder α] (name : Nat → String) (C : FitSys σ α) (objs : Nat → σ)
    (log : List ((BinnedED α × NormStatus) × Nat)) (cons : ConstraintManager α) (ps : ParamDict α) (d : BinnedED α) : Res (NLLH σ α) := do
  let L ← Res.forFold (fun (L : NLLH σ α) (p : (BinnedED α × NormStatus) × Nat) => L.addPdf name p.1.1 none (some (p.2 : Int)) p.1.2)
    (.new objs) log
  let L := ({ L with constraints := cons } : NLLH σ α).registerFitComponents name
  let (L, r) := L.setParameters C ps
  r
  pure ((L.setDataDist d).setBarlowBeeston true)

end Oxsx
