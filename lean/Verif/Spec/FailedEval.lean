import Verif.Spec.BinnedNLLH
/- Histories of calls made by a program that catches every exception and goes on with the object. -/
namespace Oxsx
section
variable {σ α : Type} [Field α] [LinearOrder α]

/-- The likelihood after one call, whatever its outcome. `fail` is what a call of `Construct` that throws leaves of a systematic. -/
def NLLH.fitCallCaught (C : FitSys σ α) (fail : σ → σ) (M : CMath α) (L : NLLH σ α) : FitCall α → NLLH σ α
  | .evaluate => (L.evaluateLeft C fail M).1
  | .setDataDist d => L.setDataDist d
  | .setDataSet d => L.setDataSet d
  | .setParameters d => (L.setParameters C d).1

/-- The likelihood after a sequence of calls. -/
def NLLH.fitCallsCaught (C : FitSys σ α) (fail : σ → σ) (M : CMath α) (L : NLLH σ α) (cs : List (FitCall α)) : NLLH σ α :=
  cs.foldl (NLLH.fitCallCaught C fail M) L

/-- A call of `Construct` that throws leaves a systematic which no later use tells from the one before. -/
def FitSys.KeepsOnFailure (C : FitSys σ α) (fail : σ → σ) : Prop := ∀ s e, C.construct s = .throw e → C.Equiv (fail s) s

end
end Oxsx
