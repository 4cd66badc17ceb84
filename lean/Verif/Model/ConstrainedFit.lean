import Verif.Model.Refused
import Verif.Model.BinnedNLLH
/-
Model of the `SetConstraint` overloads of src/teststat/TestStatistic.{h,cpp} on a likelihood.
-/
namespace Oxsx

/-- The overloads of src/teststat/TestStatistic.h:45-50, by their arguments in the order of the declarations. -/
inductive FitConstraint (α : Type) where
  | sym (name : String) (mean sigma : α)
  | asym (name : String) (mean sigmaLo sigmaHi : α)
  | pair (name1 : String) (mean1 sigma1 : α) (name2 : String) (mean2 sigma2 corr : α)
  | ratio (name1 name2 : String) (mean sigma : α)
  | shape (params : ParamDict α) (func : ParamDict α → α) (mean sigma : α)
  | interp (label : String) (hist : Histogram α)

namespace NLLH
variable {σ α : Type} [Field α] [LinearOrder α]

/-- The constraint manager after src/teststat/TestStatistic.cpp:76-106, which hands the widths of the second overload over in
the other order. -/
def constrain (m : ConstraintManager α) : FitConstraint α → Res (ConstraintManager α)
  | .sym n mean sigma => m.setInd n (.sym mean sigma)
  | .asym n mean lo hi => m.setInd n (.asym mean hi lo)
  | .pair a m1 s1 b m2 s2 c => m.setPair a m1 s1 b m2 s2 c
  | .ratio a b mean s => pure (m.setRatio a b mean s)
  | .shape p f mean s => pure (m.setShape p f mean s)
  | .interp l h => pure (m.setInterp l h)

/-- src/teststat/TestStatistic.cpp:76-106: the likelihood left behind, and the outcome. The manager throws before it changes
anything. -/
def setConstraint (L : NLLH σ α) (c : FitConstraint α) : NLLH σ α × Res Unit :=
  Res.keep L (do
    let m ← constrain L.constraints c
    pure { L with constraints := m })

end NLLH
end Oxsx
