import Verif.Model.FitData
import Verif.Spec.BinnedNLLH
/-
A likelihood configured for a data set.
-/
namespace Oxsx
variable {σ α : Type} [Field α] [LinearOrder α]

/-- Distributions added to a new likelihood (no systematics, no buffers), constraints, the fit components registered, the parameters,
the cuts and the data set. -/
def NLLH.configuredData (name : Nat → String) (C : FitSys σ α) (objs : Nat → σ) (log : List (BinnedED α × NormStatus))
    (cons : ConstraintManager α) (ps : ParamDict α) (cuts : List (Cut α)) (d : DataSet α) : Res (NLLH σ α) := do
  let L ← Res.forFold (fun (L : NLLH σ α) (p : BinnedED α × NormStatus) => L.addPdf name p.1 none none p.2) (.new objs) log
  let L := ({ L with constraints := cons } : NLLH σ α).registerFitComponents name
  let (L, r) := L.setParameters C ps
  r
  pure ((cuts.foldl NLLH.addCut L).setDataSet (some d))

/-- The entries of a data set that pass all cuts, in order. -/
def DataSet.passing (d : DataSet α) (cuts : List (Cut α)) : List (Event α) :=
  (d.data.map (fun r => (⟨r, some d.names⟩ : Event α))).filter (fun e => cuts.all (fun c => decide (c.passesCut e = .ok true)))

/-- The bin of a distribution an event falls in. -/
def BinnedED.binOf (p : BinnedED α) (e : Event α) : Nat := ((e.toObsSet p.obs >>= p.hist.findBin).toOption).getD 0

/-- The negative logarithm of the extended likelihood of events: the number expected in all bins minus the sum over the events of the
logarithm of `rate`, the number expected in the bin of the event. -/
noncomputable def extendedNLL (nBins : Nat) (mu : Nat → ℝ) (rate : Event ℝ → ℝ) (es : List (Event ℝ)) : ℝ :=
  ((List.range nBins).map mu).sum - (es.map (fun e => Real.log (rate e))).sum

end Oxsx
