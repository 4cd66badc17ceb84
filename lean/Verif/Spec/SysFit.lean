import Verif.Spec.LikelihoodSys
import Verif.Spec.FitRegion
import Mathlib.Probability.Distributions.Poisson.Basic
import Mathlib.MeasureTheory.Constructions.Pi
/-
Specification for C111: the points of a fit with systematics, and the law of the data.
-/
namespace Oxsx
open MeasureTheory ProbabilityTheory
variable {σ α : Type} [Field α] [LinearOrder α]

/-- The law of independent Poisson counts with these rates. -/
noncomputable def ratesLaw {m : Nat} (μ : Fin m → ℝ) : Measure (Fin m → ℕ) := Measure.pi (fun b => poissonMeasure (μ b).toNNReal)

/-- A likelihood with systematics that can be fitted to data binned like `d`: reached by any history of calls that added the distributions `log` and the
systematics in `calls`, without buffers and Barlow-Beeston, names all different, directly fitted distributions before indirectly fitted ones. -/
structure SysSetup (name : Nat → String) (C : FitSys σ ℝ) (calls : List ManagerCall) (log : List (BinnedED ℝ × NormStatus)) (L : NLLH σ ℝ) (d : BinnedED ℝ) : Prop where
  recorded : NLLH.Recorded name C CMath.real calls log L
  systematics : SysLog.added calls ≠ []
  names : ∀ p ∈ SysLog.added calls, ∀ q ∈ SysLog.added calls, name p = name q → p = q
  noBB : L.useBB = false
  noBuffers : L.shrinker.buffers = []
  distinct : PdfLog.DistinctNames log
  order : PdfLog.Before .direct .indirect log
  binning : ∀ p ∈ log, p.1.obs.names = d.obs.names ∧ p.1.hist.nBins = d.hist.nBins ∧ p.1.hist.contents.length = d.hist.nBins

/-- A dictionary with a value for every fitted normalisation which decides all parameters of the systematics added: whatever dictionaries `ds`
of the same names `ks` they were given before, they accept it, construct the same response of the size of the distributions, and report the same parameters, with the dictionary's values. `μ` are the rates there: in each bin
the sum over the distributions of the normalisation times the contents distorted by the systematics acting on it. `c` is the constraint term. -/
structure SysPoint (C : FitSys σ ℝ) (calls : List ManagerCall) (log : List (BinnedED ℝ × NormStatus)) (cons : ConstraintManager ℝ) (objs : Nat → σ) {m : Nat}
    (ks : List String) (ps : ParamDict ℝ) (μ : Fin m → ℝ) (c : ℝ) : Prop where
  names : SMap.keys ps = ks
  nonempty : ps ≠ []
  sorted : SMap.Sorted ps
  all : ∀ n ∈ PdfLog.fitted log, (SMap.find ps n).isSome
  accepted : ∀ p ∈ SysLog.added calls, ∀ ds : List (ParamDict ℝ), (∀ d ∈ ds, SMap.keys d = ks) → (C.setParameters (C.sets (objs p) ds) ps).2 = .ok ()
  rates : ∃ (R : Nat → Matrix' ℝ) (cs : List (List ℝ)),
    (∀ p ∈ SysLog.added calls, ∀ ds : List (ParamDict ℝ), (∀ d ∈ ds, SMap.keys d = ks) → ∃ s, C.construct (C.sets (objs p) (ds ++ [ps])) = .ok s ∧ C.response s = R p) ∧
    (∀ p ∈ SysLog.added calls, (R p).arma.rows = m ∧ (R p).arma.cols = m) ∧ cs.length = log.length ∧
    (∀ (j : Nat) p, log[j]? = some p → ∃ gs v, SysLog.assigned calls p.1.name = some gs ∧ cs[j]? = some v ∧ Distorts calls R gs p.1.hist.contents v) ∧
    ∀ b, μ b = distortedRate (fun n => (SMap.find ps n).getD 0) log cs b
  positive : ∀ b, 0 < μ b
  constraint : ∃ own : Nat → ParamDict ℝ, (∀ p ∈ SysLog.added calls, ∀ ds : List (ParamDict ℝ), (∀ d ∈ ds, SMap.keys d = ks) → C.getParameters (C.sets (objs p) (ds ++ [ps])) = .ok (own p) ∧
      ∀ k v, SMap.find (own p) k = some v → SMap.find ps k = some v) ∧
    cons.evaluate (ps.filter fun q => q.1 ∈ PdfLog.fitted log ∨ ∃ p ∈ SysLog.added calls, (SMap.find (own p) q.1).isSome) = .ok (some c)

end Oxsx
