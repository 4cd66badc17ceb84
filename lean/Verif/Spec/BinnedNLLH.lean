import Verif.Model.FailedCalls
import Verif.Spec.PdfManager
import Mathlib.Analysis.SpecialFunctions.Log.Basic
import Mathlib.Analysis.SpecialFunctions.Sqrt
/-
Specification side of the binned likelihood.
-/
namespace Oxsx

/-- The mathematical functions on the reals: the logarithm of a number that is not positive and the root of a negative number are
not finite. -/
noncomputable def CMath.real : CMath ℝ :=
  ⟨fun x => if x ≤ 0 then none else some (Real.log x), fun x => if x < 0 then none else some (Real.sqrt x)⟩

/-- `beta` solves the Barlow-Beeston equation for rate `mu`, squared fractional uncertainty `s` and data `n`. -/
def BetaRoot (n mu s beta : ℝ) : Prop := beta ^ 2 + (mu * s - 1) * beta - n * s = 0

/-- The negative log likelihood of one bin. -/
noncomputable def poissonTerm (n mu : ℝ) : ℝ := mu - n * Real.log mu


/-! ### Histories of calls -/

section
variable {σ α : Type}

/-- A systematic after a sequence of parameter settings. -/
def FitSys.sets (C : FitSys σ α) (s : σ) (ds : List (ParamDict α)) : σ := ds.foldl (fun s d => (C.setParameters s d).1) s

/-- Two states of a systematic that no sequence of parameter settings, readings and constructions tells apart. -/
def FitSys.Equiv (C : FitSys σ α) (s t : σ) : Prop :=
  ∀ ds : List (ParamDict α), C.construct (C.sets s ds) = C.construct (C.sets t ds) ∧
    (∀ d, (C.setParameters (C.sets s ds) d).2 = (C.setParameters (C.sets t ds) d).2) ∧
    C.getParameters (C.sets s ds) = C.getParameters (C.sets t ds)

/-- The class of systematics recomputes its response from the parameters at every construction. -/
def FitSys.Refreshing (C : FitSys σ α) : Prop := ∀ s s', C.construct s = .ok s' → C.Equiv s' s

variable [Field α] [LinearOrder α]

/-- The likelihoods some sequence of public calls makes of a new one. `setObjects` stands for anything the user does to the
systematics directly, `setConstraints` for calls that change the constraints, `evaluateLeft` for an evaluation whose exception, if any, is caught. -/
inductive NLLH.Reached (name : Nat → String) (C : FitSys σ α) (M : CMath α) : NLLH σ α → Prop
  | new (objs) : Reached name C M (.new objs)
  | addPdf {L L'} (pdf groups rate st) : Reached name C M L → L.addPdf name pdf groups rate st = .ok L' → Reached name C M L'
  | setNormalisations {L L'} (ns) : Reached name C M L → L.setNormalisations ns = .ok L' → Reached name C M L'
  | setDataDist {L} (d) : Reached name C M L → Reached name C M (L.setDataDist d)
  | setDataSet {L} (d) : Reached name C M L → Reached name C M (L.setDataSet d)
  | setBarlowBeeston {L} (b) : Reached name C M L → Reached name C M (L.setBarlowBeeston b)
  | setBuffer {L} (dim lower upper) : Reached name C M L → Reached name C M (L.setBuffer dim lower upper)
  | setBufferAsOverflow {L} (b) : Reached name C M L → Reached name C M (L.setBufferAsOverflow b)
  | addSystematic {L L'} (p g) : Reached name C M L → L.addSystematic name p g = .ok L' → Reached name C M L'
  | registerFitComponents {L} : Reached name C M L → Reached name C M (L.registerFitComponents name)
  | setParameters {L} (d) : Reached name C M L → Reached name C M (L.setParameters C d).1
  | setObjects {L} (objs) : Reached name C M L → Reached name C M { L with objs := objs }
  | setConstraints {L} (c) : Reached name C M L → Reached name C M { L with constraints := c }
  | setCuts {L} (c) : Reached name C M L → Reached name C M { L with cuts := c }
  | evaluate {L L' v} : Reached name C M L → L.evaluate C M = .ok (v, L') → Reached name C M L'
  | evaluateLeft {L} (fail : σ → σ) : Reached name C M L → Reached name C M (L.evaluateLeft C fail M).1

/-- The values of `n` evaluations in a row. -/
def NLLH.evaluations (C : FitSys σ α) (M : CMath α) : Nat → NLLH σ α → Res (List (Fl α))
  | 0, _ => .ok []
  | n + 1, L => do
    let (v, L) ← L.evaluate C M
    let vs ← NLLH.evaluations C M n L
    pure (v :: vs)

/-- Calls made on a configured likelihood during a fit. -/
inductive FitCall (α : Type) where
  | evaluate
  | setDataDist (d : BinnedED α)
  | setDataSet (d : Option (DataSet α))
  | setParameters (d : ParamDict α)

/-- The call is not an evaluation. -/
def FitCall.notEvaluate : FitCall α → Bool
  | .evaluate => false
  | _ => true

/-- The likelihood after one call; an exception of `SetParameters` is caught, one of `Evaluate` ends the history. -/
def NLLH.fitCall (C : FitSys σ α) (M : CMath α) (L : NLLH σ α) : FitCall α → Res (NLLH σ α)
  | .evaluate => do
    let (_, L) ← L.evaluate C M
    pure L
  | .setDataDist d => .ok (L.setDataDist d)
  | .setDataSet d => .ok (L.setDataSet d)
  | .setParameters d => .ok (L.setParameters C d).1

/-- The likelihood after a sequence of calls. -/
def NLLH.fitCalls (C : FitSys σ α) (M : CMath α) (L : NLLH σ α) (cs : List (FitCall α)) : Res (NLLH σ α) :=
  Res.forFold (fun L c => NLLH.fitCall C M L c) L cs

/-- The value an evaluation returns, without the object left behind. -/
def NLLH.value (C : FitSys σ α) (M : CMath α) (L : NLLH σ α) : Res (Fl α) := do
  let (v, _) ← L.evaluate C M
  pure v

/-- Every data distribution set has the observables `obs`. -/
def FitCall.HasObs (obs : List String) : FitCall α → Prop
  | .setDataDist d => d.obs.names = obs
  | _ => True

/-- The data, present and to come, has the observables of the distributions (the first one decides what events are binned in). -/
def NLLH.SameObservables (L : NLLH σ α) (cs : List (FitCall α)) : Prop :=
  ∃ o, L.pdfs.orig[0]? = some o ∧ (L.calculated = true → L.dataDist.obs.names = o.obs.names) ∧ ∀ c ∈ cs, c.HasObs o.obs.names

/-- A likelihood configured the usual way: distributions added to a new likelihood (no systematics, no buffers), constraints, the
fit components registered, the parameters and the data set. -/
def NLLH.configured (name : Nat → String) (C : FitSys σ α) (objs : Nat → σ) (log : List (BinnedED α × NormStatus))
    (cons : ConstraintManager α) (ps : ParamDict α) (d : BinnedED α) : Res (NLLH σ α) := do
  let L ← Res.forFold (fun (L : NLLH σ α) (p : BinnedED α × NormStatus) => L.addPdf name p.1 none none p.2) (.new objs) log
  let L := ({ L with constraints := cons } : NLLH σ α).registerFitComponents name
  let (L, r) := L.setParameters C ps
  r
  pure (L.setDataDist d)

end

/-- The binned Poisson negative log likelihood (without the data-only term): the sum over the data's bins of `mu - n log mu`, where
`mu` is the sum over distributions of normalisation (`value` of its name if fitted, else 1) times content. -/
noncomputable def binnedNLL (value : String → ℝ) (log : List (BinnedED ℝ × NormStatus)) (d : BinnedED ℝ) : ℝ :=
  ((List.range d.hist.nBins).map (fun b => poissonTerm (d.hist.contents.getD b 0) (expectedRate value log (log.map (·.1)) b))).sum

end Oxsx
