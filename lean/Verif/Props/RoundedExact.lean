import Verif.Model.RoundedFit
import Verif.Spec.BinnedNLLH
import Verif.Props.Likelihood
set_option linter.unusedSectionVars false
set_option linter.unusedSimpArgs false
set_option linter.unusedVariables false
/-
C102 and C103: with an arithmetic that does not round, the functions with rounding are those without.
-/
namespace Oxsx
variable {σ α : Type} [Field α] [LinearOrder α]

/-- An arithmetic that does not round. -/
def Rounding.Exact (R : Rounding α) : Prop := ∀ x, R.rnd x = x

theorem mulAdd_exact {R : Rounding α} (hR : R.Exact) (fma : Bool) (a b c : α) : BinAxis.mulAdd R fma a b c = a + b * c := by
  unfold BinAxis.mulAdd
  rw [hR, hR, hR]
  split <;> rfl

/-- C102: without rounding an axis with rounding is the axis, and so are the histograms filled, added up, projected and changed. -/
theorem C102_exact {R : Rounding α} (hR : R.Exact) (fma : Bool) (name latex : String) (mn mx : α) (n : Nat) (h other : Histogram α) (vals : List α) (w : α) (bin : Nat) (names : List String) :
    BinAxis.mkEqualR R fma name mn mx n latex = BinAxis.mkEqual name mn mx n latex ∧ h.fillR R vals w = h.fill vals w ∧ h.integralR R = h.integral ∧ h.addBinContentR R bin w = h.addBinContent bin w ∧
    h.marginaliseR R names = h.marginalise names := by
  have add : ∀ (h : Histogram α) bin w, h.addBinContentR R bin w = h.addBinContent bin w := by
    intro h bin w
    unfold Histogram.addBinContentR Histogram.addBinContent
    simp only [hR _]
  refine ⟨?_, ?_, ?_, add h bin w, ?_⟩
  · unfold BinAxis.mkEqualR BinAxis.mkEqual
    simp only [mulAdd_exact hR, hR _, Nat.cast_add, Nat.cast_one]
  · unfold Histogram.fillR Histogram.fill
    simp only [hR _]
  · unfold Histogram.integralR Histogram.integral
    simp only [hR _]
  · unfold Histogram.marginaliseR Histogram.marginalise
    have e : ∀ ix, Histogram.margStepR R h ix = Histogram.margStep h ix := by
      intro ix
      funext m b
      unfold Histogram.margStepR Histogram.margStep
      simp only [add]
    simp only [e]

theorem fl_map_exact {R : Rounding α} (hR : R.Exact) (x : Fl α) : Option.map R.rnd x = x := by
  cases x with
  | none => rfl
  | some v => exact congrArg some (hR v)

theorem divR_exact {R : Rounding α} (hR : R.Exact) (x y : α) : Fl.divR R x y = Fl.div x y := by
  unfold Fl.divR Fl.div
  rw [hR]

theorem quadR_exact {R : Rounding α} (hR : R.Exact) (d s : α) : Fl.quadR R d s = Fl.div (d * d) (2 * s * s) := by
  unfold Fl.quadR
  rw [divR_exact hR, hR, hR, hR]

/-- C103, constraints: without rounding the sum of the constraint terms with rounding is the sum without, also in what it refuses. -/
theorem C103_exact_constraints {R : Rounding α} (hR : R.Exact) (fma : Bool) (m : ConstraintManager α) (p : ParamDict α) : m.evaluateR R fma p = m.evaluate p := by
  have sums : ∀ {κ β : Type} (e : κ → β → Res (Fl α)) l t, ConstraintManager.sumOverR R e l t = ConstraintManager.sumOver e l t := by
    intro κ β e l t
    unfold ConstraintManager.sumOverR ConstraintManager.sumOver
    simp only [fl_map_exact hR]
  have h1 : ∀ (c : QuadraticConstraint α) v, c.evaluateR R v = c.evaluate v := by
    intro c v
    unfold QuadraticConstraint.evaluateR QuadraticConstraint.evaluate
    simp only [quadR_exact hR, hR _]
  have h2 : BivariateConstraint.evaluateR R fma = BivariateConstraint.evaluate := by
    funext c v w
    unfold BivariateConstraint.evaluateR BivariateConstraint.evaluate
    simp only [quadR_exact hR, divR_exact hR, hR _, ite_self]
    rfl
  have h3 : RatioConstraint.evaluateR R = RatioConstraint.evaluate := by
    funext c v w
    unfold RatioConstraint.evaluateR RatioConstraint.evaluate
    simp only [quadR_exact hR, divR_exact hR, hR _]
    rfl
  have h4 : FractionalConstraint.evaluateR R = FractionalConstraint.evaluate := by
    funext c v w
    unfold FractionalConstraint.evaluateR FractionalConstraint.evaluate
    simp only [quadR_exact hR, divR_exact hR, hR _]
    rfl
  have h5 : ∀ (c : ShapeConstraint α) p, c.evaluateR R p = c.evaluate p := by
    intro c p
    unfold ShapeConstraint.evaluateR ShapeConstraint.evaluate
    simp only [quadR_exact hR, hR _]
  have h6 : ∀ (h : Histogram α) p, ShapeInterp.evaluateR R h p = ShapeInterp.evaluate h p := by
    intro h p
    have f : ShapeInterp.factorR R = ShapeInterp.factor := by
      funext c k v d
      unfold ShapeInterp.factorR ShapeInterp.factor
      simp only [hR _]
    unfold ShapeInterp.evaluateR ShapeInterp.evaluate ShapeInterp.ndLinearInterpR ShapeInterp.ndLinearInterp ShapeInterp.latticeCoordsR ShapeInterp.latticeCoords ShapeInterp.interpSumR ShapeInterp.interpSum
    simp only [divR_exact hR, hR _, f]
    rfl
  unfold ConstraintManager.evaluateR ConstraintManager.evaluate
  simp only [sums, h1, h2, h3, h4, h5, h6]

/-- C103, histograms: without rounding, changing histograms and their moments with rounding is doing so without. -/
theorem C103_exact_histograms {R : Rounding α} (hR : R.Exact) (fma : Bool) (h other : Histogram α) (w : α) :
    h.normaliseR R = h.normalise ∧ h.scaleR R w = h.scale w ∧ h.addR R fma other w = h.add other w ∧ h.meansR R fma = h.means ∧ h.variancesR R fma = h.variances := by
  have hm : h.meansR R fma = h.means := by
    unfold Histogram.meansR Histogram.means
    simp only [mulAdd_exact hR]
  refine ⟨?_, ?_, ?_, hm, ?_⟩
  · unfold Histogram.normaliseR Histogram.normalise Histogram.integralR Histogram.integral
    simp only [hR _]
  · unfold Histogram.scaleR Histogram.scale
    simp only [hR _]
  · unfold Histogram.addR Histogram.add
    simp only [mulAdd_exact hR]
  · unfold Histogram.variancesR Histogram.variances
    simp only [mulAdd_exact hR, hm, hR _, ite_self]

/-- Preparing an evaluation does not switch the Barlow-Beeston treatment on or off. -/
theorem NLLH.prepare_keeps_bb {C : FitSys σ α} {L P : NLLH σ α} (h : L.prepare C = .ok P) : P.useBB = L.useBB := by
  unfold prepare at h
  obtain ⟨_, _, h⟩ := Res.bind_eq_ok.1 h
  obtain ⟨L1, h1, h⟩ := Res.bind_eq_ok.1 h
  obtain ⟨m, hm, h⟩ := Res.bind_eq_ok.1 h
  obtain ⟨L2, h2, h⟩ := Res.bind_eq_ok.1 h
  obtain ⟨so, h3, h⟩ := Res.bind_eq_ok.1 h
  obtain ⟨m2, h4, h⟩ := Res.bind_eq_ok.1 h
  obtain ⟨m3, h5, h⟩ := Res.bind_eq_ok.1 h
  obtain ⟨m4, h6, h⟩ := Res.bind_eq_ok.1 h
  cases h
  have e1 : L1.useBB = L.useBB := by
    by_cases hc : L.calculated = true
    · rw [if_pos hc] at h1; cases h1; rfl
    · rw [if_neg hc] at h1
      unfold binData at h1
      obtain ⟨o, _, h1⟩ := Res.bind_eq_ok.1 h1
      cases hd : L.data with
      | none => rw [hd] at h1; cases h1
      | some d =>
        rw [hd] at h1
        simp only at h1
        obtain ⟨r, _, h1⟩ := Res.bind_eq_ok.1 h1
        cases h1; rfl
  have e2 : L2.useBB = L1.useBB := by
    unfold shrinkData at h2
    split at h2
    · cases h2; rfl
    · obtain ⟨s, _, h2⟩ := Res.bind_eq_ok.1 h2
      obtain ⟨d, _, h2⟩ := Res.bind_eq_ok.1 h2
      cases h2; rfl
  exact e2.trans e1

/-- C103, the likelihood: without rounding the expected number of events in a bin and the whole statistic with rounding are those without, for any systematics and constraints, and so are
the errors and the objects left behind. -/
theorem C103_exact_evaluate {R : Rounding α} (hR : R.Exact) (fma : Bool) (lg : α → α) {M : CMath α} (hM : ∀ x, M.log x = if x ≤ 0 then none else some (lg x)) (C : FitSys σ α) (L : NLLH σ α)
    (hB : L.useBB = false) : (∀ bin, L.pdfs.binProbabilityR R fma bin = L.pdfs.binProbability bin) ∧
      L.evaluateR R fma lg C = L.evaluate C M := by
  have hb : ∀ (m : PdfManager α) bin, m.binProbabilityR R fma bin = m.binProbability bin := by
    intro m bin
    have e : ∀ m : PdfManager α, m.probStepR R fma bin = m.probStep (fun w => w.hist.getBinContent bin) := by
      intro m
      funext s i
      unfold PdfManager.probStepR PdfManager.probStep
      simp only [mulAdd_exact hR, hR _]
      rfl
    unfold PdfManager.binProbabilityR PdfManager.binProbability
    simp only [e]
  refine ⟨hb L.pdfs, ?_⟩
  unfold NLLH.evaluateR NLLH.evaluate
  cases e : L.prepare C with
  | throw x => rfl
  | ub => rfl
  | ok L' =>
    have hb' := (NLLH.prepare_keeps_bb e).trans hB
    have hs : NLLH.binStepR R fma lg L' = NLLH.binStep M L' := by
      funext s i
      unfold NLLH.binStepR NLLH.binStep
      simp only [hb, hb', Bool.false_eq_true, if_false]
      congr 1
      funext q
      congr 1
      funext _
      congr 1
      funext n
      congr 2
      unfold NLLH.addTerm NLLH.addTermR
      simp only [hM, hR _, ite_self]
      cases s.1 with
      | none => simp
      | some a =>
        simp only [Option.map_some]
        split <;> simp_all
    simp only [Res.ok_bind, hs, C103_exact_constraints hR, fl_map_exact hR]

/-- The exact arithmetic of the rational numbers. -/
def exExact : Rounding ℚ := ⟨id, monotone_id, fun _ => rfl, 0, fun _ _ => rfl⟩

example : exExact.Exact := fun _ => rfl

/-- A fit that can be evaluated, with the exact arithmetic: the function with rounding gives what the one without gives, and it succeeds. -/
example : ((exFitPdf "a" [("x", 3)] [1, 2, 3] >>= fun pdf => exFit false pdf .direct [] 10 pdf >>= fun L =>
      Res.ok (L.useBB, (L.evaluate AnySys.fit exMath).isOk, (L.evaluateR exExact false (fun _ => 0) AnySys.fit).isOk,
        (L.evaluateR exExact true (fun _ => 0) AnySys.fit >>= fun r => Res.ok r.1) == (L.evaluate AnySys.fit exMath >>= fun r => Res.ok r.1))) =
      .ok (false, true, true, true)) ∧ (∀ x : ℚ, exMath.log x = if x ≤ 0 then none else some ((fun _ => 0) x)) := by
  refine ⟨by decide +kernel, fun x => rfl⟩

end Oxsx
