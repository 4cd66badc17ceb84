import Verif.Props.StatisticSum
import Verif.Props.FitQuality
import Verif.Props.Constraint
import Verif.Props.MCMC
import Verif.Props.ConstraintManager
import Mathlib.Probability.Distributions.Poisson.Basic
import Mathlib.Probability.Distributions.Gaussian.Real
import Mathlib.MeasureTheory.Integral.Pi
set_option linter.unusedSectionVars false
set_option linter.unusedSimpArgs false
set_option linter.unusedVariables false
/-
C97 (the statistic is minus the logarithm of the probability of the data) and C98 (on average over data sets the true rates fit best).
The probability is Mathlib's: independent Poisson counts, one per bin (`Measure.pi` of `poissonMeasure`), and Mathlib's Gaussian density
for the constraints.
-/
namespace Oxsx
variable {σ : Type}
open NLLH MeasureTheory ProbabilityTheory
open scoped Nat

/-- The law of the numbers of events in the bins at a point: independent Poisson counts with the expected rates. -/
noncomputable def dataLaw (log : List (BinnedED ℝ × NormStatus)) (ps : ParamDict ℝ) (nBins : Nat) : Measure (Fin nBins → ℕ) :=
  Measure.pi (fun b => poissonMeasure (rateAt log ps b).toNNReal)

instance (log : List (BinnedED ℝ × NormStatus)) (ps : ParamDict ℝ) (k : Nat) : IsProbabilityMeasure (dataLaw log ps k) := by
  unfold dataLaw; infer_instance

/-- The binned data with these numbers of events in its bins. -/
def withCounts (d : BinnedED ℝ) (n : Fin d.hist.nBins → ℕ) : BinnedED ℝ :=
  { d with hist := { d.hist with contents := List.ofFn (fun b => (n b : ℝ)) } }

theorem poisson_exp {mu : ℝ} (hmu : 0 < mu) (n : ℕ) :
    Real.exp (-(poissonTerm n mu)) = (n)! * (poissonMeasure mu.toNNReal).real {n} := by
  rw [poissonMeasure_real_singleton, Real.coe_toNNReal _ hmu.le]
  unfold poissonTerm
  rw [show -(mu - (n : ℝ) * Real.log mu) = -mu + n * Real.log mu by ring, Real.exp_add, Real.exp_nat_mul, Real.exp_log hmu]
  field_simp

theorem sum_range_fin (k : Nat) (f : Nat → ℝ) : ((List.range k).map f).sum = ∑ b : Fin k, f b := by
  rw [← Finset.sum_range]
  induction k with
  | zero => simp
  | succ k ih => rw [List.range_succ, List.map_append, List.sum_append, ih, Finset.sum_range_succ]; simp

theorem dataLaw_singleton (log : List (BinnedED ℝ × NormStatus)) (ps : ParamDict ℝ) (k : Nat) (n : Fin k → ℕ) :
    (dataLaw log ps k).real {n} = ∏ b : Fin k, (poissonMeasure (rateAt log ps b).toNNReal).real {n b} := by
  unfold dataLaw
  rw [measureReal_def, Measure.pi_singleton, ENNReal.toReal_prod]
  rfl

theorem nllAt_exp {log : List (BinnedED ℝ × NormStatus)} {d : BinnedED ℝ} {ps : ParamDict ℝ} (n : Fin d.hist.nBins → ℕ)
    (hpos : ∀ b, b < d.hist.nBins → 0 < rateAt log ps b) (hn : ∀ b, countIn d b.1 = n b) :
    Real.exp (-(nllAt log d ps)) = (∏ b, ((n b)! : ℝ)) * (dataLaw log ps d.hist.nBins).real {n} := by
  rw [dataLaw_singleton, ← Finset.prod_mul_distrib]
  unfold nllAt
  rw [sum_range_fin, ← Finset.sum_neg_distrib, Real.exp_sum]
  refine Finset.prod_congr rfl (fun b _ => ?_)
  rw [hn b, poisson_exp (hpos b.1 b.2)]

/-- C97. Whole numbers of events in the bins: the exponential of minus the value, without the constraint term, is the probability of exactly those
numbers, times the product of their factorials, which does not depend on the parameters. -/
theorem C97_probability {name : Nat → String} {C : FitSys σ ℝ} {objs : Nat → σ} {log : List (BinnedED ℝ × NormStatus)}
    {cons : ConstraintManager ℝ} {d : BinnedED ℝ} {ps : ParamDict ℝ} {c : ℝ} (h : CanFit log d) (hp : FitPoint log cons d ps c)
    {n : Fin d.hist.nBins → ℕ} (hn : ∀ b, countIn d b.1 = n b) :
    ∃ v, fitValue name C objs log cons d ps = .ok (some v) ∧
      Real.exp (-(v - c)) = (∏ b, ((n b)! : ℝ)) * (dataLaw log ps d.hist.nBins).real {n} := by
  refine ⟨_, fitValue_eq h hp, ?_⟩
  rw [add_sub_cancel_right]
  exact nllAt_exp n hp.positive hn

/-- C97. The difference of the values at two points is the logarithm of the ratio of the probabilities of the data: the smaller value is the more
probable point. -/
theorem C97_ratio {name : Nat → String} {C : FitSys σ ℝ} {objs : Nat → σ} {log : List (BinnedED ℝ × NormStatus)}
    {cons : ConstraintManager ℝ} {d : BinnedED ℝ} {ps ps' : ParamDict ℝ} {c c' : ℝ} (h : CanFit log d) (hp : FitPoint log cons d ps c)
    (hp' : FitPoint log cons d ps' c') {n : Fin d.hist.nBins → ℕ} (hn : ∀ b, countIn d b.1 = n b) :
    ∃ v v', fitValue name C objs log cons d ps = .ok (some v) ∧ fitValue name C objs log cons d ps' = .ok (some v') ∧
      0 < (dataLaw log ps d.hist.nBins).real {n} ∧ 0 < (dataLaw log ps' d.hist.nBins).real {n} ∧
      (v' - c') - (v - c) = Real.log ((dataLaw log ps d.hist.nBins).real {n} / (dataLaw log ps' d.hist.nBins).real {n}) ∧
      (v - c ≤ v' - c' ↔ (dataLaw log ps' d.hist.nBins).real {n} ≤ (dataLaw log ps d.hist.nBins).real {n}) := by
  have e := nllAt_exp n hp.positive hn
  have e' := nllAt_exp n hp'.positive hn
  have hF : 0 < ∏ b, ((n b)! : ℝ) := Finset.prod_pos (fun b _ => by exact_mod_cast Nat.factorial_pos _)
  have pos : 0 < (dataLaw log ps d.hist.nBins).real {n} := by
    have := Real.exp_pos (-(nllAt log d ps)); rw [e] at this; exact pos_of_mul_pos_right this hF.le
  have pos' : 0 < (dataLaw log ps' d.hist.nBins).real {n} := by
    have := Real.exp_pos (-(nllAt log d ps')); rw [e'] at this; exact pos_of_mul_pos_right this hF.le
  have key : nllAt log d ps' - nllAt log d ps = Real.log ((dataLaw log ps d.hist.nBins).real {n} / (dataLaw log ps' d.hist.nBins).real {n}) := by
    have l := congrArg Real.log e
    have l' := congrArg Real.log e'
    rw [Real.log_exp, Real.log_mul hF.ne' pos.ne'] at l
    rw [Real.log_exp, Real.log_mul hF.ne' pos'.ne'] at l'
    rw [Real.log_div pos.ne' pos'.ne']; linarith
  refine ⟨_, _, fitValue_eq h hp, fitValue_eq h hp', pos, pos', by rw [add_sub_cancel_right, add_sub_cancel_right]; exact key, ?_⟩
  rw [add_sub_cancel_right, add_sub_cancel_right]
  constructor
  · intro hle
    have : Real.exp (-(nllAt log d ps')) ≤ Real.exp (-(nllAt log d ps)) := Real.exp_le_exp.2 (by linarith)
    rw [e, e'] at this
    exact le_of_mul_le_mul_left this hF
  · intro hle
    have := mul_le_mul_of_nonneg_left hle hF.le
    rw [← e, ← e', Real.exp_le_exp] at this
    linarith

/-! ### Constraints as prior densities -/

theorem gaussian_quad {m w x u : ℝ} (hw : 0 < w) (hu : (QuadraticConstraint.sym m w).evaluate x = some u) :
    Real.exp (-u) = Real.sqrt (2 * Real.pi * w ^ 2) * gaussianPDFReal m (w ^ 2).toNNReal x := by
  have h := (C35_quadratic m w w hw.ne' hw.ne')
  have hv : u = (x - m) ^ 2 / (2 * w ^ 2) := by
    rw [h.1 x] at hu
    rcases le_or_gt m x with h1 | h1
    · rw [h.2.1 x h1] at hu; exact (Option.some.inj hu).symm
    · rw [h.2.2.1 x h1] at hu; exact (Option.some.inj hu).symm
  unfold gaussianPDFReal
  rw [Real.coe_toNNReal _ (sq_nonneg w)]
  have hs : 0 < Real.sqrt (2 * Real.pi * w ^ 2) := Real.sqrt_pos.2 (by positivity)
  rw [← mul_assoc]
  show _ = Real.sqrt (2 * Real.pi * w ^ 2) * (Real.sqrt (2 * Real.pi * w ^ 2))⁻¹ * Real.exp (-(x - m) ^ 2 / (2 * w ^ 2))
  rw [mul_inv_cancel₀ hs.ne', one_mul, hv]
  congr 1; ring

/-- Calls of `SetConstraint(name, mean, width)`, in order. -/
noncomputable def setGaussians (cs : List (String × ℝ × ℝ)) : Res (ConstraintManager ℝ) :=
  Res.forFold (fun m (q : String × ℝ × ℝ) => m.setInd q.1 (.sym q.2.1 q.2.2)) .empty cs

theorem SMap.insert_perm {β : Type} {m : SMap β} {k : String} {v : β} (h : SMap.find m k = none) : (SMap.insert k v m).Perm ((k, v) :: m) := by
  induction m with
  | nil => exact List.Perm.refl _
  | cons p r ih =>
    obtain ⟨k', v'⟩ := p
    have h' : k' ≠ k ∧ SMap.find r k = none := by
      unfold SMap.find at h
      split at h
      · cases h
      · rename_i hne; exact ⟨hne, h⟩
    unfold SMap.insert
    split
    · exact List.Perm.refl _
    · rw [if_neg (fun e => h'.1 e.symm)]
      exact ((ih h'.2).cons _).trans (List.Perm.swap _ _ _)

theorem setGaussians_ok {cs : List (String × ℝ × ℝ)} (hd : (cs.map (·.1)).Nodup) :
    ∃ m, setGaussians cs = .ok m ∧ m.ind.Perm (cs.map (fun q => (q.1, QuadraticConstraint.sym q.2.1 q.2.2))) ∧ m.pair = [] ∧ m.ratio = [] ∧
      m.frac = [] ∧ m.interp = [] ∧ m.shape = [] := by
  have gen : ∀ (cs : List (String × ℝ × ℝ)) (m₀ : ConstraintManager ℝ), (cs.map (·.1)).Nodup →
      (∀ q ∈ cs, SMap.find m₀.useInd q.1 = none ∧ SMap.find m₀.ind q.1 = none) →
      ∃ m, Res.forFold (fun m (q : String × ℝ × ℝ) => m.setInd q.1 (.sym q.2.1 q.2.2)) m₀ cs = .ok m ∧
        m.ind.Perm (m₀.ind ++ cs.map (fun q => (q.1, QuadraticConstraint.sym q.2.1 q.2.2))) ∧ m.pair = m₀.pair ∧ m.ratio = m₀.ratio ∧
        m.frac = m₀.frac ∧ m.interp = m₀.interp ∧ m.shape = m₀.shape := by
    intro cs
    induction cs with
    | nil => intro m₀ _ _; exact ⟨m₀, rfl, by simp, rfl, rfl, rfl, rfl, rfl⟩
    | cons q cs ih =>
      intro m₀ hd hf
      obtain ⟨hq, hd⟩ := List.nodup_cons.1 hd
      obtain ⟨f1, f2⟩ := hf q (by simp)
      have step : m₀.setInd q.1 (.sym q.2.1 q.2.2) =
          .ok { m₀ with ind := m₀.ind.insert q.1 (.sym q.2.1 q.2.2), useInd := m₀.useInd.insert q.1 true } := by
        unfold ConstraintManager.setInd; rw [f1]
      obtain ⟨m, e, p, r⟩ := ih { m₀ with ind := m₀.ind.insert q.1 (.sym q.2.1 q.2.2), useInd := m₀.useInd.insert q.1 true } hd (by
        intro r hr
        have hne : r.1 ≠ q.1 := fun e => hq (List.mem_map.2 ⟨r, hr, e⟩)
        obtain ⟨g1, g2⟩ := hf r (by simp [hr])
        simp only [SMap.find_insert, g1, g2]
        simp [hne, hne.symm])
      refine ⟨m, (Res.forFold_cons_ok (f := fun (m : ConstraintManager ℝ) (q : String × ℝ × ℝ) => m.setInd q.1 (.sym q.2.1 q.2.2)) step).trans e, p.trans ?_, r⟩
      refine ((SMap.insert_perm f2).append_right _).trans ?_
      simp only [List.map_cons]
      exact (List.perm_middle (l₁ := m₀.ind)).symm
  obtain ⟨m, h1, h2, h3⟩ := gen cs .empty hd (fun q _ => ⟨rfl, rfl⟩)
  exact ⟨m, h1, h2, h3⟩

/-- The prior densities that constraints stand for. -/
noncomputable def priorAt (cs : List (String × ℝ × ℝ)) (ps : ParamDict ℝ) : ℝ :=
  (cs.map (fun q => gaussianPDFReal q.2.1 (q.2.2 ^ 2).toNNReal ((SMap.find ps q.1).getD 0))).prod

/-- What the constraints set evaluate to, as densities. -/
theorem gaussian_constraints {cs : List (String × ℝ × ℝ)} (hd : (cs.map (·.1)).Nodup) (hw : ∀ q ∈ cs, 0 < q.2.2) :
    ∃ m, setGaussians cs = .ok m ∧ ∀ E : ParamDict ℝ, (∀ q ∈ cs, (SMap.find E q.1).isSome) → ∃ c, m.evaluate E = .ok (some c) ∧
      Real.exp (-c) = (cs.map (fun q => Real.sqrt (2 * Real.pi * q.2.2 ^ 2))).prod * priorAt cs E := by
  obtain ⟨m, e, hp, r1, r2, r3, r4, r5⟩ := setGaussians_ok hd
  refine ⟨m, e, fun E hall => ?_⟩
  have hval : ∀ q ∈ cs, SMap.find E q.1 = some ((SMap.find E q.1).getD 0) := by
    intro q hq
    obtain ⟨x, hx⟩ := Option.isSome_iff_exists.1 (hall q hq)
    rw [hx]; rfl
  have hsym : ∀ m w x : ℝ, 0 < w → (QuadraticConstraint.sym m w).evaluate x = some ((x - m) ^ 2 / (2 * w ^ 2)) := by
    intro m w x hw
    have h := (C35_quadratic m w w hw.ne' hw.ne')
    rw [h.1 x]
    rcases le_or_gt m x with h1 | h1
    · exact h.2.1 x h1
    · exact h.2.2.1 x h1
  let f : String × QuadraticConstraint ℝ → ℝ := fun p => ((SMap.find E p.1).getD 0 - p.2.mean) ^ 2 / (2 * p.2.width ^ 2)
  have hcon : m.evaluate (E) = .ok (some ((m.ind.map f).sum)) := by
    unfold ConstraintManager.evaluate
    have step : ∀ (l : List (String × QuadraticConstraint ℝ)) (t : ℝ), (∀ p ∈ l, p ∈ cs.map (fun q => (q.1, QuadraticConstraint.sym q.2.1 q.2.2))) →
        ConstraintManager.sumOver (fun n (c : QuadraticConstraint ℝ) => do
          let v ← ConstraintManager.dictAt (E) n
          pure (c.evaluate v)) l (some t) = .ok (some (t + (l.map f).sum)) := by
      intro l
      induction l with
      | nil => intro t _; simp [ConstraintManager.sumOver, Res.forFold]
      | cons p l ih =>
        intro t hl
        obtain ⟨q, hq, hqe⟩ := List.mem_map.1 (hl p (by simp))
        unfold ConstraintManager.sumOver at ih ⊢
        rw [Res.forFold_cons_ok (s' := some (t + f p))]
        · rw [ih _ (fun p hp => hl p (by simp [hp]))]
          simp only [List.map_cons, List.sum_cons]; congr 2; ring
        · subst hqe
          show (((ConstraintManager.dictAt E q.1 >>= fun v => pure ((QuadraticConstraint.sym q.2.1 q.2.2).evaluate v)) >>= fun c => pure (Fl.add (some t) c)) : Res (Fl ℝ)) = _
          rw [show ConstraintManager.dictAt E q.1 = .ok ((SMap.find E q.1).getD 0) by unfold ConstraintManager.dictAt; rw [hval q hq]; rfl]
          show Res.ok (Fl.add (some t) ((QuadraticConstraint.sym q.2.1 q.2.2).evaluate _)) = _
          rw [hsym _ _ _ (hw q hq)]
          rfl
    rw [step m.ind 0 (fun p hp' => hp.mem_iff.1 hp'), r1, r2, r3, r4, r5]
    simp [ConstraintManager.sumOver, Res.forFold, Res.ok_bind]
  refine ⟨_, hcon, ?_⟩
  have hsum : (m.ind.map f).sum = (cs.map (fun q => ((SMap.find E q.1).getD 0 - q.2.1) ^ 2 / (2 * q.2.2 ^ 2))).sum := by
    rw [(hp.map f).sum_eq, List.map_map]; rfl
  have hg : Real.exp (-(cs.map (fun q => ((SMap.find E q.1).getD 0 - q.2.1) ^ 2 / (2 * q.2.2 ^ 2))).sum) =
      (cs.map (fun q => Real.sqrt (2 * Real.pi * q.2.2 ^ 2))).prod *
        (cs.map (fun q => gaussianPDFReal q.2.1 (q.2.2 ^ 2).toNNReal ((SMap.find E q.1).getD 0))).prod := by
    have hw' : ∀ q ∈ cs, 0 < q.2.2 := hw
    clear hsum hcon hval hw hp hall hd e
    induction cs with
    | nil => simp
    | cons q cs ih =>
      simp only [List.map_cons, List.sum_cons, List.prod_cons]
      rw [neg_add, Real.exp_add, ih (fun r hr => hw' r (by simp [hr]))]
      have := gaussian_quad (hw' q (by simp)) (hsym q.2.1 q.2.2 ((SMap.find E q.1).getD 0) (hw' q (by simp)))
      rw [this]
      ring
  rw [hsum, hg]; rfl

theorem gaussian_widths_pos {cs : List (String × ℝ × ℝ)} (hw : ∀ q ∈ cs, 0 < q.2.2) : 0 < (cs.map (fun q => Real.sqrt (2 * Real.pi * q.2.2 ^ 2))).prod := by
  refine List.prod_pos ?_
  intro x hx
  obtain ⟨q, hq, rfl⟩ := List.mem_map.1 hx
  have := hw q hq
  exact Real.sqrt_pos.2 (by positivity)

/-- C97. With Gaussian constraints on fitted normalisations (distinct names, positive widths): the exponential of minus the value returned is the
probability of the data times the product of the Gaussian densities of the constrained parameters, up to a factor that does not depend on the
parameters. -/
theorem C97_posterior {name : Nat → String} {C : FitSys σ ℝ} {objs : Nat → σ} {log : List (BinnedED ℝ × NormStatus)} {d : BinnedED ℝ}
    {cs : List (String × ℝ × ℝ)} (hd : (cs.map (·.1)).Nodup) (hw : ∀ q ∈ cs, q.1 ∈ PdfLog.fitted log ∧ 0 < q.2.2) (h : CanFit log d)
    {n : Fin d.hist.nBins → ℕ} (hn : ∀ b, countIn d b.1 = n b) :
    ∃ m K, setGaussians cs = .ok m ∧ 0 < K ∧ ∀ ps : ParamDict ℝ, ps ≠ [] → SMap.Sorted ps → (∀ n ∈ PdfLog.fitted log, (SMap.find ps n).isSome) →
      (∀ b, b < d.hist.nBins → 0 < rateAt log ps b) → ∃ v, fitValue name C objs log m d ps = .ok (some v) ∧
        Real.exp (-v) = K * ((dataLaw log ps d.hist.nBins).real {n} *
          (cs.map (fun q => gaussianPDFReal q.2.1 (q.2.2 ^ 2).toNNReal ((SMap.find ps q.1).getD 0))).prod) := by
  obtain ⟨m, e, H⟩ := gaussian_constraints hd (fun q hq => (hw q hq).2)
  refine ⟨m, (∏ b, ((n b)! : ℝ)) * (cs.map (fun q => Real.sqrt (2 * Real.pi * q.2.2 ^ 2))).prod, e, ?_, ?_⟩
  · exact mul_pos (Finset.prod_pos (fun b _ => by exact_mod_cast Nat.factorial_pos _)) (gaussian_widths_pos fun q hq => (hw q hq).2)
  intro ps hne hs hall hpos
  have hf : ∀ q ∈ cs, SMap.find (ps.filter (fun p => p.1 ∈ PdfLog.fitted log)) q.1 = SMap.find ps q.1 := fun q hq =>
    (SMap.find_filter_key ps (fun k => decide (k ∈ PdfLog.fitted log)) q.1).trans (if_pos (by simpa using (hw q hq).1))
  obtain ⟨c, hc, hv⟩ := H (ps.filter (fun p => p.1 ∈ PdfLog.fitted log)) (fun q hq => by rw [hf q hq]; exact hall _ (hw q hq).1)
  refine ⟨_, fitValue_eq h ⟨hne, hs, hall, hpos, hc⟩, ?_⟩
  have hpr : priorAt cs (ps.filter (fun p => p.1 ∈ PdfLog.fitted log)) = (cs.map (fun q => gaussianPDFReal q.2.1 (q.2.2 ^ 2).toNNReal ((SMap.find ps q.1).getD 0))).prod := by
    unfold priorAt
    congr 1
    exact List.map_congr_left fun q hq => by rw [hf q hq]
  rw [neg_add, Real.exp_add, nllAt_exp n hpos hn, hv, hpr]
  ring

/-- Probability of the data times the densities of the constrained parameters. -/
noncomputable def posterior (log : List (BinnedED ℝ × NormStatus)) (cs : List (String × ℝ × ℝ)) {k : Nat} (n : Fin k → ℕ) (ps : ParamDict ℝ) : ℝ :=
  (dataLaw log ps k).real {n} * (cs.map (fun q => gaussianPDFReal q.2.1 (q.2.2 ^ 2).toNNReal ((SMap.find ps q.1).getD 0))).prod

/-- C97. A Markov chain run on this statistic (logged, with the sign flipped, so that the values compared are `-v` and `-v'`, and a symmetric
proposal) is in detailed balance with that posterior: between any two points as many steps are accepted one way as the other. -/
theorem C97_sampled {name : Nat → String} {C : FitSys σ ℝ} {objs : Nat → σ} {log : List (BinnedED ℝ × NormStatus)} {d : BinnedED ℝ}
    {cs : List (String × ℝ × ℝ)} (hd : (cs.map (·.1)).Nodup) (hw : ∀ q ∈ cs, q.1 ∈ PdfLog.fitted log ∧ 0 < q.2.2) (h : CanFit log d)
    {n : Fin d.hist.nBins → ℕ} (hn : ∀ b, countIn d b.1 = n b) {m : ConstraintManager ℝ} (hm : setGaussians cs = .ok m) {ps ps' : ParamDict ℝ} {c c' : ℝ}
    (hp : FitPoint log m d ps c) (hp' : FitPoint log m d ps' c') :
    ∃ v v', fitValue name C objs log m d ps = .ok (some v) ∧ fitValue name C objs log m d ps' = .ok (some v') ∧
      posterior log cs n ps * acceptMeasure true (-v') (-v) 0 = posterior log cs n ps' * acceptMeasure true (-v) (-v') 0 := by
  obtain ⟨m', K, e, hK, H⟩ := C97_posterior (name := name) (C := C) (objs := objs) hd hw h hn
  have := Res.ok.inj (hm.symm.trans e)
  subst this
  obtain ⟨v, h1, h2⟩ := H ps hp.nonempty hp.sorted hp.all hp.positive
  obtain ⟨v', h1', h2'⟩ := H ps' hp'.nonempty hp'.sorted hp'.all hp'.positive
  refine ⟨v, v', h1, h1', ?_⟩
  have db := (C74_detailed_balance (-v') (-v) 0).1
  rw [add_zero, neg_zero, h2, h2'] at db
  refine mul_left_cancel₀ hK.ne' ?_
  unfold posterior
  linarith

/-! ### Averages over data sets -/

theorem poisson_mean (r : NNReal) : Integrable (fun n : ℕ => (n : ℝ)) (poissonMeasure r) ∧ ∫ n, (n : ℝ) ∂(poissonMeasure r) = r := by
  have h0 := (hasSum_one_poissonMeasure r).mul_left (r : ℝ)
  rw [mul_one] at h0
  have h1 : HasSum (fun n : ℕ => Real.exp (-r) * r ^ n / (n)! * (n : ℝ)) r := by
    rw [← hasSum_nat_add_iff' 1]
    simp only [Finset.sum_range_one, Nat.cast_zero, mul_zero, sub_zero]
    have e : (fun n : ℕ => Real.exp (-r) * (r : ℝ) ^ (n + 1) / ((n + 1)! : ℝ) * ((n + 1 : ℕ) : ℝ)) = fun n => (r : ℝ) * (Real.exp (-r) * r ^ n / (n)!) := by
      ext n
      rw [Nat.factorial_succ]
      push_cast
      field_simp
      ring
    rw [e]; exact h0
  constructor
  · rw [integrable_poissonMeasure_iff]
    convert h1.summable using 1
    ext n
    rw [Real.norm_of_nonneg (Nat.cast_nonneg n)]
  · rw [integral_poissonMeasure]
    simp only [smul_eq_mul]
    exact h1.tsum_eq

theorem withCounts_canFit {log : List (BinnedED ℝ × NormStatus)} {d : BinnedED ℝ} (h : CanFit log d) (n : Fin d.hist.nBins → ℕ) :
    CanFit log (withCounts d n) where
  distinct := h.distinct
  order := h.order
  obs := h.obs
  data := by simp [withCounts]

theorem withCounts_countIn (d : BinnedED ℝ) (n : Fin d.hist.nBins → ℕ) (b : Fin d.hist.nBins) : countIn (withCounts d n) b = n b := by
  simp [countIn, withCounts, List.getD_eq_getElem?_getD]

theorem withCounts_point {log : List (BinnedED ℝ × NormStatus)} {cons : ConstraintManager ℝ} {d : BinnedED ℝ} {ps : ParamDict ℝ} {c : ℝ}
    (h : FitPoint log cons d ps c) (n : Fin d.hist.nBins → ℕ) : FitPoint log cons (withCounts d n) ps c :=
  ⟨h.nonempty, h.sorted, h.all, h.positive, h.constraint⟩

theorem nllAt_mean {log : List (BinnedED ℝ × NormStatus)} {d : BinnedED ℝ} {ps₀ ps : ParamDict ℝ}
    (h0 : ∀ b, b < d.hist.nBins → 0 < rateAt log ps₀ b) (c : ℝ) :
    Integrable (fun n => nllAt log (withCounts d n) ps + c) (dataLaw log ps₀ d.hist.nBins) ∧
      ∫ n, (nllAt log (withCounts d n) ps + c) ∂(dataLaw log ps₀ d.hist.nBins) =
        ∑ b : Fin d.hist.nBins, poissonTerm (rateAt log ps₀ b) (rateAt log ps b) + c := by
  have e : ∀ n : Fin d.hist.nBins → ℕ, nllAt log (withCounts d n) ps = ∑ b : Fin d.hist.nBins, (rateAt log ps b - (n b : ℝ) * Real.log (rateAt log ps b)) := by
    intro n
    unfold nllAt
    show ((List.range d.hist.nBins).map _).sum = _
    rw [sum_range_fin]
    refine Finset.sum_congr rfl (fun b _ => ?_)
    rw [withCounts_countIn]; rfl
  have hi : ∀ b : Fin d.hist.nBins, Integrable (fun n : Fin d.hist.nBins → ℕ => (n b : ℝ)) (dataLaw log ps₀ d.hist.nBins) := fun b =>
    integrable_comp_eval (μ := fun b : Fin d.hist.nBins => poissonMeasure (rateAt log ps₀ b).toNNReal) (i := b) (f := fun k : ℕ => (k : ℝ))
      (poisson_mean _).1
  have hm : ∀ b : Fin d.hist.nBins, ∫ n, (n b : ℝ) ∂(dataLaw log ps₀ d.hist.nBins) = rateAt log ps₀ b := by
    intro b
    have := integral_comp_eval (μ := fun b : Fin d.hist.nBins => poissonMeasure (rateAt log ps₀ b).toNNReal) (i := b) (f := fun k : ℕ => (k : ℝ))
      (by exact (poisson_mean _).1.aestronglyMeasurable)
    unfold dataLaw
    rw [this, (poisson_mean _).2, Real.coe_toNNReal _ (h0 b.1 b.2).le]
  have hterm : ∀ b : Fin d.hist.nBins, Integrable (fun n : Fin d.hist.nBins → ℕ => rateAt log ps b - (n b : ℝ) * Real.log (rateAt log ps b))
      (dataLaw log ps₀ d.hist.nBins) := fun b => (integrable_const _).sub ((hi b).mul_const _)
  have hsum := integrable_finsetSum Finset.univ (fun b _ => hterm b)
  simp only [e]
  refine ⟨hsum.add (integrable_const c), ?_⟩
  rw [integral_add hsum (integrable_const c), integral_finsetSum _ (fun b _ => hterm b)]
  congr 1
  · refine Finset.sum_congr rfl (fun b _ => ?_)
    rw [integral_sub (integrable_const _) ((hi b).mul_const _), integral_mul_const, hm b]
    simp [poissonTerm]
  · simp

/-- C98. Data sets drawn from the rates at `ps₀` (independent Poisson counts): every one of them has a value at `ps₀` and at `ps`, and the average of
the value, without the constraint term, is least at `ps₀`: it is as small at `ps` only if `ps` predicts the same rate in every bin. -/
theorem C98_average {name : Nat → String} {C : FitSys σ ℝ} {objs : Nat → σ} {log : List (BinnedED ℝ × NormStatus)}
    {cons : ConstraintManager ℝ} {d : BinnedED ℝ} {ps₀ ps : ParamDict ℝ} {c₀ c : ℝ} (h : CanFit log d) (h₀ : FitPoint log cons d ps₀ c₀)
    (hp : FitPoint log cons d ps c) :
    ∃ V₀ V : (Fin d.hist.nBins → ℕ) → ℝ,
      (∀ n, fitValue name C objs log cons (withCounts d n) ps₀ = .ok (some (V₀ n)) ∧ fitValue name C objs log cons (withCounts d n) ps = .ok (some (V n))) ∧
      Integrable V₀ (dataLaw log ps₀ d.hist.nBins) ∧ Integrable V (dataLaw log ps₀ d.hist.nBins) ∧
      (∫ n, V₀ n ∂(dataLaw log ps₀ d.hist.nBins)) - c₀ ≤ (∫ n, V n ∂(dataLaw log ps₀ d.hist.nBins)) - c ∧
      ((∫ n, V₀ n ∂(dataLaw log ps₀ d.hist.nBins)) - c₀ = (∫ n, V n ∂(dataLaw log ps₀ d.hist.nBins)) - c ↔
        ∀ b, b < d.hist.nBins → rateAt log ps b = rateAt log ps₀ b) := by
  obtain ⟨i0, m0⟩ := nllAt_mean (d := d) (ps := ps₀) h₀.positive c₀
  obtain ⟨i1, m1⟩ := nllAt_mean (d := d) (ps := ps) h₀.positive c
  refine ⟨_, _, fun n => ⟨fitValue_eq (withCounts_canFit h n) (withCounts_point h₀ n), fitValue_eq (withCounts_canFit h n) (withCounts_point hp n)⟩,
    i0, i1, ?_, ?_⟩ <;> rw [m0, m1, add_sub_cancel_right, add_sub_cancel_right]
  · exact Finset.sum_le_sum (fun b _ => (poissonTerm_min (h₀.positive b.1 b.2) (hp.positive b.1 b.2)).1)
  · rw [Finset.sum_eq_sum_iff_of_le (fun b _ => (poissonTerm_min (h₀.positive b.1 b.2) (hp.positive b.1 b.2)).1)]
    constructor
    · intro e b hb
      exact (poissonTerm_min (h₀.positive b hb) (hp.positive b hb)).2.1 (e ⟨b, hb⟩ (Finset.mem_univ _))
    · intro e b _
      rw [e b.1 b.2]

/-! ### Concrete cases -/

-- two bins with 4 and 5 events, one background and one signal, a constraint on the background
example (C : FitSys σ ℝ) (objs : Nat → σ) : ∃ m K, setGaussians [("b", 3, 1/2)] = .ok m ∧ 0 < K ∧
    ∀ b s : ℝ, 0 < b → 0 < s → ∃ v, fitValue exSysName C objs exTwo m (exRealPdf "d" 4 5) [("b", b), ("s", s)] = .ok (some v) ∧
      Real.exp (-v) = K * ((dataLaw exTwo [("b", b), ("s", s)] 2).real {![4, 5]} * gaussianPDFReal 3 ((1/2 : ℝ) ^ 2).toNNReal b) := by
  obtain ⟨m, K, h1, h2, h3⟩ := C97_posterior (name := exSysName) (C := C) (objs := objs) (cs := [("b", 3, 1/2)]) (by simp) (by
    intro q hq
    rw [List.mem_singleton] at hq
    subst hq
    exact ⟨by show "b" ∈ (["s", "b"] : List String); decide, by norm_num⟩) (exTwo_canFit 4 5) (n := ![4, 5]) (by
      intro b
      have hb : b.1 < 2 := b.2
      have : b.1 = 0 ∨ b.1 = 1 := by omega
      obtain ⟨b, hb'⟩ := b
      rcases this with h | h <;> simp only at h <;> subst h <;> simp [countIn, exRealPdf])
  refine ⟨m, K, h1, h2, fun b s hb hs => ?_⟩
  have hp := exTwo_point 4 5 hb hs
  obtain ⟨v, e, hv⟩ := h3 _ hp.nonempty hp.sorted hp.all hp.positive
  refine ⟨v, e, ?_⟩
  rw [hv]
  simp only [List.map_cons, List.map_nil, List.prod_cons, List.prod_nil, mul_one]
  rfl

-- data drawn from b = 3, s = 2: on average any other point is strictly worse
example (C : FitSys σ ℝ) (objs : Nat → σ) (b s : ℝ) (hb : 0 < b) (hs : 0 < s) (hne : b ≠ 3 ∨ s ≠ 2) :
    ∃ V₀ V : (Fin 2 → ℕ) → ℝ, (∀ n, fitValue exSysName C objs exTwo .empty (withCounts (exRealPdf "d" 0 0) n) [("b", 3), ("s", 2)] = .ok (some (V₀ n)) ∧
      fitValue exSysName C objs exTwo .empty (withCounts (exRealPdf "d" 0 0) n) [("b", b), ("s", s)] = .ok (some (V n))) ∧
      ∫ n, V₀ n ∂(dataLaw exTwo [("b", 3), ("s", 2)] 2) < ∫ n, V n ∂(dataLaw exTwo [("b", 3), ("s", 2)] 2) := by
  obtain ⟨V₀, V, h1, _, _, h3, h4⟩ := C98_average (name := exSysName) (C := C) (objs := objs) (exTwo_canFit 0 0)
    (exTwo_point 0 0 (b := 3) (s := 2) (by norm_num) (by norm_num)) (exTwo_point 0 0 hb hs)
  refine ⟨V₀, V, h1, lt_of_le_of_ne (by rw [sub_zero, sub_zero] at h3; exact h3) (fun e => ?_)⟩
  have hr := h4.1 (by rw [sub_zero, sub_zero]; exact e)
  have r0 := hr 0 (by show 0 < 2; omega)
  have r1 := hr 1 (by show 1 < 2; omega)
  rw [(exTwo_rate b s).1, (exTwo_rate 3 2).1] at r0
  rw [(exTwo_rate b s).2, (exTwo_rate 3 2).2] at r1
  rcases hne with h | h
  · exact h (by linarith)
  · exact h (by linarith)

end Oxsx
