import Verif.Lemmas.Ergodic
import Verif.Props.Stationary
set_option linter.unusedSectionVars false
set_option linter.unusedSimpArgs false
set_option linter.unusedVariables false
/-
A Metropolis step reaches every part of the box between the limits with at least a fixed share of the uniform distribution.
-/
namespace Oxsx
open MeasureTheory ProbabilityTheory
open scoped ENNReal NNReal

/-- A Metropolis step with widths `c`: the random numbers are the standard Gaussian deviates and the uniform number of the decision. -/
noncomputable def metroStep {n : Nat} (m : MCMC ℝ) (lo hi : Fin n → ℝ) (V : (Fin n → ℝ) → ℝ) (c : Fin n → ℝ) (x : Fin n → ℝ) (w : (Fin n → ℝ) × ℝ) : Fin n → ℝ :=
  moveTo m lo hi V x (fun i => x i + c i * w.1 i) 0 w.2

/-- The law of the random numbers of one step. -/
noncomputable def stepLaw (n : Nat) : Measure ((Fin n → ℝ) × ℝ) := (Measure.pi fun _ : Fin n => gaussianReal 0 1).prod (volume.restrict (Set.Ico (0 : ℝ) 1))

instance unitIco_prob : IsProbabilityMeasure (volume.restrict (Set.Ico (0 : ℝ) 1)) := ⟨by simp⟩

instance stepLaw_prob (n : Nat) : IsProbabilityMeasure (stepLaw n) := by unfold stepLaw; infer_instance

theorem limitBox_eq {n : Nat} (lo hi : Fin n → ℝ) : limitBox lo hi = Set.Icc lo hi := by
  ext x; simp only [limitBox, Set.mem_ofPred_eq, Set.mem_Icc, Pi.le_def]; exact forall_and

variable {n : Nat} {m : MCMC ℝ} {V : (Fin n → ℝ) → ℝ} {lo hi c : Fin n → ℝ}

theorem metroStep_measurable (hV : Measurable V) : Measurable (Function.uncurry (metroStep m lo hi V c)) := by
  have hc : Measurable (chainValue m V) := by unfold chainValue; split; exacts [hV.neg, hV]
  have hy : Measurable fun p : (Fin n → ℝ) × ((Fin n → ℝ) × ℝ) => fun i => p.1 i + c i * p.2.1 i := by
    refine measurable_pi_iff.2 fun i => ?_
    have h1 : Measurable fun p : (Fin n → ℝ) × ((Fin n → ℝ) × ℝ) => p.2.1 i := (measurable_pi_apply i).comp (measurable_fst.comp measurable_snd)
    exact ((measurable_pi_apply i).comp measurable_fst).add (h1.const_mul (c i))
  have hvy : Measurable fun p : (Fin n → ℝ) × ((Fin n → ℝ) × ℝ) => chainValue m V fun i => p.1 i + c i * p.2.1 i := hc.comp hy
  have hvx : Measurable fun p : (Fin n → ℝ) × ((Fin n → ℝ) × ℝ) => chainValue m V p.1 := hc.comp measurable_fst
  have hu : Measurable fun p : (Fin n → ℝ) × ((Fin n → ℝ) × ℝ) => p.2.2 := measurable_snd.comp measurable_snd
  have hr : ∀ r : (Fin n → ℝ) × ((Fin n → ℝ) × ℝ) → ℝ, Measurable r → MeasurableSet {p | r p > 1 ∨ r p ≥ p.2.2} := fun r hr =>
    (measurableSet_lt measurable_const hr).union (measurableSet_le hu hr)
  have hset : MeasurableSet {p : (Fin n → ℝ) × ((Fin n → ℝ) × ℝ) | (fun i => p.1 i + c i * p.2.1 i) ∈ limitBox lo hi ∧
      MCMC.accepts Real.exp m.logged (chainValue m V fun i => p.1 i + c i * p.2.1 i) (chainValue m V p.1) 0 p.2.2 = true} := by
    suffices hacc : MeasurableSet {p : (Fin n → ℝ) × ((Fin n → ℝ) × ℝ) |
        MCMC.accepts Real.exp m.logged (chainValue m V fun i => p.1 i + c i * p.2.1 i) (chainValue m V p.1) 0 p.2.2 = true} from
      (hy (measurableSet_limitBox lo hi)).inter hacc
    unfold MCMC.accepts
    rcases m.logged with _ | _
    · simp only [Bool.false_eq_true, if_false]
      have : {p : (Fin n → ℝ) × ((Fin n → ℝ) × ℝ) | (if chainValue m V p.1 = 0 then decide ((chainValue m V fun i => p.1 i + c i * p.2.1 i) ≠ 0)
          else decide ((chainValue m V fun i => p.1 i + c i * p.2.1 i) / chainValue m V p.1 > 1 ∨
            (chainValue m V fun i => p.1 i + c i * p.2.1 i) / chainValue m V p.1 ≥ p.2.2)) = true} =
          ({p | chainValue m V p.1 = 0} ∩ {p | (chainValue m V fun i => p.1 i + c i * p.2.1 i) = 0}ᶜ) ∪ ({p | chainValue m V p.1 = 0}ᶜ ∩
            {p | (chainValue m V fun i => p.1 i + c i * p.2.1 i) / chainValue m V p.1 > 1 ∨
              (chainValue m V fun i => p.1 i + c i * p.2.1 i) / chainValue m V p.1 ≥ p.2.2}) := by
        ext p
        by_cases h : chainValue m V p.1 = 0 <;> simp [h]
      rw [this]
      have h0 : MeasurableSet {p : (Fin n → ℝ) × ((Fin n → ℝ) × ℝ) | chainValue m V p.1 = 0} := measurableSet_eq_fun hvx measurable_const
      have h1 : MeasurableSet {p : (Fin n → ℝ) × ((Fin n → ℝ) × ℝ) | (chainValue m V fun i => p.1 i + c i * p.2.1 i) = 0} := measurableSet_eq_fun hvy measurable_const
      exact (h0.inter h1.compl).union (h0.compl.inter (hr _ (hvy.div hvx)))
    · simp only [if_true, decide_eq_true_eq]
      exact hr _ (Real.measurable_exp.comp ((hvy.sub hvx).add_const 0))
  unfold Function.uncurry metroStep moveTo
  exact Measurable.ite hset hy (measurable_fst (β := (Fin n → ℝ) × ℝ))

theorem metroStep_stays {x : Fin n → ℝ} (hx : x ∈ limitBox lo hi) (w : (Fin n → ℝ) × ℝ) : metroStep m lo hi V c x w ∈ limitBox lo hi := by
  unfold metroStep moveTo
  split
  · rename_i h; exact h.1
  · exact hx

/-- The mean over one step is the integral over its random numbers. -/
theorem afterStep_metro (hV : Measurable V) {f : (Fin n → ℝ) → ℝ≥0∞} (hf : Measurable f) (x : Fin n → ℝ) :
    afterStep (Measure.pi fun _ => gaussianReal 0 1) (fun x z u => moveTo m lo hi V x (fun i => x i + c i * z i) 0 u) f x =
      ∫⁻ w, f (metroStep m lo hi V c x w) ∂(stepLaw n) := by
  unfold afterStep stepLaw
  have hm : Measurable fun w : (Fin n → ℝ) × ℝ => f (metroStep m lo hi V c x w) := hf.comp ((metroStep_measurable hV).comp measurable_prodMk_left)
  rw [lintegral_prod _ hm.aemeasurable]
  rfl

theorem gaussian_lower {x : Fin n → ℝ} (hc : ∀ i, c i ≠ 0) (hx : x ∈ limitBox lo hi) {A : Set (Fin n → ℝ)} (hA : MeasurableSet A) (hAB : A ⊆ limitBox lo hi) :
    ENNReal.ofReal (∏ i, gaussianPDFReal 0 (c i ^ 2).toNNReal (hi i - lo i)) * volume A ≤ (Measure.pi fun _ : Fin n => gaussianReal 0 1) {z | (fun i => x i + c i * z i) ∈ A} := by
  have hv : ∀ i, (c i ^ 2).toNNReal ≠ 0 := fun i => by
    have : 0 < c i ^ 2 := by have := hc i; positivity
    simpa using hc i
  have hmapi : ∀ i, (gaussianReal 0 1).map (fun z => x i + c i * z) = gaussianReal (x i) (c i ^ 2).toNNReal := by
    intro i
    have h1 := gaussianReal_map_const_mul (μ := 0) (v := 1) (c i)
    have h2 := gaussianReal_map_const_add (μ := c i * 0) (v := NNReal.mk (c i ^ 2) (sq_nonneg _) * 1) (x i)
    rw [← h1, Measure.map_map (measurable_const_add _) (measurable_const_mul _)] at h2
    have e : (NNReal.mk (c i ^ 2) (sq_nonneg _) * 1 : ℝ≥0) = (c i ^ 2).toNNReal := by
      rw [mul_one]; ext; rw [Real.coe_toNNReal _ (sq_nonneg _)]; rfl
    rw [e, mul_zero, zero_add] at h2
    exact h2
  have hmap : (Measure.pi fun _ : Fin n => gaussianReal 0 1).map (fun z i => x i + c i * z i) = Measure.pi fun i => gaussianReal (x i) (c i ^ 2).toNNReal := by
    have := Measure.pi_map_pi (μ := fun _ : Fin n => gaussianReal 0 1) (f := fun i z => x i + c i * z) (fun i => ((measurable_const_mul _).const_add _).aemeasurable)
    rw [this]; congr 1; funext i; exact hmapi i
  have hmz : Measurable fun (z : Fin n → ℝ) i => x i + c i * z i := measurable_pi_iff.2 fun i =>
    ((measurable_pi_apply (X := fun _ : Fin n => ℝ) i).const_mul (c i)).const_add (x i)
  have hd : (Measure.pi fun i => gaussianReal (x i) (c i ^ 2).toNNReal) = (volume : Measure (Fin n → ℝ)).withDensity fun y => ∏ i, gaussianPDF (x i) (c i ^ 2).toNNReal (y i) := by
    have e : ∀ i, gaussianReal (x i) (c i ^ 2).toNNReal = volume.withDensity (gaussianPDF (x i) (c i ^ 2).toNNReal) := fun i => gaussianReal_of_var_ne_zero _ (hv i)
    have hs : ∀ i, SigmaFinite (volume.withDensity (gaussianPDF (x i) (c i ^ 2).toNNReal)) := fun i => by rw [← e i]; infer_instance
    rw [← pi_withDensity_fin (fun i => gaussianPDF (x i) (c i ^ 2).toNNReal) fun i => measurable_gaussianPDF _ _]
    congr 1; funext i; exact e i
  have : {z : Fin n → ℝ | (fun i => x i + c i * z i) ∈ A} = (fun z i => x i + c i * z i) ⁻¹' A := rfl
  rw [this, ← Measure.map_apply hmz hA, hmap, hd, withDensity_apply _ hA]
  rw [← setLIntegral_const]
  refine setLIntegral_mono_ae' hA (Filter.Eventually.of_forall fun y hy => ?_)
  rw [ENNReal.ofReal_prod_of_nonneg fun i _ => gaussianPDFReal_nonneg _ _ _]
  refine Finset.prod_le_prod' fun i _ => ?_
  unfold gaussianPDF
  refine ENNReal.ofReal_le_ofReal ?_
  unfold gaussianPDFReal
  refine mul_le_mul_of_nonneg_left (Real.exp_le_exp.2 ?_) (by positivity)
  have a := hx i
  have b := hAB hy i
  rw [sub_zero]
  refine div_le_div_of_nonneg_right ?_ (by positivity)
  have h1 : |y i - x i| ≤ hi i - lo i := by rw [abs_le]; constructor <;> linarith
  have h2 := sq_le_sq' (by linarith [abs_nonneg (y i - x i), neg_abs_le (y i - x i)]) ((le_abs_self _).trans h1)
  linarith

/-- The density between the limits is bounded away from zero and from above. -/
def Bounded (lo hi : Fin n → ℝ) (d : (Fin n → ℝ) → ℝ) : Prop := ∃ a b, 0 < a ∧ ∀ x ∈ limitBox lo hi, a ≤ d x ∧ d x ≤ b

theorem accept_volume (hd : m.logged = true ∨ ∀ x, 0 < chainValue m V x) (x y : Fin n → ℝ) :
    volume {u : ℝ | 0 ≤ u ∧ u < 1 ∧ MCMC.accepts Real.exp m.logged (chainValue m V y) (chainValue m V x) 0 u = true} =
      ENNReal.ofReal (min 1 (chainDensity m V y / chainDensity m V x)) := by
  rcases hl' : m.logged with _ | _
  · have hpos := hd.resolve_left (by rw [hl']; simp)
    rw [(C74_acceptance_probability (chainValue m V y) (chainValue m V x) 0).2 (hpos x) (hpos y).le]
    unfold chainDensity; rw [hl']; rfl
  · rw [(C74_acceptance_probability (chainValue m V y) (chainValue m V x) 0).1]
    unfold chainDensity; rw [hl']
    simp only [if_true]
    rw [← Real.exp_sub, add_zero]

theorem metro_minor (hV : Measurable V) (hd : m.logged = true ∨ ∀ x, 0 < chainValue m V x) (hc : ∀ i, c i ≠ 0) {a b : ℝ} (ha : 0 < a)
    (hab : ∀ x ∈ limitBox lo hi, a ≤ chainDensity m V x ∧ chainDensity m V x ≤ b) {x : Fin n → ℝ} (hx : x ∈ limitBox lo hi) {A : Set (Fin n → ℝ)}
    (hA : MeasurableSet A) :
    ENNReal.ofReal (a / b * ∏ i, gaussianPDFReal 0 (c i ^ 2).toNNReal (hi i - lo i)) * volume (A ∩ limitBox lo hi) ≤ stepLaw n {w | metroStep m lo hi V c x w ∈ A} := by
  have hb : 0 < b := ha.trans_le ((hab x hx).1.trans (hab x hx).2)
  have hAB := hA.inter (measurableSet_limitBox lo hi)
  set G := ∏ i, gaussianPDFReal 0 (c i ^ 2).toNNReal (hi i - lo i) with hG
  have hmeas : MeasurableSet {w | metroStep m lo hi V c x w ∈ A} := ((metroStep_measurable hV).comp measurable_prodMk_left) hA
  rw [ENNReal.ofReal_mul (div_pos ha hb).le, mul_assoc]
  refine (mul_le_mul_right (gaussian_lower hc hx hAB Set.inter_subset_right) _).trans ?_
  have hmz : Measurable fun (z : Fin n → ℝ) i => x i + c i * z i := measurable_pi_iff.2 fun i =>
    ((measurable_pi_apply (X := fun _ : Fin n => ℝ) i).const_mul (c i)).const_add (x i)
  unfold stepLaw
  have hset : {z : Fin n → ℝ | (fun i => x i + c i * z i) ∈ A ∩ limitBox lo hi} = (fun (z : Fin n → ℝ) i => x i + c i * z i) ⁻¹' (A ∩ limitBox lo hi) := rfl
  rw [hset, Measure.prod_apply hmeas, ← lintegral_indicator_const (hmz hAB)]
  refine lintegral_mono fun z => ?_
  by_cases hz : (fun i => x i + c i * z i) ∈ A ∩ limitBox lo hi
  · have hz' : z ∈ (fun (z : Fin n → ℝ) i => x i + c i * z i) ⁻¹' (A ∩ limitBox lo hi) := hz
    rw [Set.indicator_of_mem hz']
    set y := fun i => x i + c i * z i with hy
    have hsub : {u : ℝ | 0 ≤ u ∧ u < 1 ∧ MCMC.accepts Real.exp m.logged (chainValue m V y) (chainValue m V x) 0 u = true} ⊆
        (Prod.mk z ⁻¹' {w | metroStep m lo hi V c x w ∈ A}) ∩ Set.Ico 0 1 := by
      rintro u ⟨h0, h1, h2⟩
      refine ⟨?_, h0, h1⟩
      show moveTo m lo hi V x y 0 u ∈ A
      unfold moveTo
      rw [if_pos ⟨hz.2, h2⟩]
      exact hz.1
    rw [Measure.restrict_apply (measurable_prodMk_left hmeas)]
    refine le_trans ?_ (measure_mono hsub)
    rw [accept_volume hd]
    refine ENNReal.ofReal_le_ofReal (le_min ?_ ?_)
    · rw [div_le_one hb]; exact (hab x hx).1.trans (hab x hx).2
    · exact div_le_div₀ (ha.le.trans (hab y hz.2).1) (hab y hz.2).1 (ha.trans_le (hab x hx).1) (hab x hx).2
  · have hz' : z ∉ (fun (z : Fin n → ℝ) i => x i + c i * z i) ⁻¹' (A ∩ limitBox lo hi) := hz
    rw [Set.indicator_of_notMem hz']
    exact bot_le

theorem limitBox_volume (h : ∀ i, lo i < hi i) : volume (limitBox lo hi) ≠ 0 ∧ volume (limitBox lo hi) ≠ ⊤ := by
  rw [limitBox_eq, Real.volume_Icc_pi]
  refine ⟨Finset.prod_ne_zero_iff.2 fun i _ => ?_, ENNReal.prod_ne_top fun i _ => ENNReal.ofReal_ne_top⟩
  have := h i
  simpa using this

theorem targetLaw_total (h : ∀ i, lo i < hi i) {d : (Fin n → ℝ) → ℝ} (hb : Bounded lo hi d) :
    targetLaw lo hi d Set.univ ≠ 0 ∧ targetLaw lo hi d Set.univ ≠ ⊤ := by
  obtain ⟨a, b, ha, hab⟩ := hb
  obtain ⟨v0, v1⟩ := limitBox_volume h
  unfold targetLaw
  rw [withDensity_apply _ MeasurableSet.univ, Measure.restrict_univ]
  constructor
  · have : ENNReal.ofReal a * volume (limitBox lo hi) ≤ ∫⁻ x in limitBox lo hi, ENNReal.ofReal (d x) := by
      rw [← setLIntegral_const]
      exact setLIntegral_mono_ae' (measurableSet_limitBox lo hi) (Filter.Eventually.of_forall fun x hx => ENNReal.ofReal_le_ofReal (hab x hx).1)
    intro h0
    rw [h0] at this
    have := nonpos_iff_eq_zero.1 this
    rcases mul_eq_zero.1 this with e | e
    · rw [ENNReal.ofReal_eq_zero] at e; linarith
    · exact v0 e
  · have : ∫⁻ x in limitBox lo hi, ENNReal.ofReal (d x) ≤ ENNReal.ofReal b * volume (limitBox lo hi) := by
      rw [← setLIntegral_const]
      exact setLIntegral_mono_ae' (measurableSet_limitBox lo hi) (Filter.Eventually.of_forall fun x hx => ENNReal.ofReal_le_ofReal (hab x hx).2)
    exact ne_top_of_le_ne_top (ENNReal.mul_ne_top ENNReal.ofReal_ne_top v1) this

theorem sampledLaw_prob (h : ∀ i, lo i < hi i) {d : (Fin n → ℝ) → ℝ} (hb : Bounded lo hi d) : IsProbabilityMeasure (sampledLaw lo hi d) := by
  obtain ⟨h0, h1⟩ := targetLaw_total h hb
  refine ⟨?_⟩
  unfold sampledLaw
  rw [Measure.smul_apply, smul_eq_mul, ENNReal.inv_mul_cancel h0 h1]

theorem targetLaw_outside {d : (Fin n → ℝ) → ℝ} : targetLaw lo hi d (limitBox lo hi)ᶜ = 0 := by
  unfold targetLaw
  exact withDensity_absolutelyContinuous _ _ (by rw [Measure.restrict_apply (measurableSet_limitBox lo hi).compl]; simp)

/-- The Metropolis chain in a box with a density bounded there. -/
theorem metro_chain (hV : Measurable V) (hd : m.logged = true ∨ ∀ x, 0 < chainValue m V x) (hc : ∀ i, c i ≠ 0) (hlt : ∀ i, lo i < hi i)
    (hb : Bounded lo hi (chainDensity m V))
    (hst : ∀ f : (Fin n → ℝ) → ℝ≥0∞, Measurable f → ∫⁻ x, (∫⁻ w, f (metroStep m lo hi V c x w) ∂(stepLaw n)) ∂(targetLaw lo hi (chainDensity m V)) =
      ∫⁻ x, f x ∂(targetLaw lo hi (chainDensity m V))) :
    ∃ ε, Ergodic.Chain (metroStep m lo hi V c) (stepLaw n) (limitBox lo hi) (sampledLaw lo hi (chainDensity m V)) ε := by
  obtain ⟨v0, v1⟩ := limitBox_volume hlt
  obtain ⟨a, b, ha, hab⟩ := hb
  set G := ∏ i, gaussianPDFReal 0 (c i ^ 2).toNNReal (hi i - lo i) with hG
  have hGpos : 0 < G := Finset.prod_pos fun i _ => gaussianPDFReal_pos _ _ _ (by have := hc i; simpa using this)
  have hlo : lo ∈ limitBox lo hi := fun i => ⟨le_rfl, (hlt i).le⟩
  have hbpos : 0 < b := ha.trans_le ((hab lo hlo).1.trans (hab lo hlo).2)
  set v := (volume (limitBox lo hi)).toReal with hv
  have hvpos : 0 < v := ENNReal.toReal_pos v0 v1
  have hvE : volume (limitBox lo hi) = ENNReal.ofReal v := (ENNReal.ofReal_toReal v1).symm
  set ρ : Measure (Fin n → ℝ) := (volume (limitBox lo hi))⁻¹ • volume.restrict (limitBox lo hi) with hρ
  have hρ1 : IsProbabilityMeasure ρ := ⟨by rw [hρ, Measure.smul_apply, smul_eq_mul, Measure.restrict_apply_univ, ENNReal.inv_mul_cancel v0 v1]⟩
  have hmin : ∀ x ∈ limitBox lo hi, ∀ A, MeasurableSet A → ENNReal.ofReal (a / b * G * v) * ρ A ≤ stepLaw n {w | metroStep m lo hi V c x w ∈ A} := by
    intro x hx A hA
    refine le_trans (le_of_eq ?_) (metro_minor hV hd hc ha hab hx hA)
    rw [hρ, Measure.smul_apply, smul_eq_mul, Measure.restrict_apply hA, ENNReal.ofReal_mul (by positivity), ← hvE, ← hG, mul_assoc, ← mul_assoc (volume (limitBox lo hi)),
      ENNReal.mul_inv_cancel v0 v1, one_mul]
  refine ⟨a / b * G * v, metroStep_measurable hV, measurableSet_limitBox lo hi, fun x hx w => metroStep_stays hx w, by positivity, ?_, ⟨ρ, hρ1, ?_, hmin⟩, ?_, ?_⟩
  · have := (hmin lo hlo Set.univ MeasurableSet.univ).trans prob_le_one
    rw [measure_univ, mul_one, ENNReal.ofReal_le_one] at this
    exact this
  · rw [hρ, Measure.smul_apply, Measure.restrict_apply (measurableSet_limitBox lo hi).compl]; simp
  · unfold sampledLaw
    rw [Measure.smul_apply, targetLaw_outside, smul_zero]
  · intro f hf
    unfold sampledLaw
    rw [lintegral_smul_measure, lintegral_smul_measure, hst f hf]

end Oxsx
