import Verif.Props.Coverage
import Verif.Props.ObjectFits
import Verif.Spec.SysCoverage
set_option linter.unusedSectionVars false
set_option linter.unusedSimpArgs false
set_option linter.unusedVariables false
/-
C117: coverage of the credible regions of fits with systematics and of joint fits.
-/
namespace Oxsx
open MeasureTheory ProbabilityTheory Filter
open scoped ENNReal Nat Topology
variable {σ : Type}

section
variable {p : Nat} {lo hi : Fin p → ℝ} {Y : Type} [MeasurableSpace Y] [MeasurableSingletonClass Y] [Countable Y]

/-- Averaged over truths from the prior and data from the model, the probability of an event is the average of its posterior probabilities. -/
theorem coverageOf_eq (hlt : ∀ i, lo i < hi i) {prior : (Fin p → ℝ) → ℝ} (hpc : Continuous prior) (hP0 : ∀ x ∈ limitBox lo hi, 0 < prior x) {law : (Fin p → ℝ) → Measure Y}
    [∀ x, IsProbabilityMeasure (law x)] (hlc : ∀ n, Continuous fun x => (law x).real {n}) (hl0 : ∀ x ∈ limitBox lo hi, ∀ n, 0 < (law x).real {n}) :
    ∃ w : Y → ℝ, (∀ n, 0 ≤ w n) ∧ HasSum w 1 ∧ ∀ R : Y → Set (Fin p → ℝ), (∀ n, MeasurableSet (R n)) →
      HasSum (fun n => w n * (sampledLaw lo hi fun x => (law x).real {n} * prior x).real (R n)) (coverageOf lo hi prior law R) := by
  have hPn : ∀ n : Y, ∀ x ∈ limitBox lo hi, 0 < (law x).real {n} * prior x := fun n x hx => mul_pos (hl0 x hx n) (hP0 x hx)
  have hcn : ∀ n : Y, Continuous fun x => (law x).real {n} * prior x := fun n => (hlc n).mul hpc
  have hZ0 := targetLaw_total hlt (bounded_of_continuous hlt hpc hP0)
  have hZn := fun n : Y => targetLaw_total hlt (bounded_of_continuous hlt (hcn n) (hPn n))
  have hpr := sampledLaw_prob hlt (bounded_of_continuous hlt hpc hP0)
  have hprn := fun n : Y => sampledLaw_prob hlt (bounded_of_continuous hlt (hcn n) (hPn n))
  set W : (Y) → ℝ≥0∞ := fun n => ((targetLaw lo hi prior) Set.univ)⁻¹ * (targetLaw lo hi fun x => (law x).real {n} * prior x) Set.univ with hW
  have hg : ∀ n : Y, Measurable fun x : Fin p → ℝ => law x {n} := by
    intro n
    have h1 : Measurable fun x : Fin p → ℝ => (law x).real {n} := by
      exact (hlc n).measurable
    have h2 := h1.ennreal_ofReal
    simpa [measureReal_def] using h2
  have key : ∀ R : (Y) → Set (Fin p → ℝ), (∀ n, MeasurableSet (R n)) →
      ∫⁻ x, law x {n | x ∈ R n} ∂(sampledLaw lo hi prior) =
        ∑' n, W n * (sampledLaw lo hi fun x => (law x).real {n} * prior x) (R n) := by
    intro R hR
    have e1 : ∀ x : Fin p → ℝ, law x {n | x ∈ R n} = ∑' n, (R n).indicator (fun x => law x {n}) x := by
      intro x
      rw [← Measure.tsum_indicator_apply_singleton _ _ (MeasurableSet.of_discrete)]
      refine tsum_congr fun n => ?_
      by_cases h : x ∈ R n
      · rw [Set.indicator_of_mem (show n ∈ {n | x ∈ R n} from h), Set.indicator_of_mem h]
      · rw [Set.indicator_of_notMem (show n ∉ {n | x ∈ R n} from h), Set.indicator_of_notMem h]
    simp_rw [e1]
    rw [lintegral_tsum fun n => ((hg n).indicator (hR n)).aemeasurable]
    refine tsum_congr fun n => ?_
    rw [lintegral_indicator (hR n)]
    unfold sampledLaw
    rw [Measure.restrict_smul, lintegral_smul_measure, smul_eq_mul, Measure.smul_apply, smul_eq_mul, hW]
    have e2 : ∫⁻ x in R n, law x {n} ∂(targetLaw lo hi prior) = (targetLaw lo hi fun x => (law x).real {n} * prior x) (R n) := by
      unfold targetLaw
      rw [setLIntegral_withDensity_eq_setLIntegral_mul _ hpc.measurable.ennreal_ofReal (hg n) (hR n), withDensity_apply _ (hR n)]
      refine lintegral_congr fun x => ?_
      show ENNReal.ofReal (prior x) * law x {n} = ENNReal.ofReal ((law x).real {n} * prior x)
      rw [ENNReal.ofReal_mul measureReal_nonneg, mul_comm, measureReal_def, ENNReal.ofReal_toReal (measure_ne_top _ _)]
    rw [e2]
    simp only
    rw [mul_assoc, ← mul_assoc ((targetLaw lo hi fun x => (law x).real {n} * prior x) Set.univ), ENNReal.mul_inv_cancel (hZn n).1 (hZn n).2, one_mul]
  have hsum1 : ∑' n, W n = 1 := by
    have := key (fun _ => Set.univ) (fun _ => MeasurableSet.univ)
    simp only [Set.mem_univ, Set.setOf_true, measure_univ, mul_one, lintegral_const, one_mul] at this
    exact this.symm
  have hWtop : ∀ n, W n ≠ ∞ := fun n => ne_top_of_le_ne_top (by rw [hsum1]; simp) (ENNReal.le_tsum n)
  refine ⟨fun n => (W n).toReal, fun n => ENNReal.toReal_nonneg, ?_, fun R hR => ?_⟩
  · have := ENNReal.hasSum_toReal (f := W) (by rw [hsum1]; simp)
    rw [← ENNReal.tsum_toReal_eq hWtop, hsum1] at this
    simpa using this
  · have hk' := key R hR
    have hle : ∑' n, W n * (sampledLaw lo hi fun x => (law x).real {n} * prior x) (R n) ≤ 1 := by
      rw [← hsum1]
      refine ENNReal.tsum_le_tsum fun n => ?_
      calc _ ≤ W n * 1 := by gcongr; exact prob_le_one
        _ = W n := mul_one _
    have hne : ∑' n, W n * (sampledLaw lo hi fun x => (law x).real {n} * prior x) (R n) ≠ ∞ := ne_top_of_le_ne_top (by simp) hle
    have h2 := ENNReal.hasSum_toReal hne
    have e3 : coverageOf lo hi prior law R = ∑' n, (W n * (sampledLaw lo hi fun x => (law x).real {n} * prior x) (R n)).toReal := by
      rw [← ENNReal.tsum_toReal_eq (fun n => ENNReal.mul_ne_top (hWtop n) (measure_ne_top _ _)), ← hk']
      unfold coverageOf
      simp only [measureReal_def]
      rw [integral_toReal]
      · have hmeas : Measurable fun x : Fin p → ℝ => law x {n | x ∈ R n} := by
          have e1 : (fun x : Fin p → ℝ => law x {n | x ∈ R n}) = fun x => ∑' n, (R n).indicator (fun x => law x {n}) x := by
            funext x
            rw [← Measure.tsum_indicator_apply_singleton _ _ (MeasurableSet.of_discrete)]
            refine tsum_congr fun n => ?_
            by_cases h : x ∈ R n
            · rw [Set.indicator_of_mem (show n ∈ {n | x ∈ R n} from h), Set.indicator_of_mem h]
            · rw [Set.indicator_of_notMem (show n ∉ {n | x ∈ R n} from h), Set.indicator_of_notMem h]
          rw [e1]
          exact Measurable.ennreal_tsum fun n => (hg n).indicator (hR n)
        exact hmeas.aemeasurable
      · exact Eventually.of_forall fun x => measure_lt_top _ _
    rw [e3]
    simpa only [ENNReal.toReal_mul, measureReal_def] using h2


/-- The same with everything continuous between the limits only. -/
theorem coverageOf_eq_on (hlt : ∀ i, lo i < hi i) {prior : (Fin p → ℝ) → ℝ} (hpc : ContinuousOn prior (limitBox lo hi)) (hP0 : ∀ x ∈ limitBox lo hi, 0 < prior x) {law : (Fin p → ℝ) → Measure Y}
    (hlp : ∀ x ∈ limitBox lo hi, IsProbabilityMeasure (law x)) (hlc : ∀ n, ContinuousOn (fun x => (law x).real {n}) (limitBox lo hi)) (hl0 : ∀ x ∈ limitBox lo hi, ∀ n, 0 < (law x).real {n}) :
    ∃ w : Y → ℝ, (∀ n, 0 ≤ w n) ∧ HasSum w 1 ∧ ∀ R : Y → Set (Fin p → ℝ), (∀ n, MeasurableSet (R n)) →
      HasSum (fun n => w n * (sampledLaw lo hi fun x => (law x).real {n} * prior x).real (R n)) (coverageOf lo hi prior law R) := by
  have hm := clampTo_mem hlt
  have hcl := clampTo_continuous lo hi
  have : ∀ x, IsProbabilityMeasure (law (clampTo lo hi x)) := fun x => hlp _ (hm x)
  obtain ⟨w, w0, w1, H⟩ := coverageOf_eq (prior := fun x => prior (clampTo lo hi x)) (law := fun x => law (clampTo lo hi x)) hlt (hpc.comp_continuous hcl hm) (fun x _ => hP0 _ (hm x))
    (fun n => (hlc n).comp_continuous hcl hm) (fun x _ n => hl0 _ (hm x) n)
  refine ⟨w, w0, w1, fun R hR => ?_⟩
  have h := H R hR
  have e1 : ∀ n, (sampledLaw lo hi fun x => (law (clampTo lo hi x)).real {n} * prior (clampTo lo hi x)) = sampledLaw lo hi fun x => (law x).real {n} * prior x := fun n =>
    sampledLaw_congr fun x hx => by rw [clampTo_eq hx]
  have e2 : coverageOf lo hi (fun x => prior (clampTo lo hi x)) (fun x => law (clampTo lo hi x)) R = coverageOf lo hi prior law R := by
    unfold coverageOf
    rw [sampledLaw_congr (P := fun x => prior (clampTo lo hi x)) (Q := prior) fun x hx => by rw [clampTo_eq hx]]
    refine integral_congr_ae ?_
    have : ∀ᵐ x ∂(sampledLaw lo hi prior), x ∈ limitBox lo hi := by
      unfold sampledLaw
      refine Measure.ae_smul_measure ?_ _
      exact (mem_ae_iff).2 targetLaw_outside
    filter_upwards [this] with x hx
    rw [clampTo_eq hx]
  rw [e2] at h
  simpa only [e1] using h

end

theorem regionOf_eq (c : AxisCollection ℝ) (as : List (BinAxis ℝ)) (ks : List String) (B : Finset ℕ) : regionOf c as ks B = ⋃ b ∈ B, binRegion c as ks b := by
  ext x; simp [regionOf]

theorem regionOf_measure {c : AxisCollection ℝ} {as : List (BinAxis ℝ)} {ks : List String} {B : Finset ℕ} (hB : ∀ b ∈ B, MeasurableSet (binRegion c as ks b))
    (μ : Measure (Fin ks.length → ℝ)) [IsFiniteMeasure μ] : μ.real (regionOf c as ks B) = ∑ b ∈ B, μ.real (binRegion c as ks b) := by
  rw [regionOf_eq]
  refine measureReal_biUnion_finset ?_ hB
  intro b _ b' _ hne
  refine Set.disjoint_left.2 fun x hx hx' => hne ?_
  have h1 : c.findBin (axisCoords as ks x) = .ok b := hx
  have h2 : c.findBin (axisCoords as ks x) = .ok b' := hx'
  rw [h1] at h2
  exact Res.ok.inj h2


section
variable {Y : Type} [MeasurableSpace Y] [MeasurableSingletonClass Y] [Countable Y] {ks : List String} {lo hi : Fin ks.length → ℝ}

instance chainNoise_prob (k N : Nat) : IsProbabilityMeasure (chainNoise k N) := by
  have : IsProbabilityMeasure (volume.restrict (Set.Ico (0 : ℝ) 1)) := ⟨by simp⟩
  unfold chainNoise
  infer_instance

open Classical in
/-- Where the histograms of chains converge to the posterior, bins read off them cover the truth. -/
theorem cover_of_histograms (hk : NamesSorted ks) (hlt : ∀ i, lo i < hi i) {m : MCMC ℝ} {s : MetropolisSampler ℝ} {prior : (Fin ks.length → ℝ) → ℝ} (hpc : ContinuousOn prior (limitBox lo hi))
    (hP0 : ∀ x ∈ limitBox lo hi, 0 < prior x) {law : (Fin ks.length → ℝ) → Measure Y}
    (hlp : ∀ x ∈ limitBox lo hi, IsProbabilityMeasure (law x)) (hlc : ∀ n, ContinuousOn (fun x => (law x).real {n}) (limitBox lo hi)) (hl0 : ∀ x ∈ limitBox lo hi, ∀ n, 0 < (law x).real {n})
    {as : List (BinAxis ℝ)} (hax : (AxisCollection.empty : AxisCollection ℝ).addAxes as = .ok m.samples.axes) (hasne : as ≠ []) (hc : ∀ a ∈ as, a.Contiguous)
    {run : Y → MCMC ℝ → (String → ℝ) → List (MCInput ℝ) → MCMC ℝ → Prop}
    (hconv : ∀ n, HistogramConverges ks lo hi m s as (fun x => (law x).real {n} * prior x) (run n))
    {x0 : Y → (Fin ks.length → ℝ)} (hx0 : ∀ n, x0 n ∈ limitBox lo hi) {burnIn thin : Int} (hth : thin ≠ 0) (r : String → ℝ) :
    RegionsCover ks lo hi m s as prior law x0 burnIn thin r run := by
  choose K hK using hconv
  have hK' := fun n N hN => hK n (x0 n) (hx0 n) burnIn thin hth N r hN
  choose cnt0 hrun hsq using hK'
  have hlik : ∀ n N (hN : 0 < N), ∀ b, b < m.samples.axes.nBins → 0 < recordedCount burnIn thin N → ∀ δ : ℝ, 0 < δ →
      (chainNoise ks.length N).real {ω | δ ≤ |cnt0 n N hN ω b / recordedCount burnIn thin N - (sampledLaw lo hi fun x => (law x).real {n} * prior x).real (binRegion m.samples.axes as ks b)|} ≤
        K n / (recordedCount burnIn thin N * δ ^ 2) := by
    intro n N hN b hb hrec δ hδ
    obtain ⟨h3, h4⟩ := hsq n N hN b hb hrec
    have := Ergodic.unlikely h3 h4 hδ
    rwa [div_div] at this
  refine ⟨fun N n => if hN : 0 < N then cnt0 n N hN else fun _ _ => 0, fun N hN n ω => ?_, fun B hB q hq1 ε hε => ?_⟩
  · obtain ⟨m', a, b⟩ := hrun n N hN ω
    exact ⟨m', a, by simpa only [dif_pos hN] using b⟩
  obtain ⟨w, w0, w1, H⟩ := coverageOf_eq_on hlt hpc hP0 hlp hlc hl0
  have hprob : ∀ n : Y, IsProbabilityMeasure (sampledLaw lo hi fun x => (law x).real {n} * prior x) := fun n => by
    have hb := bounded_of_continuous hlt (((hlc n).mul hpc).comp_continuous (clampTo_continuous lo hi) (clampTo_mem hlt))
      (fun x _ => mul_pos (hl0 _ (clampTo_mem hlt x) n) (hP0 _ (clampTo_mem hlt x)))
    have := sampledLaw_prob hlt hb
    have e : (((fun x => (law x).real {n}) * prior) ∘ clampTo lo hi) = fun x => (law (clampTo lo hi x)).real {n} * prior (clampTo lo hi x) := rfl
    rwa [e, sampledLaw_congr (P := fun x => (law (clampTo lo hi x)).real {n} * prior (clampTo lo hi x)) (Q := fun x => (law x).real {n} * prior x) (fun x hx => by rw [clampTo_eq hx])] at this
  have hreg : ∀ b, b < m.samples.axes.nBins → MeasurableSet (binRegion m.samples.axes as ks b) := fun b hb => binRegion_measurable hk hax hasne hc hb
  -- finitely many data sets make up nearly all experiments
  obtain ⟨F, hF⟩ : ∃ F : Finset (Y), 1 - ε / 2 < ∑ n ∈ F, w n := by
    have := (tendsto_order.1 w1).1 (1 - ε / 2) (by linarith)
    exact this.exists
  have hF1 : ∑ n ∈ F, w n ≤ 1 := sum_le_hasSum F (fun n _ => w0 n) w1
  set nb := m.samples.axes.nBins with hnb
  set δ : ℝ := ε / (2 * (nb + 1)) with hδ
  have hδ0 : 0 < δ := by rw [hδ]; positivity
  have hnbδ : nb * δ ≤ ε / 2 := by
    rw [hδ, mul_div_assoc', div_le_div_iff₀ (by positivity) (by norm_num)]
    nlinarith
  have hlim : Tendsto (fun N => ∑ n ∈ F, nb * (K n / (recordedCount burnIn thin N * δ ^ 2))) atTop (𝓝 0) := by
    have : Tendsto (fun N => ∑ n ∈ F, nb * (K n / (recordedCount burnIn thin N * δ ^ 2))) atTop (𝓝 (∑ n ∈ F, nb * 0)) := by
      refine tendsto_finsetSum _ fun n _ => Tendsto.const_mul _ ?_
      exact Tendsto.div_atTop tendsto_const_nhds ((recordedCount_tendsto burnIn thin hth).atTop_mul_const (by positivity))
    simpa using this
  refine squeeze_zero' (Eventually.of_forall fun _ => measureReal_nonneg) ?_ hlim
  filter_upwards [eventually_gt_atTop 0, (recordedCount_tendsto burnIn thin hth).eventually_gt_atTop 0] with N hN hrec
  have hrec' : 0 < recordedCount burnIn thin N := by exact_mod_cast hrec
  simp only [dif_pos hN]
  -- away from these sets of random numbers the histograms are right
  set P := chainNoise ks.length N with hP
  refine le_trans (measureReal_mono (s₂ := ⋃ n ∈ F, ⋃ b ∈ Finset.range nb, {ω | δ ≤ |cnt0 n N hN ω b / recordedCount burnIn thin N -
    (sampledLaw lo hi fun x => (law x).real {n} * prior x).real (binRegion m.samples.axes as ks b)|}) ?_ (measure_ne_top _ _)) ?_
  · intro ω hω
    by_contra hno
    simp only [Set.mem_iUnion, not_exists] at hno
    have hgood : ∀ n ∈ F, ∀ b, b < nb → |cnt0 n N hN ω b / recordedCount burnIn thin N - (sampledLaw lo hi fun x => (law x).real {n} * prior x).real (binRegion m.samples.axes as ks b)| < δ :=
      fun n hn b hb => not_le.1 (hno n hn b (Finset.mem_range.2 hb))
    refine absurd (show _ < q - ε from hω) (not_lt.2 ?_)
    set R : (Y) → Set (Fin ks.length → ℝ) := fun n => {x | (∑ b ∈ B N n ω, cnt0 n N hN ω b) / recordedCount burnIn thin N < q ∨ x ∈ regionOf m.samples.axes as ks (B N n ω)} with hR
    have hRm : ∀ n, MeasurableSet (R n) := by
      intro n
      refine (MeasurableSet.const _).union ?_
      rw [regionOf_eq]
      exact Finset.measurableSet_biUnion _ fun b hb => hreg b (hB N n ω b hb)
    have hpost : ∀ n ∈ F, q - ε / 2 ≤ (sampledLaw lo hi fun x => (law x).real {n} * prior x).real (R n) := by
      intro n hn
      by_cases hlow : (∑ b ∈ B N n ω, cnt0 n N hN ω b) / recordedCount burnIn thin N < q
      · have : R n = Set.univ := by ext x; simp [hR, hlow]
        rw [this, probReal_univ]; linarith
      · refine le_trans ?_ (measureReal_mono (s₁ := regionOf m.samples.axes as ks (B N n ω)) (fun x hx => Or.inr hx) (measure_ne_top _ _))
        rw [regionOf_measure (fun b hb => hreg b (hB N n ω b hb))]
        have hcard : ((B N n ω).card : ℝ) ≤ nb := by
          have : B N n ω ⊆ Finset.range nb := fun b hb => Finset.mem_range.2 (hB N n ω b hb)
          exact_mod_cast (Finset.card_le_card this).trans_eq (Finset.card_range nb)
        have : (∑ b ∈ B N n ω, cnt0 n N hN ω b) / recordedCount burnIn thin N - (B N n ω).card * δ ≤
            ∑ b ∈ B N n ω, (sampledLaw lo hi fun x => (law x).real {n} * prior x).real (binRegion m.samples.axes as ks b) := by
          rw [Finset.sum_div, ← nsmul_eq_mul, ← Finset.sum_const, ← Finset.sum_sub_distrib]
          refine Finset.sum_le_sum fun b hb => ?_
          have := (abs_lt.1 (hgood n hn b (hB N n ω b hb))).2
          linarith
        have h3 : ((B N n ω).card : ℝ) * δ ≤ nb * δ := mul_le_mul_of_nonneg_right hcard hδ0.le
        push Not at hlow
        linarith
    have hsum := sum_le_hasSum F (fun n _ => mul_nonneg (w0 n) measureReal_nonneg) (H R hRm)
    refine le_trans ?_ hsum
    have h2 : ∑ n ∈ F, w n * (q - ε / 2) ≤ ∑ n ∈ F, w n * (sampledLaw lo hi fun x => (law x).real {n} * prior x).real (R n) :=
      Finset.sum_le_sum fun n hn => mul_le_mul_of_nonneg_left (hpost n hn) (w0 n)
    refine le_trans ?_ h2
    rw [← Finset.sum_mul]
    by_cases hqe : 0 ≤ q - ε / 2
    · nlinarith
    · nlinarith
  · refine (measureReal_biUnion_finset_le _ _).trans (Finset.sum_le_sum fun n hn => (measureReal_biUnion_finset_le _ _).trans ?_)
    rw [← nsmul_eq_mul, ← Finset.card_range nb, ← Finset.sum_const, Finset.card_range nb]
    exact Finset.sum_le_sum fun b hb => hlik n N hN b (Finset.mem_range.1 hb) hrec' δ hδ0


end

/-! ### Fits with systematics -/

theorem ratesLaw_pos {m : Nat} {μ : Fin m → ℝ} (h : ∀ b, 0 < μ b) (n : Fin m → ℕ) : 0 < (ratesLaw μ).real {n} := by
  rw [ratesLaw_singleton]
  refine Finset.prod_pos fun b _ => ?_
  rw [poissonMeasure_real_singleton]
  have : 0 < ((μ b).toNNReal : ℝ) := by simpa using h b
  positivity

instance ratesLaw_prob {m : Nat} (μ : Fin m → ℝ) : IsProbabilityMeasure (ratesLaw μ) := by unfold ratesLaw; infer_instance

section
variable {ks : List String} {name : Nat → String} {C : FitSys σ ℝ} {calls : List ManagerCall} {log : List (BinnedED ℝ × NormStatus)} {L : NLLH σ ℝ} {d : BinnedED ℝ}
  {lo hi : Fin ks.length → ℝ} {M : (Fin ks.length → ℝ) → Fin d.hist.nBins → ℝ} {c : (Fin ks.length → ℝ) → ℝ}

/-- C117. A likelihood with systematics whose rates `M` and constraint term `c` depend continuously on the parameters. Draw the true parameters, those of the systematics and the normalisations, between the
limits with density proportional to `exp (-c)`, and the data from the rates at them; read off the data any regions with posterior probability of at least `q` (at most `q`). The fraction of the experiments
whose region contains the truth is at least `q` (at most `q`). -/
theorem C117_credible (hlt : ∀ i, lo i < hi i) (hpt : ∀ x ∈ limitBox lo hi, SysPoint C calls log L.constraints L.objs ks (pointDict ks x) (M x) (c x)) (hM : ContinuousOn M (limitBox lo hi))
    (hcc : ContinuousOn c (limitBox lo hi)) {R : (Fin d.hist.nBins → ℕ) → Set (Fin ks.length → ℝ)} (hR : ∀ n, MeasurableSet (R n)) (q : ℝ) :
    ((∀ n, q ≤ (sampledLaw lo hi fun x => (ratesLaw (M x)).real {n} * Real.exp (-(c x))).real (R n)) → q ≤ coverageOf lo hi (fun x => Real.exp (-(c x))) (fun x => ratesLaw (M x)) R) ∧
    ((∀ n, (sampledLaw lo hi fun x => (ratesLaw (M x)).real {n} * Real.exp (-(c x))).real (R n) ≤ q) → coverageOf lo hi (fun x => Real.exp (-(c x))) (fun x => ratesLaw (M x)) R ≤ q) := by
  obtain ⟨w, w0, w1, H⟩ := coverageOf_eq_on (prior := fun x => Real.exp (-(c x))) (law := fun x => ratesLaw (M x)) hlt (Real.continuous_exp.comp_continuousOn hcc.neg) (fun _ _ => Real.exp_pos _)
    (fun _ _ => inferInstance) (fun n => (ratesLaw_continuous continuous_id n).comp_continuousOn hM) (fun x hx n => ratesLaw_pos (hpt x hx).positive n)
  have h1 := w1.mul_right q
  rw [one_mul] at h1
  exact ⟨fun h => hasSum_le (fun n => mul_le_mul_of_nonneg_left (h n) (w0 n)) h1 (H R hR), fun h => hasSum_le (fun n => mul_le_mul_of_nonneg_left (h n) (w0 n)) (H R hR) h1⟩

/-- C117, with the chain: a chain with Gaussian steps is run on the likelihood object itself, with its systematics, given the data. Bins chosen by any rule in which the chain spent a fraction `q` of its steps
contain the truth in nearly a fraction `q` of the experiments. -/
theorem C117_chain (hC : C.Refreshing) (h : SysSetup name C calls log L d)
    (hn : ∀ n : Fin d.hist.nBins → ℕ, ∃ ps, ((L.setDataDist (withCounts d n)).registerFitComponents name).getParameters C = .ok ps ∧ ps.keys = ks) (hk : NamesSorted ks) (hlt : ∀ i, lo i < hi i)
    (hpt : ∀ x ∈ limitBox lo hi, SysPoint C calls log L.constraints L.objs ks (pointDict ks x) (M x) (c x)) (hM : ContinuousOn M (limitBox lo hi)) (hcc : ContinuousOn c (limitBox lo hi))
    {m : MCMC ℝ} (hl : HasLimits m ks lo hi) (hmin : m.minima.length = ks.length) (hmax : m.maxima.length = ks.length) (hlog : m.logged = true) (hflip : m.flip = true)
    {s : MetropolisSampler ℝ} (hs : ∀ i : Fin ks.length, ks[i] ∉ s.fixed ∧ ∃ sg, s.sigmas.find ks[i] = some sg ∧ sg ≠ 0)
    (hf : m.samples.Fresh) (hfull : m.samples.saveFull = true) (hch : m.samples.saveChain = false) (hq : 0 < m.samples.auto.qLen)
    {as : List (BinAxis ℝ)} (hax : (AxisCollection.empty : AxisCollection ℝ).addAxes as = .ok m.samples.axes) (hne : as ≠ []) (hcont : ∀ a ∈ as, a.Contiguous)
    (hlen : as.length = ks.length) (hnm : ∀ a ∈ as, a.name ∈ ks) {x0 : (Fin d.hist.nBins → ℕ) → (Fin ks.length → ℝ)} (hx0 : ∀ n, x0 n ∈ limitBox lo hi)
    {burnIn thin : Int} (hth : thin ≠ 0) (r : String → ℝ) :
    RegionsCover ks lo hi m s as (fun x => Real.exp (-(c x))) (fun x => ratesLaw (M x)) x0 burnIn thin r
      fun n m r ins m' => ∃ res L', m.optimiseOn Real.exp (NLLH.object name C CMath.real) (L.setDataDist (withCounts d n)) r ins = .ok ((m', res), L') := by
  refine cover_of_histograms hk hlt (Real.continuous_exp.comp_continuousOn hcc.neg) (fun _ _ => Real.exp_pos _)
    (fun _ _ => inferInstance) (fun n => (ratesLaw_continuous continuous_id n).comp_continuousOn hM) (fun x hx n => ratesLaw_pos (hpt x hx).positive n) hax hne hcont (fun n => ?_) hx0 hth r
  obtain ⟨ps, h1, h2⟩ := hn n
  exact C112_systematics_histogram hC h n h1 h2 hk hlt hpt hM hcc hl hmin hmax hlog hflip hs hf hfull hch hq hax hne hcont hlen hnm

end

/-! ### Joint fits -/

section
variable {k : Nat}

/-- The density of the true normalisations of a joint fit: the product of the Gaussians of the constraints of the channels and of the sum. -/
noncomputable def jointPriorAt (cs : Fin k → List (String × ℝ × ℝ)) (cs₀ : List (String × ℝ × ℝ)) (D : ParamDict ℝ) : ℝ := (∏ p, priorAt (cs p) D) * priorAt cs₀ D

instance dataLaw_prob' (log : List (BinnedED ℝ × NormStatus)) (D : ParamDict ℝ) (m : Nat) : IsProbabilityMeasure (dataLaw log D m) := by unfold dataLaw; infer_instance
instance jointLaw_prob (log : Fin k → List (BinnedED ℝ × NormStatus)) (D : ParamDict ℝ) (m : Fin k → Nat) : IsProbabilityMeasure (jointLaw log D m) := by unfold jointLaw; infer_instance

theorem jointLaw_singleton (log : Fin k → List (BinnedED ℝ × NormStatus)) (D : ParamDict ℝ) {m : Fin k → Nat} (n : ∀ p, Fin (m p) → ℕ) :
    (jointLaw log D m).real {n} = ∏ p, (dataLaw (log p) D (m p)).real {n p} := by
  unfold jointLaw
  rw [measureReal_def, Measure.pi_singleton, ENNReal.toReal_prod]
  rfl

theorem jointPosterior_eq (log : Fin k → List (BinnedED ℝ × NormStatus)) (cs : Fin k → List (String × ℝ × ℝ)) (cs₀ : List (String × ℝ × ℝ)) {m : Fin k → Nat} (n : ∀ p, Fin (m p) → ℕ) (D : ParamDict ℝ) :
    jointPosterior log cs cs₀ n D = (jointLaw log D m).real {n} * jointPriorAt cs cs₀ D := by
  rw [jointLaw_singleton]
  unfold jointPosterior jointPriorAt
  rw [← mul_assoc, ← Finset.prod_mul_distrib]
  rfl

variable {log : Fin k → List (BinnedED ℝ × NormStatus)} {cs : Fin k → List (String × ℝ × ℝ)} {cs₀ : List (String × ℝ × ℝ)} {ks : List String} {lo hi : Fin ks.length → ℝ} {mb : Fin k → Nat}

theorem jointPriorAt_continuous (hk : NamesSorted ks) (cs : Fin k → List (String × ℝ × ℝ)) (cs₀ : List (String × ℝ × ℝ)) : Continuous fun x : Fin ks.length → ℝ => jointPriorAt cs cs₀ (pointDict ks x) := by
  unfold jointPriorAt
  exact (continuous_finsetProd _ fun p _ => priorAt_continuous hk (cs p)).mul (priorAt_continuous hk cs₀)

theorem jointLaw_continuous (hk : NamesSorted ks) (log : Fin k → List (BinnedED ℝ × NormStatus)) (n : ∀ p, Fin (mb p) → ℕ) : Continuous fun x : Fin ks.length → ℝ => (jointLaw log (pointDict ks x) mb).real {n} := by
  simp only [jointLaw_singleton]
  refine continuous_finsetProd _ fun p _ => ?_
  have := posterior_continuous hk (log p) [] (n p)
  simpa [posterior] using this

/-- C117, joint fits: the true normalisations of several channels are drawn between the limits with the densities of all the constraints, and the data of every channel from its model at them. Regions with posterior
probability of at least `q` (at most `q`) contain the truth in a fraction of at least `q` (at most `q`) of the experiments. -/
theorem C117_joint_credible (hk : NamesSorted ks) (hlt : ∀ i, lo i < hi i) (hw : ∀ p, ∀ q ∈ cs p, 0 < q.2.2) (hw₀ : ∀ q ∈ cs₀, 0 < q.2.2)
    (hpos : ∀ x ∈ limitBox lo hi, ∀ p b, b < mb p → 0 < rateAt (log p) (pointDict ks x) b) {R : (∀ p, Fin (mb p) → ℕ) → Set (Fin ks.length → ℝ)} (hR : ∀ n, MeasurableSet (R n)) (q : ℝ) :
    ((∀ n, q ≤ (sampledLaw lo hi fun x => jointPosterior log cs cs₀ n (pointDict ks x)).real (R n)) →
      q ≤ coverageOf lo hi (fun x => jointPriorAt cs cs₀ (pointDict ks x)) (fun x => jointLaw log (pointDict ks x) mb) R) ∧
    ((∀ n, (sampledLaw lo hi fun x => jointPosterior log cs cs₀ n (pointDict ks x)).real (R n) ≤ q) →
      coverageOf lo hi (fun x => jointPriorAt cs cs₀ (pointDict ks x)) (fun x => jointLaw log (pointDict ks x) mb) R ≤ q) := by
  obtain ⟨w, w0, w1, H⟩ := coverageOf_eq (prior := fun x => jointPriorAt cs cs₀ (pointDict ks x)) (law := fun x => jointLaw log (pointDict ks x) mb) hlt (jointPriorAt_continuous hk cs cs₀)
    (fun x _ => mul_pos (Finset.prod_pos fun p _ => priorAt_pos (hw p) _) (priorAt_pos hw₀ _)) (jointLaw_continuous hk log)
    (fun x hx n => by rw [jointLaw_singleton]; exact Finset.prod_pos fun p _ => dataLaw_pos (hpos x hx p) (n p))
  have h1 := w1.mul_right q
  rw [one_mul] at h1
  simp only [jointPosterior_eq]
  exact ⟨fun h => hasSum_le (fun n => mul_le_mul_of_nonneg_left (h n) (w0 n)) h1 (H R hR), fun h => hasSum_le (fun n => mul_le_mul_of_nonneg_left (h n) (w0 n)) (H R hR) h1⟩

end

/-! Concrete cases: gain and normalisation, with a flat prior -/

theorem exGain_positions {x : Fin 2 → ℝ} (hx : x ∈ limitBox (n := 2) (fun _ => (1 : ℝ)) (fun _ => 10)) :
    SysPoint exGain [.add 0, .addDist "s" [""]] [(exRealPdf "s" (1/2) (1/2), .direct)] exGainBase.constraints exGainBase.objs ["g", "s"] (pointDict ["g", "s"] x) ![x 1 * (x 0 / 2), x 1 * (1 / 2)] 0 := by
  rw [exGain_pointDict x]
  have a0 := (hx 0).1
  have a1 := (hx 1).1
  exact exGain_point (by linarith) (by linarith)

theorem exGain_rates_continuous : ContinuousOn (fun x : Fin 2 → ℝ => (![x 1 * (x 0 / 2), x 1 * (1 / 2)] : Fin 2 → ℝ)) (limitBox (fun _ => (1 : ℝ)) (fun _ => 10)) := by
  refine Continuous.continuousOn (continuous_pi fun b => ?_)
  fin_cases b
  · show Continuous fun x : Fin 2 → ℝ => x 1 * (x 0 / 2); fun_prop
  · show Continuous fun x : Fin 2 → ℝ => x 1 * (1 / 2); fun_prop

theorem exGainAxes : ∃ (a b : BinAxis ℝ) (c : AxisCollection ℝ), BinAxis.mkEqual "g" 1 10 3 = .ok a ∧ BinAxis.mkEqual "s" 1 10 3 = .ok b ∧
    a.name = "g" ∧ b.name = "s" ∧ (AxisCollection.empty : AxisCollection ℝ).addAxes [a, b] = .ok c := by
  obtain ⟨a, ha⟩ := (C01_equalAxis_accepts "g" "" (1 : ℝ) 10 3).1.2 ⟨by norm_num, by norm_num⟩
  obtain ⟨b, hb⟩ := (C01_equalAxis_accepts "s" "" (1 : ℝ) 10 3).1.2 ⟨by norm_num, by norm_num⟩
  have na := (C01_equalAxis_tiles _ _ _ _ _ _ ha).1
  have nb := (C01_equalAxis_tiles _ _ _ _ _ _ hb).1
  obtain ⟨c, hc⟩ := (C04_build [a, b]).1 (by simp [na, nb])
  exact ⟨a, b, c, ha, hb, na, nb, hc⟩

-- a rule that always takes the lower half of the gain: if it never has more than 0.9 of the posterior, it covers at most 0.9 of the time
example (h : ∀ n : Fin 2 → ℕ, (sampledLaw (n := 2) (fun _ => 1) (fun _ => 10) fun x => (ratesLaw (![x 1 * (x 0 / 2), x 1 * (1 / 2)] : Fin 2 → ℝ)).real {n} * Real.exp (-0)).real {x | x 0 ≤ 11 / 2} ≤ 9 / 10) :
    coverageOf (p := 2) (fun _ => 1) (fun _ => 10) (fun _ => Real.exp (-0)) (fun x => ratesLaw (![x 1 * (x 0 / 2), x 1 * (1 / 2)] : Fin 2 → ℝ)) (fun _ : Fin 2 → ℕ => {x | x 0 ≤ 11 / 2}) ≤ 9 / 10 :=
  (C117_credible (ks := ["g", "s"]) (d := exRealPdf "d" 0 0) (M := fun x : Fin 2 → ℝ => (![x 1 * (x 0 / 2), x 1 * (1 / 2)] : Fin 2 → ℝ)) (c := fun _ => 0) (fun _ => by norm_num) (fun x hx => exGain_positions hx)
    exGain_rates_continuous continuousOn_const (R := fun _ => {x | x 0 ≤ 11 / 2}) (fun _ => measurableSet_le (measurable_pi_apply 0) measurable_const) (9 / 10)).2 h

-- chains of gain and normalisation with three by three bins
example : ∃ (a b : BinAxis ℝ) (c : AxisCollection ℝ), BinAxis.mkEqual "g" 1 10 3 = .ok a ∧ BinAxis.mkEqual "s" 1 10 3 = .ok b ∧
    RegionsCover ["g", "s"] (fun _ => 1) (fun _ => 10) { exGainChain with samples := { MCMCSamples.new with saveFull := true, axes := c } } ⟨[("g", 1/2), ("s", 2)], []⟩ [a, b]
      (fun _ => Real.exp (-0)) (fun x => ratesLaw (![x 1 * (x 0 / 2), x 1 * (1 / 2)] : Fin 2 → ℝ)) (fun _ => fun _ => 2) 1000 2 (fun _ => 0)
      fun n m r ins m' => ∃ res L', m.optimiseOn Real.exp (NLLH.object exSysName exGain CMath.real) (exGainBase.setDataDist (withCounts (exRealPdf "d" 0 0) n)) r ins = .ok ((m', res), L') := by
  obtain ⟨a, b, c, ha, hb, na, nb, hc⟩ := exGainAxes
  exact ⟨a, b, c, ha, hb, C117_chain (ks := ["g", "s"]) (d := exRealPdf "d" 0 0) (M := fun x : Fin 2 → ℝ => (![x 1 * (x 0 / 2), x 1 * (1 / 2)] : Fin 2 → ℝ)) (c := fun _ => 0) exGain_refreshing exGainBase_setup
    exGain_parameters exGainNames_sorted (fun _ => by norm_num) (fun x hx => exGain_positions hx) exGain_rates_continuous continuousOn_const
    (m := { exGainChain with samples := { MCMCSamples.new with saveFull := true, axes := c } })
    ⟨by intro i; fin_cases i <;> simp [exGainChain, SMap.find], by intro i; fin_cases i <;> simp [exGainChain, SMap.find]⟩ rfl rfl rfl rfl (by
      intro i
      fin_cases i
      · exact ⟨by simp, 1/2, by simp [SMap.find], by norm_num⟩
      · exact ⟨by simp, 2, by simp [SMap.find], by norm_num⟩)
    ⟨rfl, rfl, rfl, rfl⟩ rfl rfl (by show 0 < 1000; omega) hc (by simp) (by
        intro q hq
        simp only [List.mem_cons, List.not_mem_nil, or_false] at hq
        rcases hq with rfl | rfl
        · exact BinAxis.mkEqual_contiguous ha
        · exact BinAxis.mkEqual_contiguous hb) rfl (by
        intro q hq
        simp only [List.mem_cons, List.not_mem_nil, or_false] at hq
        rcases hq with rfl | rfl
        · rw [na]; simp
        · rw [nb]; simp) (fun n i => ⟨by norm_num, by norm_num⟩) (by decide) _⟩

end Oxsx
