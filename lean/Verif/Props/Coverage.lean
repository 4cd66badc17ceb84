import Verif.Props.ConvergeHist
import Verif.Props.FitQuality
set_option linter.unusedSectionVars false
set_option linter.unusedSimpArgs false
set_option linter.unusedVariables false
/-
C114: coverage of credible regions. True normalisations are drawn from the prior that the constraints and the limits of the chain stand for, data are drawn from the model at
these, and a region of the parameters is read off the posterior, or off the histogram of a chain run on the data.
-/
namespace Oxsx
open MeasureTheory ProbabilityTheory Filter
open scoped ENNReal Nat Topology
variable {σ : Type}

/-- The fraction of experiments whose region contains the truth: the truth `x` is drawn between the limits with the densities of the constraints, the data `n` from the model at `x`,
and `R n` is the region that the data give. -/
noncomputable def coverage (log : List (BinnedED ℝ × NormStatus)) (cs : List (String × ℝ × ℝ)) (ks : List String) (lo hi : Fin ks.length → ℝ) {k : Nat}
    (R : (Fin k → ℕ) → Set (Fin ks.length → ℝ)) : ℝ :=
  ∫ x, (dataLaw log (pointDict ks x) k).real {n | x ∈ R n} ∂(sampledLaw lo hi fun x => priorAt cs (pointDict ks x))

section
variable {log : List (BinnedED ℝ × NormStatus)} {cs : List (String × ℝ × ℝ)} {ks : List String} {lo hi : Fin ks.length → ℝ} {k : Nat}

theorem priorAt_continuous (hk : NamesSorted ks) (cs : List (String × ℝ × ℝ)) : Continuous fun x : Fin ks.length → ℝ => priorAt cs (pointDict ks x) := by
  unfold priorAt
  refine list_prod_continuous cs (fun x q => gaussianPDFReal q.2.1 (q.2.2 ^ 2).toNNReal ((SMap.find (pointDict ks x) q.1).getD 0)) fun q _ => ?_
  have hg : Continuous (gaussianPDFReal q.2.1 (q.2.2 ^ 2).toNNReal) := by unfold gaussianPDFReal; fun_prop
  exact hg.comp (pointDict_coord_continuous ks hk _)

theorem priorAt_pos (hw : ∀ q ∈ cs, 0 < q.2.2) (ps : ParamDict ℝ) : 0 < priorAt cs ps := by
  unfold priorAt
  apply List.prod_pos
  intro a ha
  obtain ⟨q, hq, rfl⟩ := List.mem_map.1 ha
  exact gaussianPDFReal_pos _ _ _ (by have := hw q hq; simp; positivity)

theorem dataLaw_pos {ps : ParamDict ℝ} (hpos : ∀ b, b < k → 0 < rateAt log ps b) (n : Fin k → ℕ) : 0 < (dataLaw log ps k).real {n} := by
  rw [dataLaw_singleton]
  refine Finset.prod_pos fun b _ => ?_
  rw [poissonMeasure_real_singleton]
  have : 0 < ((rateAt log ps b).toNNReal : ℝ) := by simpa using hpos b b.2
  positivity

/-- Averaged over truths from the prior and data from the model, the probability of an event is the average of its posterior probabilities. -/
theorem coverage_eq (hk : NamesSorted ks) (hlt : ∀ i, lo i < hi i) (hw : ∀ q ∈ cs, 0 < q.2.2) (hpos : ∀ x ∈ limitBox lo hi, ∀ b, b < k → 0 < rateAt log (pointDict ks x) b) :
    ∃ w : (Fin k → ℕ) → ℝ, (∀ n, 0 ≤ w n) ∧ HasSum w 1 ∧ ∀ R : (Fin k → ℕ) → Set (Fin ks.length → ℝ), (∀ n, MeasurableSet (R n)) →
      HasSum (fun n => w n * (sampledLaw lo hi fun x => posterior log cs n (pointDict ks x)).real (R n)) (coverage log cs ks lo hi R) := by
  have hP0 : ∀ x ∈ limitBox lo hi, 0 < priorAt cs (pointDict ks x) := fun x _ => priorAt_pos hw _
  have hPn : ∀ n : Fin k → ℕ, ∀ x ∈ limitBox lo hi, 0 < posterior log cs n (pointDict ks x) := fun n x hx => mul_pos (dataLaw_pos (hpos x hx) n) (hP0 x hx)
  have hZ0 := targetLaw_total hlt (bounded_of_continuous hlt (priorAt_continuous hk cs) hP0)
  have hZn := fun n : Fin k → ℕ => targetLaw_total hlt (bounded_of_continuous hlt (posterior_continuous hk log cs n) (hPn n))
  have hpr := sampledLaw_prob hlt (bounded_of_continuous hlt (priorAt_continuous hk cs) hP0)
  have hprn := fun n : Fin k → ℕ => sampledLaw_prob hlt (bounded_of_continuous hlt (posterior_continuous hk log cs n) (hPn n))
  set W : (Fin k → ℕ) → ℝ≥0∞ := fun n => ((targetLaw lo hi fun x => priorAt cs (pointDict ks x)) Set.univ)⁻¹ * (targetLaw lo hi fun x => posterior log cs n (pointDict ks x)) Set.univ with hW
  have hg : ∀ n : Fin k → ℕ, Measurable fun x : Fin ks.length → ℝ => dataLaw log (pointDict ks x) k {n} := by
    intro n
    have h1 : Measurable fun x : Fin ks.length → ℝ => (dataLaw log (pointDict ks x) k).real {n} := by
      have := (posterior_continuous hk log [] n).measurable
      simpa [posterior] using this
    have h2 := h1.ennreal_ofReal
    simpa [measureReal_def] using h2
  have key : ∀ R : (Fin k → ℕ) → Set (Fin ks.length → ℝ), (∀ n, MeasurableSet (R n)) →
      ∫⁻ x, dataLaw log (pointDict ks x) k {n | x ∈ R n} ∂(sampledLaw lo hi fun x => priorAt cs (pointDict ks x)) =
        ∑' n, W n * (sampledLaw lo hi fun x => posterior log cs n (pointDict ks x)) (R n) := by
    intro R hR
    have e1 : ∀ x : Fin ks.length → ℝ, dataLaw log (pointDict ks x) k {n | x ∈ R n} = ∑' n, (R n).indicator (fun x => dataLaw log (pointDict ks x) k {n}) x := by
      intro x
      rw [← Measure.tsum_indicator_apply_singleton _ _ (MeasurableSet.of_discrete)]
      refine tsum_congr fun n => ?_
      by_cases h : x ∈ R n
      · rw [Set.indicator_of_mem (show n ∈ {n | x ∈ R n} from h), Set.indicator_of_mem h]
      · rw [Set.indicator_of_notMem (show n ∉ {n | x ∈ R n} from h), Set.indicator_of_notMem h]
    simp_rw [e1]
    rw [lintegral_tsum fun n => ((hg n).indicator (hR n)).aemeasurable]
    refine tsum_congr fun n => ?_
    rw [lintegral_indicator (hR n)]
    unfold sampledLaw
    rw [Measure.restrict_smul, lintegral_smul_measure, smul_eq_mul, Measure.smul_apply, smul_eq_mul, hW]
    have e2 : ∫⁻ x in R n, dataLaw log (pointDict ks x) k {n} ∂(targetLaw lo hi fun x => priorAt cs (pointDict ks x)) = (targetLaw lo hi fun x => posterior log cs n (pointDict ks x)) (R n) := by
      unfold targetLaw
      rw [setLIntegral_withDensity_eq_setLIntegral_mul _ (priorAt_continuous hk cs).measurable.ennreal_ofReal (hg n) (hR n), withDensity_apply _ (hR n)]
      refine lintegral_congr fun x => ?_
      show ENNReal.ofReal (priorAt cs (pointDict ks x)) * dataLaw log (pointDict ks x) k {n} = ENNReal.ofReal ((dataLaw log (pointDict ks x) k).real {n} * priorAt cs (pointDict ks x))
      rw [ENNReal.ofReal_mul measureReal_nonneg, mul_comm, measureReal_def, ENNReal.ofReal_toReal (measure_ne_top _ _)]
    rw [e2]
    simp only
    rw [mul_assoc, ← mul_assoc ((targetLaw lo hi fun x => posterior log cs n (pointDict ks x)) Set.univ), ENNReal.mul_inv_cancel (hZn n).1 (hZn n).2, one_mul]
  have hsum1 : ∑' n, W n = 1 := by
    have := key (fun _ => Set.univ) (fun _ => MeasurableSet.univ)
    simp only [Set.mem_univ, Set.setOf_true, measure_univ, mul_one, lintegral_const, one_mul] at this
    exact this.symm
  have hWtop : ∀ n, W n ≠ ∞ := fun n => ne_top_of_le_ne_top (by rw [hsum1]; simp) (ENNReal.le_tsum n)
  refine ⟨fun n => (W n).toReal, fun n => ENNReal.toReal_nonneg, ?_, fun R hR => ?_⟩
  · have := ENNReal.hasSum_toReal (f := W) (by rw [hsum1]; simp)
    rw [← ENNReal.tsum_toReal_eq hWtop, hsum1] at this
    simpa using this
  · have hk' := key R hR
    have hle : ∑' n, W n * (sampledLaw lo hi fun x => posterior log cs n (pointDict ks x)) (R n) ≤ 1 := by
      rw [← hsum1]
      refine ENNReal.tsum_le_tsum fun n => ?_
      calc _ ≤ W n * 1 := by gcongr; exact prob_le_one
        _ = W n := mul_one _
    have hne : ∑' n, W n * (sampledLaw lo hi fun x => posterior log cs n (pointDict ks x)) (R n) ≠ ∞ := ne_top_of_le_ne_top (by simp) hle
    have h2 := ENNReal.hasSum_toReal hne
    have e3 : coverage log cs ks lo hi R = ∑' n, (W n * (sampledLaw lo hi fun x => posterior log cs n (pointDict ks x)) (R n)).toReal := by
      rw [← ENNReal.tsum_toReal_eq (fun n => ENNReal.mul_ne_top (hWtop n) (measure_ne_top _ _)), ← hk']
      unfold coverage
      simp only [measureReal_def]
      rw [integral_toReal]
      · have hmeas : Measurable fun x : Fin ks.length → ℝ => dataLaw log (pointDict ks x) k {n | x ∈ R n} := by
          have e1 : (fun x : Fin ks.length → ℝ => dataLaw log (pointDict ks x) k {n | x ∈ R n}) = fun x => ∑' n, (R n).indicator (fun x => dataLaw log (pointDict ks x) k {n}) x := by
            funext x
            rw [← Measure.tsum_indicator_apply_singleton _ _ (MeasurableSet.of_discrete)]
            refine tsum_congr fun n => ?_
            by_cases h : x ∈ R n
            · rw [Set.indicator_of_mem (show n ∈ {n | x ∈ R n} from h), Set.indicator_of_mem h]
            · rw [Set.indicator_of_notMem (show n ∉ {n | x ∈ R n} from h), Set.indicator_of_notMem h]
          rw [e1]
          exact Measurable.ennreal_tsum fun n => (hg n).indicator (hR n)
        exact hmeas.aemeasurable
      · exact Eventually.of_forall fun x => measure_lt_top _ _
    rw [e3]
    simpa only [ENNReal.toReal_mul, measureReal_def] using h2

/-- C114. Draw the true normalisations between the limits with the densities of the Gaussian constraints, and data from the model at them; read off the data any regions with posterior
probability of at least `q` (at most `q`). The fraction of the experiments whose region contains the truth is at least `q` (at most `q`). -/
theorem C114_credible (hk : NamesSorted ks) (hlt : ∀ i, lo i < hi i) (hw : ∀ q ∈ cs, 0 < q.2.2) (hpos : ∀ x ∈ limitBox lo hi, ∀ b, b < k → 0 < rateAt log (pointDict ks x) b)
    {R : (Fin k → ℕ) → Set (Fin ks.length → ℝ)} (hR : ∀ n, MeasurableSet (R n)) (q : ℝ) :
    ((∀ n, q ≤ (sampledLaw lo hi fun x => posterior log cs n (pointDict ks x)).real (R n)) → q ≤ coverage log cs ks lo hi R) ∧
    ((∀ n, (sampledLaw lo hi fun x => posterior log cs n (pointDict ks x)).real (R n) ≤ q) → coverage log cs ks lo hi R ≤ q) := by
  obtain ⟨w, w0, w1, H⟩ := coverage_eq hk hlt hw hpos
  have h1 := w1.mul_right q
  rw [one_mul] at h1
  exact ⟨fun h => hasSum_le (fun n => mul_le_mul_of_nonneg_left (h n) (w0 n)) h1 (H R hR), fun h => hasSum_le (fun n => mul_le_mul_of_nonneg_left (h n) (w0 n)) (H R hR) h1⟩

end

/-- The number of recorded steps grows without limit. -/
theorem recordedCount_tendsto (burnIn thin : Int) (hth : thin ≠ 0) : Tendsto (fun N => (recordedCount burnIn thin N : ℝ)) atTop atTop := by
  refine tendsto_natCast_atTop_atTop.comp ?_
  refine tendsto_atTop_mono' atTop (f₁ := fun N => recordedCount burnIn thin N) (Eventually.of_forall fun _ => le_rfl) ?_
  refine tendsto_atTop_atTop.2 fun M => ⟨(burnIn.natAbs + 1 + M) * thin.natAbs + 1, fun N hN => ?_⟩
  unfold recordedCount
  have hpos : 0 < thin.natAbs := Int.natAbs_pos.2 hth
  have hinj : Set.InjOn (fun i : ℕ => (burnIn.natAbs + 1 + i) * thin.natAbs) (Finset.range M) := by
    intro a _ b _ h
    have := Nat.eq_of_mul_eq_mul_right hpos h
    omega
  calc M = (Finset.range M).card := (Finset.card_range M).symm
    _ = ((Finset.range M).image fun i : ℕ => (burnIn.natAbs + 1 + i) * thin.natAbs).card := (Finset.card_image_of_injOn hinj).symm
    _ ≤ _ := by
      refine Finset.card_le_card fun j hj => ?_
      obtain ⟨i, hi, rfl⟩ := Finset.mem_image.1 hj
      have hi := Finset.mem_range.1 hi
      refine Finset.mem_filter.2 ⟨Finset.mem_range.2 ?_, ?_, ?_⟩
      · have : (burnIn.natAbs + 1 + i) * thin.natAbs ≤ (burnIn.natAbs + 1 + M) * thin.natAbs := Nat.mul_le_mul_right _ (by omega)
        omega
      · have h1 : burnIn.natAbs + 1 + i ≤ (burnIn.natAbs + 1 + i) * thin.natAbs := Nat.le_mul_of_pos_right _ hpos
        have h2 : burnIn ≤ burnIn.natAbs := Int.le_natAbs
        omega
      · refine dvd_trans ?_ (Int.natCast_dvd_natCast.2 (dvd_mul_left _ _))
        exact Int.dvd_natAbs.2 dvd_rfl

/-- The part of the parameter space in the bins `B`. -/
def binsRegion (c : AxisCollection ℝ) (as : List (BinAxis ℝ)) (ks : List String) (B : Finset ℕ) : Set (Fin ks.length → ℝ) := {x | ∃ b ∈ B, x ∈ binRegion c as ks b}

theorem binsRegion_eq (c : AxisCollection ℝ) (as : List (BinAxis ℝ)) (ks : List String) (B : Finset ℕ) : binsRegion c as ks B = ⋃ b ∈ B, binRegion c as ks b := by
  ext x; simp [binsRegion]

theorem binsRegion_measure {c : AxisCollection ℝ} {as : List (BinAxis ℝ)} {ks : List String} {B : Finset ℕ} (hB : ∀ b ∈ B, MeasurableSet (binRegion c as ks b))
    (μ : Measure (Fin ks.length → ℝ)) [IsFiniteMeasure μ] : μ.real (binsRegion c as ks B) = ∑ b ∈ B, μ.real (binRegion c as ks b) := by
  rw [binsRegion_eq]
  refine measureReal_biUnion_finset ?_ hB
  intro b _ b' _ hne
  refine Set.disjoint_left.2 fun x hx hx' => hne ?_
  have h1 : c.findBin (axisCoords as ks x) = .ok b := hx
  have h2 : c.findBin (axisCoords as ks x) = .ok b' := hx'
  rw [h1] at h2
  exact Res.ok.inj h2

open Classical in
/-- C114, with the chain: the truth is drawn between the limits with the densities of the constraints, data are drawn from the model at it, and a chain with Gaussian steps is run on the fit statistic of
the data, keeping its full histogram. By any rule choose bins of the parameters for the data and the run. With a probability, over the random numbers of the chain, that
goes to one with the number of steps, the fraction of the experiments in which the truth is in the chosen bins, or the chain has put less than a fraction `q` of its steps into them, is at least
`q - ε`. -/
theorem C114_chain {name : Nat → String} {C : FitSys σ ℝ} {objs : Nat → σ} {log : List (BinnedED ℝ × NormStatus)} {d : BinnedED ℝ}
    {cs : List (String × ℝ × ℝ)} (hd : (cs.map (·.1)).Nodup) (hw : ∀ q ∈ cs, q.1 ∈ PdfLog.fitted log ∧ 0 < q.2.2) (h : CanFit log d)
    {ks : List String} (hk : NamesSorted ks) (hne : ks ≠ [])
    (hall : (PdfLog.fitted log).Perm ks) {m : MCMC ℝ} (hlog : m.logged = true) (hflip : m.flip = true) {lo hi : Fin ks.length → ℝ}
    (hl : HasLimits m ks lo hi) (hmin : m.minima.length = ks.length) (hmax : m.maxima.length = ks.length)
    (hlt : ∀ i, lo i < hi i) (hpos : ∀ x ∈ limitBox lo hi, ∀ b, b < d.hist.nBins → 0 < rateAt log (pointDict ks x) b)
    {s : MetropolisSampler ℝ} (hs : ∀ i : Fin ks.length, ks[i] ∉ s.fixed ∧ ∃ sg, s.sigmas.find ks[i] = some sg ∧ sg ≠ 0)
    (hf : m.samples.Fresh) (hfull : m.samples.saveFull = true) (hch : m.samples.saveChain = false) (hq : 0 < m.samples.auto.qLen)
    {as : List (BinAxis ℝ)} (hax : (AxisCollection.empty : AxisCollection ℝ).addAxes as = .ok m.samples.axes) (hasne : as ≠ []) (hc : ∀ a ∈ as, a.Contiguous)
    (hlen : as.length = ks.length) (hnm : ∀ a ∈ as, a.name ∈ ks) {x0 : (Fin d.hist.nBins → ℕ) → (Fin ks.length → ℝ)} (hx0 : ∀ n, x0 n ∈ limitBox lo hi)
    {burnIn thin : Int} (hth : thin ≠ 0) (r : String → ℝ) :
    ∃ cons, setGaussians cs = .ok cons ∧ ∃ cnt : (N : ℕ) → (Fin d.hist.nBins → ℕ) → (Fin N → (Fin ks.length → ℝ) × ℝ) → Nat → ℝ,
      (∀ N, 0 < N → ∀ n ω, ∃ m' res, ({ m with trial := pointDict ks (x0 n), maxIter := N, samples := { m.samples with burnIn := burnIn, thin := thin } } : MCMC ℝ).optimise Real.exp
            (fitStat name C objs log cons (withCounts d n)) r ((List.ofFn ω).map fun w => s.input (fun k sg => sg * dval (pointDict ks w.1) k) w.2) = .ok (m', res) ∧
          ∀ b, b < m.samples.axes.nBins → m'.samples.hist.getBinContent b = .ok (cnt N n ω b)) ∧
      ∀ B : (N : ℕ) → (Fin d.hist.nBins → ℕ) → (Fin N → (Fin ks.length → ℝ) × ℝ) → Finset ℕ, (∀ N n ω, ∀ b ∈ B N n ω, b < m.samples.axes.nBins) → ∀ q : ℝ, q ≤ 1 → ∀ ε : ℝ, 0 < ε →
        Tendsto (fun N => (Measure.pi fun _ : Fin N => (Measure.pi fun _ : Fin ks.length => gaussianReal 0 1).prod (volume.restrict (Set.Ico (0 : ℝ) 1))).real
          {ω | coverage log cs ks lo hi (fun n : Fin d.hist.nBins → ℕ => {x | (∑ b ∈ B N n ω, cnt N n ω b) / recordedCount burnIn thin N < q ∨
            x ∈ binsRegion m.samples.axes as ks (B N n ω)}) < q - ε}) atTop (𝓝 0) := by
  obtain ⟨cons, hcons, _⟩ := gaussian_constraints hd (fun q hq => (hw q hq).2)
  have hone : ∀ n : Fin d.hist.nBins → ℕ, ∃ K : ℝ, ∀ N, 0 < N → ∃ cnt : (Fin N → (Fin ks.length → ℝ) × ℝ) → Nat → ℝ,
        (∀ ω, ∃ m' res, ({ m with trial := pointDict ks (x0 n), maxIter := N, samples := { m.samples with burnIn := burnIn, thin := thin } } : MCMC ℝ).optimise Real.exp
            (fitStat name C objs log cons (withCounts d n)) r ((List.ofFn ω).map fun w => s.input (fun k sg => sg * dval (pointDict ks w.1) k) w.2) = .ok (m', res) ∧
          ∀ b, b < m.samples.axes.nBins → m'.samples.hist.getBinContent b = .ok (cnt ω b)) ∧
        ∀ b, b < m.samples.axes.nBins → 0 < recordedCount burnIn thin N → ∀ δ : ℝ, 0 < δ →
          (Measure.pi fun _ : Fin N => (Measure.pi fun _ : Fin ks.length => gaussianReal 0 1).prod (volume.restrict (Set.Ico (0 : ℝ) 1))).real
            {ω | δ ≤ |cnt ω b / recordedCount burnIn thin N -
              (sampledLaw lo hi fun x => posterior log cs n (pointDict ks x)).real (binRegion m.samples.axes as ks b)|} ≤ K / (recordedCount burnIn thin N * δ ^ 2) := by
    intro n
    obtain ⟨cons', e', K, g⟩ := C108_posterior_likely (name := name) (C := C) (objs := objs) (d := withCounts d n) hd hw (withCounts_canFit h n) (n := n)
      (fun b => withCounts_countIn d n b) hk hne hall hlog hflip hl hmin hmax hlt hpos hs hf hfull hch hq hax hasne hc hlen hnm
    rw [hcons] at e'
    have e' := Res.ok.inj e'
    subst e'
    exact ⟨K, fun N hN => g (x0 n) (hx0 n) burnIn thin hth N r hN⟩
  choose K hK using hone
  choose cnt0 hrun hlik using hK
  refine ⟨cons, hcons, fun N n => if hN : 0 < N then cnt0 n N hN else fun _ _ => 0, fun N hN n ω => ?_, fun B hB q hq1 ε hε => ?_⟩
  · obtain ⟨m', res, a, b⟩ := hrun n N hN ω
    exact ⟨m', res, a, by simpa only [dif_pos hN] using b⟩
  obtain ⟨w, w0, w1, H⟩ := coverage_eq (log := log) (cs := cs) (k := d.hist.nBins) hk hlt (fun q hq => (hw q hq).2) hpos
  have hprob : ∀ n : Fin d.hist.nBins → ℕ, IsProbabilityMeasure (sampledLaw lo hi fun x => posterior log cs n (pointDict ks x)) := fun n =>
    sampledLaw_prob hlt (bounded_of_continuous hlt (posterior_continuous hk log cs n) fun x hx => mul_pos (dataLaw_pos (hpos x hx) n) (priorAt_pos (fun q hq => (hw q hq).2) _))
  have hreg : ∀ b, b < m.samples.axes.nBins → MeasurableSet (binRegion m.samples.axes as ks b) := fun b hb => binRegion_measurable hk hax hasne hc hb
  -- finitely many data sets make up nearly all experiments
  obtain ⟨F, hF⟩ : ∃ F : Finset (Fin d.hist.nBins → ℕ), 1 - ε / 2 < ∑ n ∈ F, w n := by
    have := (tendsto_order.1 w1).1 (1 - ε / 2) (by linarith)
    exact this.exists
  have hF1 : ∑ n ∈ F, w n ≤ 1 := sum_le_hasSum F (fun n _ => w0 n) w1
  set nb := m.samples.axes.nBins with hnb
  set δ : ℝ := ε / (2 * (nb + 1)) with hδ
  have hδ0 : 0 < δ := by rw [hδ]; positivity
  have hnbδ : nb * δ ≤ ε / 2 := by
    rw [hδ, mul_div_assoc', div_le_div_iff₀ (by positivity) (by norm_num)]
    nlinarith
  have hlim : Tendsto (fun N => ∑ n ∈ F, nb * (K n / (recordedCount burnIn thin N * δ ^ 2))) atTop (𝓝 0) := by
    have : Tendsto (fun N => ∑ n ∈ F, nb * (K n / (recordedCount burnIn thin N * δ ^ 2))) atTop (𝓝 (∑ n ∈ F, nb * 0)) := by
      refine tendsto_finsetSum _ fun n _ => Tendsto.const_mul _ ?_
      exact Tendsto.div_atTop tendsto_const_nhds ((recordedCount_tendsto burnIn thin hth).atTop_mul_const (by positivity))
    simpa using this
  refine squeeze_zero' (Eventually.of_forall fun _ => measureReal_nonneg) ?_ hlim
  filter_upwards [eventually_gt_atTop 0, (recordedCount_tendsto burnIn thin hth).eventually_gt_atTop 0] with N hN hrec
  have hrec' : 0 < recordedCount burnIn thin N := by exact_mod_cast hrec
  simp only [dif_pos hN]
  -- away from these sets of random numbers the histograms are right
  set P := (Measure.pi fun _ : Fin N => (Measure.pi fun _ : Fin ks.length => gaussianReal 0 1).prod (volume.restrict (Set.Ico (0 : ℝ) 1))) with hP
  refine le_trans (measureReal_mono (s₂ := ⋃ n ∈ F, ⋃ b ∈ Finset.range nb, {ω | δ ≤ |cnt0 n N hN ω b / recordedCount burnIn thin N -
    (sampledLaw lo hi fun x => posterior log cs n (pointDict ks x)).real (binRegion m.samples.axes as ks b)|}) ?_ (measure_ne_top _ _)) ?_
  · intro ω hω
    by_contra hno
    simp only [Set.mem_iUnion, not_exists] at hno
    have hgood : ∀ n ∈ F, ∀ b, b < nb → |cnt0 n N hN ω b / recordedCount burnIn thin N - (sampledLaw lo hi fun x => posterior log cs n (pointDict ks x)).real (binRegion m.samples.axes as ks b)| < δ :=
      fun n hn b hb => not_le.1 (hno n hn b (Finset.mem_range.2 hb))
    refine absurd (show _ < q - ε from hω) (not_lt.2 ?_)
    set R : (Fin d.hist.nBins → ℕ) → Set (Fin ks.length → ℝ) := fun n => {x | (∑ b ∈ B N n ω, cnt0 n N hN ω b) / recordedCount burnIn thin N < q ∨ x ∈ binsRegion m.samples.axes as ks (B N n ω)} with hR
    have hRm : ∀ n, MeasurableSet (R n) := by
      intro n
      refine (MeasurableSet.const _).union ?_
      rw [binsRegion_eq]
      exact Finset.measurableSet_biUnion _ fun b hb => hreg b (hB N n ω b hb)
    have hpost : ∀ n ∈ F, q - ε / 2 ≤ (sampledLaw lo hi fun x => posterior log cs n (pointDict ks x)).real (R n) := by
      intro n hn
      by_cases hlow : (∑ b ∈ B N n ω, cnt0 n N hN ω b) / recordedCount burnIn thin N < q
      · have : R n = Set.univ := by ext x; simp [hR, hlow]
        rw [this, probReal_univ]; linarith
      · refine le_trans ?_ (measureReal_mono (s₁ := binsRegion m.samples.axes as ks (B N n ω)) (fun x hx => Or.inr hx) (measure_ne_top _ _))
        rw [binsRegion_measure (fun b hb => hreg b (hB N n ω b hb))]
        have hcard : ((B N n ω).card : ℝ) ≤ nb := by
          have : B N n ω ⊆ Finset.range nb := fun b hb => Finset.mem_range.2 (hB N n ω b hb)
          exact_mod_cast (Finset.card_le_card this).trans_eq (Finset.card_range nb)
        have : (∑ b ∈ B N n ω, cnt0 n N hN ω b) / recordedCount burnIn thin N - (B N n ω).card * δ ≤
            ∑ b ∈ B N n ω, (sampledLaw lo hi fun x => posterior log cs n (pointDict ks x)).real (binRegion m.samples.axes as ks b) := by
          rw [Finset.sum_div, ← nsmul_eq_mul, ← Finset.sum_const, ← Finset.sum_sub_distrib]
          refine Finset.sum_le_sum fun b hb => ?_
          have := (abs_lt.1 (hgood n hn b (hB N n ω b hb))).2
          linarith
        have h3 : ((B N n ω).card : ℝ) * δ ≤ nb * δ := mul_le_mul_of_nonneg_right hcard hδ0.le
        push Not at hlow
        linarith
    have hsum := sum_le_hasSum F (fun n _ => mul_nonneg (w0 n) measureReal_nonneg) (H R hRm)
    refine le_trans ?_ hsum
    have h2 : ∑ n ∈ F, w n * (q - ε / 2) ≤ ∑ n ∈ F, w n * (sampledLaw lo hi fun x => posterior log cs n (pointDict ks x)).real (R n) :=
      Finset.sum_le_sum fun n hn => mul_le_mul_of_nonneg_left (hpost n hn) (w0 n)
    refine le_trans ?_ h2
    rw [← Finset.sum_mul]
    by_cases hqe : 0 ≤ q - ε / 2
    · nlinarith
    · nlinarith
  · refine (measureReal_biUnion_finset_le _ _).trans (Finset.sum_le_sum fun n hn => (measureReal_biUnion_finset_le _ _).trans ?_)
    rw [← nsmul_eq_mul, ← Finset.card_range nb, ← Finset.sum_const, Finset.card_range nb]
    exact Finset.sum_le_sum fun b hb => hlik n N hN b (Finset.mem_range.1 hb) hrec' δ hδ0

/-! ### Concrete cases -/

-- two bins, signal and constrained background between 1 and 10: regions with posterior probability of 90 % contain the truth in at least 90 % of the experiments
example (R : (Fin (exRealPdf "d" 4 5).hist.nBins → ℕ) → Set (Fin 2 → ℝ)) (hR : ∀ n, MeasurableSet (R n))
    (h : ∀ n, 9/10 ≤ (sampledLaw (fun _ => 1) (fun _ => 10) fun x => posterior exTwo [("b", 3, 1/2)] n (pointDict ["b", "s"] x)).real (R n)) :
    9/10 ≤ coverage exTwo [("b", 3, 1/2)] ["b", "s"] (fun _ => 1) (fun _ => 10) R :=
  (C114_credible (log := exTwo) (ks := ["b", "s"]) (lo := fun _ => 1) (hi := fun _ => 10) exNames_sorted (fun _ => by norm_num) (by simp) exTwo_positive hR (9/10)).1 h

-- … among them all parameter values
example : 9/10 ≤ (sampledLaw (fun _ => 1) (fun _ => 10) fun x => posterior exTwo [("b", 3, 1/2)] (![4, 5] : Fin 2 → ℕ) (pointDict ["b", "s"] x)).real (limitBox (fun _ => 1) (fun _ => 10)) := by
  have hb : Bounded (fun _ : Fin 2 => (1 : ℝ)) (fun _ => 10) fun x => posterior exTwo [("b", 3, 1/2)] (![4, 5] : Fin 2 → ℕ) (pointDict ["b", "s"] x) :=
    bounded_of_continuous (fun _ => by norm_num) (posterior_continuous exNames_sorted _ _ _) fun x hx => mul_pos (dataLaw_pos (exTwo_positive x hx) _) (priorAt_pos (by simp) _)
  have hp := sampledLaw_prob (fun _ => by norm_num) hb
  have h0 : (sampledLaw (fun _ => 1) (fun _ => 10) fun x => posterior exTwo [("b", 3, 1/2)] (![4, 5] : Fin 2 → ℕ) (pointDict ["b", "s"] x)) (limitBox (fun _ => 1) (fun _ => 10))ᶜ = 0 := by
    unfold sampledLaw targetLaw
    rw [Measure.smul_apply, withDensity_apply _ (measurableSet_limitBox _ _).compl, Measure.restrict_restrict (measurableSet_limitBox _ _).compl]
    simp
  rw [measureReal_def, (prob_compl_eq_zero_iff (measurableSet_limitBox _ _)).1 h0]
  norm_num

-- … and by any rule that reads bins off the histogram of the chain
example (C : FitSys σ ℝ) (objs : Nat → σ) : ∃ (c : AxisCollection ℝ) (a b : BinAxis ℝ) (cons : ConstraintManager ℝ) (cnt : (N : ℕ) → (Fin (exRealPdf "d" 4 5).hist.nBins → ℕ) → (Fin N → (Fin 2 → ℝ) × ℝ) → Nat → ℝ),
    setGaussians [("b", 3, 1/2)] = .ok cons ∧
      ∀ B : (N : ℕ) → (Fin (exRealPdf "d" 4 5).hist.nBins → ℕ) → (Fin N → (Fin 2 → ℝ) × ℝ) → Finset ℕ, (∀ N n ω, ∀ b ∈ B N n ω, b < c.nBins) →
        (∀ N n ω, 0 < recordedCount 1000 2 N → 9/10 ≤ (∑ b ∈ B N n ω, cnt N n ω b) / recordedCount 1000 2 N) →
        Tendsto (fun N => (Measure.pi fun _ : Fin N => (Measure.pi fun _ : Fin 2 => gaussianReal 0 1).prod (volume.restrict (Set.Ico (0 : ℝ) 1))).real
          {ω | coverage exTwo [("b", 3, 1/2)] ["b", "s"] (fun _ => 1) (fun _ => 10) (fun n : Fin (exRealPdf "d" 4 5).hist.nBins → ℕ => binsRegion c [a, b] ["b", "s"] (B N n ω)) < 9/10 - 1/100}) atTop (𝓝 0) := by
  obtain ⟨a, b, c, ha, hb, na, nb, hc⟩ := exChainAxes
  obtain ⟨cons, h1, cnt, h2, h3⟩ := C114_chain (name := exSysName) (C := C) (objs := objs) (cs := [("b", 3, 1/2)]) (by simp) (by
    intro q hq
    rw [List.mem_singleton] at hq
    subst hq
    exact ⟨by show "b" ∈ (["s", "b"] : List String); decide, by norm_num⟩) (exTwo_canFit 4 5) exNames_sorted (by simp)
      (by show (["s", "b"] : List String).Perm ["b", "s"]; exact List.Perm.swap _ _ _)
      (m := { exChain with samples := { MCMCSamples.new with saveFull := true, axes := c } }) rfl rfl (lo := fun _ => 1) (hi := fun _ => 10)
      ⟨exChain_limits.low, exChain_limits.high⟩ rfl rfl (fun _ => by norm_num) exTwo_positive (s := exWalk) exWalk_widths
      ⟨rfl, rfl, rfl, rfl⟩ rfl rfl (by show 0 < 1000; omega) hc (by simp) (by
        intro q hq
        simp only [List.mem_cons, List.not_mem_nil, or_false] at hq
        rcases hq with rfl | rfl
        · exact BinAxis.mkEqual_contiguous ha
        · exact BinAxis.mkEqual_contiguous hb) rfl (by
        intro q hq
        simp only [List.mem_cons, List.not_mem_nil, or_false] at hq
        rcases hq with rfl | rfl
        · rw [na]; simp
        · rw [nb]; simp) (x0 := fun _ _ => 2) (fun n i => ⟨by norm_num, by norm_num⟩) (burnIn := 1000) (thin := 2) (by decide) (fun _ => 0)
  refine ⟨c, a, b, cons, cnt, h1, fun B hB hfr => ?_⟩
  have := h3 B hB (9/10) (by norm_num) (1/100) (by norm_num)
  refine this.congr' ?_
  filter_upwards [(recordedCount_tendsto 1000 2 (by decide)).eventually_gt_atTop 0] with N hN
  have hN' : 0 < recordedCount 1000 2 N := by exact_mod_cast hN
  have : ∀ n ω, ¬ (∑ b ∈ B N n ω, cnt N n ω b) / recordedCount 1000 2 N < 9/10 := fun n ω => not_lt.2 (hfr N n ω hN')
  simp only [this, false_or]
  rfl

end Oxsx
