import Verif.Lemmas.HeldChain
import Verif.Props.ConvergeMarginal
set_option linter.unusedSectionVars false
set_option linter.unusedSimpArgs false
set_option linter.unusedVariables false
/-
C116: chains with fixed parameters. The sampler keeps the fixed parameters where they are and samples the free ones, given the fixed ones.
-/
namespace Oxsx
open MeasureTheory ProbabilityTheory Spec
open scoped ENNReal NNReal Nat
variable {σ : Type}

/-- The parameters that the sampler holds fixed. -/
def heldBy (s : MetropolisSampler ℝ) (ks : List String) (i : Fin ks.length) : Prop := ks[i] ∈ s.fixed

theorem held_ergodic {m : MCMC ℝ} {ks : List String} {lo hi : Fin ks.length → ℝ} {V : (Fin ks.length → ℝ) → ℝ} (hm : Measurable V)
    (hd : m.logged = true ∨ ∀ x, 0 < chainValue m V x) {s : MetropolisSampler ℝ} (hs : ∀ i : Fin ks.length, ks[i] ∉ s.fixed → lo i < hi i ∧ ∃ sg, s.sigmas.find ks[i] = some sg ∧ sg ≠ 0)
    {x0 : Fin ks.length → ℝ} (hx0 : x0 ∈ limitBox lo hi) (hb : ∃ a b, 0 < a ∧ ∀ x ∈ heldBox lo hi (heldBy s ks) x0, a ≤ chainDensity m V x ∧ chainDensity m V x ≤ b) :
    IsProbabilityMeasure (heldLaw lo hi (heldBy s ks) x0 (chainDensity m V)) ∧
    ∃ ε, Ergodic.Chain (metroStep m lo hi V (stepWidth s ks)) (stepLaw ks.length) (heldBox lo hi (heldBy s ks) x0) (heldLaw lo hi (heldBy s ks) x0 (chainDensity m V)) ε := by
  refine held_chain (heldBy s ks) hm hd (fun i hi' => ?_) (fun i hi' => ?_) (fun i hi' => (hs i hi').1) (fun i _ => hx0 i) hb
  · have h2 : ks[i] ∈ s.fixed := hi'
    unfold stepWidth; rw [if_pos h2]
  · obtain ⟨_, sg, h2, h3⟩ := hs i hi'
    have h4 : ks[i] ∉ s.fixed := hi'
    unfold stepWidth; rw [if_neg h4, h2]; exact h3

theorem held_some {ks : List String} {lo hi : Fin ks.length → ℝ} {s : MetropolisSampler ℝ} (hs : ∀ i : Fin ks.length, ks[i] ∉ s.fixed → lo i < hi i ∧ ∃ sg, s.sigmas.find ks[i] = some sg ∧ sg ≠ 0) :
    ∀ i : Fin ks.length, ks[i] ∉ s.fixed → (s.sigmas.find ks[i]).isSome := fun i h => by obtain ⟨_, sg, h, _⟩ := hs i h; rw [h]; rfl

/-- C116: a chain as in C108, whose sampler holds some parameters fixed and has non-zero widths for the others. A step never changes a fixed parameter; and for all values of the fixed
parameters there is a rate `ε` such that from every starting point with these values the distribution of the point after `N` steps differs by at most
`(1 - ε) ^ N` from the sampled density as a function of the free parameters, normalised. -/
theorem C116_converges {m : MCMC ℝ} {t : TestStat ℝ} {ks : List String} (hk : NamesSorted ks) {lo hi : Fin ks.length → ℝ} (hl : HasLimits m ks lo hi)
    {V : (Fin ks.length → ℝ) → ℝ} (hV : ∀ x ∈ limitBox lo hi, t.eval (pointDict ks x) = .ok (V x)) (hm : Measurable V) (hd : m.logged = true ∨ ∀ x, 0 < chainValue m V x)
    {s : MetropolisSampler ℝ} (hs : ∀ i : Fin ks.length, ks[i] ∉ s.fixed → lo i < hi i ∧ ∃ sg, s.sigmas.find ks[i] = some sg ∧ sg ≠ 0)
    {x0 : Fin ks.length → ℝ} (hx0 : x0 ∈ limitBox lo hi) (hb : ∃ a b, 0 < a ∧ ∀ x ∈ heldBox lo hi (heldBy s ks) x0, a ≤ chainDensity m V x ∧ chainDensity m V x ≤ b) :
    ∃ next : (Fin ks.length → ℝ) → (Fin ks.length → ℝ) → ℝ → (Fin ks.length → ℝ),
      (∀ x z u st, ChainAt m st ks V x → ∃ d r, (s.input (fun k sg => sg * dval (pointDict ks z) k) u).draw st.curStep = .ok d ∧
        st.stepAccepted Real.exp t d.1 d.2 u = .ok r ∧ ChainAt m r.1 ks V (next x z u) ∧
        ∀ st', st.iterate Real.exp t (s.input (fun k sg => sg * dval (pointDict ks z) k) u) = .ok st' → ChainAt m st' ks V (next x z u)) ∧
      (∀ x z u i, ks[i] ∈ s.fixed → next x z u i = x i) ∧
      IsProbabilityMeasure (heldLaw lo hi (heldBy s ks) x0 (chainDensity m V)) ∧
      ∃ ε : ℝ, 0 < ε ∧ ε ≤ 1 ∧ ∀ f : (Fin ks.length → ℝ) → ℝ, Measurable f → (∀ x, 0 ≤ f x ∧ f x ≤ 1) → ∀ x ∈ heldBox lo hi (heldBy s ks) x0, ∀ N : Nat,
        |((afterStep (Measure.pi fun _ => gaussianReal 0 1) next)^[N] (fun x => ENNReal.ofReal (f x)) x).toReal - ∫ y, f y ∂(heldLaw lo hi (heldBy s ks) x0 (chainDensity m V))| ≤ (1 - ε) ^ N := by
  obtain ⟨hp, ε, hε⟩ := held_ergodic hm hd hs hx0 hb
  refine ⟨fun x z u => moveTo m lo hi V x (fun i => x i + stepWidth s ks i * z i) 0 u,
    fun x z u st hx => metropolis_step hk hl hV (held_some hs) x z u st hx, fun x z u i hi' => ?_, hp, ε, hε.pos, hε.le, fun f hf h01 x hx N => ?_⟩
  · have hw : stepWidth s ks i = 0 := if_pos hi'
    simp only [moveTo]
    split
    · show x i + stepWidth s ks i * z i = x i
      rw [hw, zero_mul, add_zero]
    · rfl
  · obtain ⟨h1, h2⟩ := afterStep_iterate_metro hm hε hf h01 N x
    rw [h1, ENNReal.toReal_ofReal h2]
    have := hε.converge hf (K := 1) (fun x => by rw [abs_le]; constructor <;> linarith [(h01 x).1, (h01 x).2]) (a := 0) (b := 1) (fun x _ => h01 x) N hx
    rwa [sub_zero, mul_one] at this

/-- C116, the full histogram: the fraction of the recorded steps in every bin converges to the probability of the bin, given the fixed parameters. -/
theorem C116_histogram {m : MCMC ℝ} {t : TestStat ℝ} {ks : List String} (hk : NamesSorted ks) (hnames : t.names.length = ks.length) {lo hi : Fin ks.length → ℝ} (hl : HasLimits m ks lo hi)
    (hmin : m.minima.length = ks.length) (hmax : m.maxima.length = ks.length)
    {V : (Fin ks.length → ℝ) → ℝ} (hV : ∀ x ∈ limitBox lo hi, t.eval (pointDict ks x) = .ok (V x)) (hm : Measurable V) (hd : m.logged = true ∨ ∀ x, 0 < chainValue m V x)
    {s : MetropolisSampler ℝ} (hs : ∀ i : Fin ks.length, ks[i] ∉ s.fixed → lo i < hi i ∧ ∃ sg, s.sigmas.find ks[i] = some sg ∧ sg ≠ 0)
    {x0 : Fin ks.length → ℝ} (hx0 : x0 ∈ limitBox lo hi) (hb : ∃ a b, 0 < a ∧ ∀ x ∈ heldBox lo hi (heldBy s ks) x0, a ≤ chainDensity m V x ∧ chainDensity m V x ≤ b)
    (hf : m.samples.Fresh) (hfull : m.samples.saveFull = true) (hch : m.samples.saveChain = false) (hq : 0 < m.samples.auto.qLen)
    {as : List (BinAxis ℝ)} (hax : (AxisCollection.empty : AxisCollection ℝ).addAxes as = .ok m.samples.axes) (hne : as ≠ []) (hc : ∀ a ∈ as, a.Contiguous)
    (hlen : as.length = ks.length) (hnm : ∀ a ∈ as, a.name ∈ ks) :
    ∃ K : ℝ, ∀ x1 ∈ heldBox lo hi (heldBy s ks) x0, ∀ burnIn thin : Int, thin ≠ 0 → ∀ (N : Nat) (r : String → ℝ), 0 < N →
      ∃ cnt : (Fin N → (Fin ks.length → ℝ) × ℝ) → Nat → ℝ,
        (∀ ω, ∃ m' res, ({ m with trial := pointDict ks x1, maxIter := N, samples := { m.samples with burnIn := burnIn, thin := thin } } : MCMC ℝ).optimise Real.exp t r
            ((List.ofFn ω).map fun w => s.input (fun k sg => sg * dval (pointDict ks w.1) k) w.2) = .ok (m', res) ∧
          ∀ b, b < m.samples.axes.nBins → m'.samples.hist.getBinContent b = .ok (cnt ω b)) ∧
        ∀ b, b < m.samples.axes.nBins → 0 < recordedCount burnIn thin N →
          Integrable (fun ω => (cnt ω b / recordedCount burnIn thin N - (heldLaw lo hi (heldBy s ks) x0 (chainDensity m V)).real (binRegion m.samples.axes as ks b)) ^ 2)
            (Measure.pi fun _ : Fin N => (Measure.pi fun _ : Fin ks.length => gaussianReal 0 1).prod (volume.restrict (Set.Ico (0 : ℝ) 1))) ∧
          ∫ ω, (cnt ω b / recordedCount burnIn thin N - (heldLaw lo hi (heldBy s ks) x0 (chainDensity m V)).real (binRegion m.samples.axes as ks b)) ^ 2
            ∂(Measure.pi fun _ : Fin N => (Measure.pi fun _ : Fin ks.length => gaussianReal 0 1).prod (volume.restrict (Set.Ico (0 : ℝ) 1))) ≤ K / recordedCount burnIn thin N := by
  obtain ⟨hp, ε, hε⟩ := held_ergodic hm hd hs hx0 hb
  exact histogram_of_chain hk hnames hl hmin hmax hV (held_some hs) (fun _ h => h.1) hε hf hfull hch hq hax hne hc hlen hnm

theorem heldLaw_ae {n : Nat} {lo hi x0 : Fin n → ℝ} {F : Fin n → Prop} {d : (Fin n → ℝ) → ℝ} (hd : Measurable d) (hx0 : ∀ i, F i → lo i ≤ x0 i ∧ x0 i < hi i) :
    ∀ᵐ x ∂(heldLaw lo hi F x0 d), ∀ i, lo i ≤ x i ∧ x i < hi i := by
  rw [heldLaw_eq F lo hi x0 hd]
  refine (ae_map_iff (withHeld_measurable F x0).aemeasurable ?_).2 ?_
  · have : {x : Fin n → ℝ | ∀ i, lo i ≤ x i ∧ x i < hi i} = ⋂ i, ((fun x : Fin n → ℝ => x i) ⁻¹' Set.Ico (lo i) (hi i)) := by ext x; simp
    rw [this]
    exact MeasurableSet.iInter fun i => measurable_pi_apply i measurableSet_Ico
  · filter_upwards [sampledLaw_ae (lo := freePart F lo) (hi := freePart F hi) (d := fun z => d (withHeld F x0 z))] with z hz
    intro i
    by_cases hi' : F i
    · rw [withHeld_held F hi']; exact hx0 i hi'
    · rw [withHeld_free F hi']
      have := hz (freeIndex F ⟨i, hi'⟩)
      unfold freePart at this
      simpa using this

/-- C116, the histograms kept by default, of each parameter and each pair. -/
theorem C116_marginals {m : MCMC ℝ} {t : TestStat ℝ} {ks : List String} (hk : NamesSorted ks) (hne : ks ≠ []) (hnames : t.names.length = ks.length) {lo hi : Fin ks.length → ℝ}
    (hl : HasLimits m ks lo hi) (hmin : m.minima.keys = ks) (hmax : m.maxima.length = ks.length) (hlt : ∀ i, lo i < hi i)
    {V : (Fin ks.length → ℝ) → ℝ} (hV : ∀ x ∈ limitBox lo hi, t.eval (pointDict ks x) = .ok (V x)) (hm : Measurable V) (hd : m.logged = true ∨ ∀ x, 0 < chainValue m V x)
    {s : MetropolisSampler ℝ} (hs : ∀ i : Fin ks.length, ks[i] ∉ s.fixed → ∃ sg, s.sigmas.find ks[i] = some sg ∧ sg ≠ 0)
    {x0 : Fin ks.length → ℝ} (hx0 : x0 ∈ limitBox lo hi) (hx0' : ∀ i : Fin ks.length, ks[i] ∈ s.fixed → x0 i < hi i)
    (hb : ∃ a b, 0 < a ∧ ∀ x ∈ heldBox lo hi (heldBy s ks) x0, a ≤ chainDensity m V x ∧ chainDensity m V x ≤ b)
    (hf : m.samples.Fresh) (hfull : m.samples.saveFull = false) (hch : m.samples.saveChain = false) (hq : 0 < m.samples.auto.qLen) (hax : m.samples.axes.nDims = 0) (hg : 0 < m.nGuess) :
    ∃ K : ℝ, ∀ x1 ∈ heldBox lo hi (heldBy s ks) x0, ∀ burnIn thin : Int, thin ≠ 0 → ∀ (N : Nat) (r : String → ℝ), 0 < N →
      ∃ (one : Fin ks.length → (Fin N → (Fin ks.length → ℝ) × ℝ) → Nat → ℝ) (two : Fin ks.length → Fin ks.length → (Fin N → (Fin ks.length → ℝ) × ℝ) → Nat → Nat → ℝ),
        (∀ ω, ∃ m' res, ({ m with trial := pointDict ks x1, maxIter := N, samples := { m.samples with burnIn := burnIn, thin := thin } } : MCMC ℝ).optimise Real.exp t r
            ((List.ofFn ω).map fun w => s.input (fun k sg => sg * dval (pointDict ks w.1) k) w.2) = .ok (m', res) ∧
          (∀ i, ∃ p, m'.samples.proj1.find ks[i] = some p ∧ p.nBins = m.nGuess ∧ ∀ b, b < m.nGuess → p.getBinContent b = .ok (one i ω b)) ∧
          ((∀ q ∈ Combinations.allCombsNoDiag ks, ∀ r ∈ Combinations.allCombsNoDiag ks, q.1 ++ "_" ++ q.2 = r.1 ++ "_" ++ r.2 → q = r) →
            ∀ i j, j < i → ∃ p, m'.samples.proj2.find (ks[i] ++ "_" ++ ks[j]) = some p ∧ p.nBins = m.nGuess * m.nGuess ∧
              ∀ b c, b < m.nGuess → c < m.nGuess → p.getBinContent (b * m.nGuess + c) = .ok (two i j ω b c))) ∧
        (0 < recordedCount burnIn thin N →
          (∀ i b, b < m.nGuess →
            Integrable (fun ω => (one i ω b / recordedCount burnIn thin N - (heldLaw lo hi (heldBy s ks) x0 (chainDensity m V)).real {x | x i ∈ evenBin (lo i) (hi i) m.nGuess b}) ^ 2)
              (Measure.pi fun _ : Fin N => (Measure.pi fun _ : Fin ks.length => gaussianReal 0 1).prod (volume.restrict (Set.Ico (0 : ℝ) 1))) ∧
            ∫ ω, (one i ω b / recordedCount burnIn thin N - (heldLaw lo hi (heldBy s ks) x0 (chainDensity m V)).real {x | x i ∈ evenBin (lo i) (hi i) m.nGuess b}) ^ 2
              ∂(Measure.pi fun _ : Fin N => (Measure.pi fun _ : Fin ks.length => gaussianReal 0 1).prod (volume.restrict (Set.Ico (0 : ℝ) 1))) ≤ K / recordedCount burnIn thin N) ∧
          ∀ i j b c, b < m.nGuess → c < m.nGuess →
            Integrable (fun ω => (two i j ω b c / recordedCount burnIn thin N -
                (heldLaw lo hi (heldBy s ks) x0 (chainDensity m V)).real {x | x i ∈ evenBin (lo i) (hi i) m.nGuess b ∧ x j ∈ evenBin (lo j) (hi j) m.nGuess c}) ^ 2)
              (Measure.pi fun _ : Fin N => (Measure.pi fun _ : Fin ks.length => gaussianReal 0 1).prod (volume.restrict (Set.Ico (0 : ℝ) 1))) ∧
            ∫ ω, (two i j ω b c / recordedCount burnIn thin N -
                (heldLaw lo hi (heldBy s ks) x0 (chainDensity m V)).real {x | x i ∈ evenBin (lo i) (hi i) m.nGuess b ∧ x j ∈ evenBin (lo j) (hi j) m.nGuess c}) ^ 2
              ∂(Measure.pi fun _ : Fin N => (Measure.pi fun _ : Fin ks.length => gaussianReal 0 1).prod (volume.restrict (Set.Ico (0 : ℝ) 1))) ≤ K / recordedCount burnIn thin N) := by
  have hs' : ∀ i : Fin ks.length, ks[i] ∉ s.fixed → lo i < hi i ∧ ∃ sg, s.sigmas.find ks[i] = some sg ∧ sg ≠ 0 := fun i h => ⟨hlt i, hs i h⟩
  obtain ⟨hp, ε, hε⟩ := held_ergodic hm hd hs' hx0 hb
  exact marginals_of_chain hk hne hnames hl hmin hmax hlt hV (held_some hs') (fun _ h => h.1) hε (heldLaw_ae (chainDensity_measurable hm) fun i h => ⟨(hx0 i).1, hx0' i h⟩) hf hfull hch hq hax hg

/-! ### The posterior of a fit, given the fixed parameters -/

theorem heldVolume_ae {n : Nat} {lo hi x0 : Fin n → ℝ} {F : Fin n → Prop} (hx0 : ∀ i, F i → lo i ≤ x0 i ∧ x0 i ≤ hi i) : ∀ᵐ x ∂(heldVolume lo hi F x0), x ∈ heldBox lo hi F x0 := by
  rw [heldVolume_eq]
  refine (ae_map_iff (withHeld_measurable F x0).aemeasurable (heldBox_measurable F lo hi x0)).2 ?_
  refine (ae_restrict_iff' (measurableSet_limitBox _ _)).2 (Filter.Eventually.of_forall fun z hz => ?_)
  exact ⟨(withHeld_mem F hx0 z).2 hz, fun i h => withHeld_held F h⟩

/-- Densities that are proportional have the same law. -/
theorem heldLaw_scale {n : Nat} {lo hi x0 : Fin n → ℝ} {F : Fin n → Prop} (hx0 : ∀ i, F i → lo i ≤ x0 i ∧ x0 i ≤ hi i) {d P : (Fin n → ℝ) → ℝ} (hP : Measurable P) {K : ℝ} (hK : 0 < K)
    (h : ∀ x ∈ heldBox lo hi F x0, d x = K * P x) : heldLaw lo hi F x0 d = heldLaw lo hi F x0 P := by
  have e : (heldVolume lo hi F x0).withDensity (fun x => ENNReal.ofReal (d x)) = ENNReal.ofReal K • (heldVolume lo hi F x0).withDensity (fun x => ENNReal.ofReal (P x)) := by
    have hsm := withDensity_smul (μ := heldVolume lo hi F x0) (ENNReal.ofReal K) (ENNReal.measurable_ofReal.comp hP)
    refine Eq.trans ?_ hsm
    refine withDensity_congr_ae ?_
    filter_upwards [heldVolume_ae hx0] with x hx
    simp only [h x hx, Pi.smul_apply, smul_eq_mul, Function.comp]
    rw [ENNReal.ofReal_mul hK.le]
  have hK0 : ENNReal.ofReal K ≠ 0 := by simpa using hK
  unfold heldLaw
  rw [e, Measure.smul_apply, smul_eq_mul, ENNReal.mul_inv (Or.inl hK0) (Or.inl ENNReal.ofReal_ne_top), smul_smul,
    mul_comm (ENNReal.ofReal K)⁻¹, mul_assoc, ENNReal.inv_mul_cancel hK0 ENNReal.ofReal_ne_top, mul_one]

/-- A statistic whose exponential is a continuous density, up to a factor, on the points with the fixed values. -/
theorem held_density {t : TestStat ℝ} {ks : List String} {P : (Fin ks.length → ℝ) → ℝ} (hP : Continuous P) {K : ℝ} (hK : 0 < K)
    {m : MCMC ℝ} (hlog : m.logged = true) (hflip : m.flip = true) {lo hi : Fin ks.length → ℝ} (F : Fin ks.length → Prop) {x0 : Fin ks.length → ℝ} (hx0 : x0 ∈ limitBox lo hi)
    (H : ∀ x ∈ limitBox lo hi, ∃ v, t.eval (pointDict ks x) = .ok v ∧ Real.exp (-v) = K * P x) :
    ∃ V : (Fin ks.length → ℝ) → ℝ, Measurable V ∧ (∀ x ∈ limitBox lo hi, t.eval (pointDict ks x) = .ok (V x)) ∧
      (∃ a b, 0 < a ∧ ∀ x ∈ heldBox lo hi F x0, a ≤ chainDensity m V x ∧ chainDensity m V x ≤ b) ∧ heldLaw lo hi F x0 (chainDensity m V) = heldLaw lo hi F x0 P := by
  set V : (Fin ks.length → ℝ) → ℝ := fun x => - Real.log (K * P x) with hVdef
  have hpd : ∀ x ∈ limitBox lo hi, t.eval (pointDict ks x) = .ok (V x) ∧ 0 < K * P x := by
    intro x hx
    obtain ⟨v, h1, h3⟩ := H x hx
    refine ⟨?_, by rw [← h3]; exact Real.exp_pos _⟩
    rw [h1, hVdef]
    simp only
    rw [← h3, Real.log_exp, neg_neg]
  have hVm : Measurable V := (Real.measurable_log.comp (measurable_const.mul hP.measurable)).neg
  have hden : ∀ x ∈ limitBox lo hi, chainDensity m V x = K * P x := by
    intro x hx
    unfold chainDensity chainValue
    simp only [hlog, hflip, if_true, hVdef, neg_neg]
    exact Real.exp_log (hpd x hx).2
  refine ⟨V, hVm, fun x hx => (hpd x hx).1, ?_, heldLaw_scale (fun i _ => hx0 i) hP.measurable hK fun x hx => hden x hx.1⟩
  have hcomp : IsCompact (limitBox lo hi) := by rw [limitBox_eq]; exact isCompact_Icc
  have hc : ContinuousOn (fun x => K * P x) (limitBox lo hi) := (continuous_const.mul hP).continuousOn
  obtain ⟨p, hp, hp'⟩ := hcomp.exists_isMinOn ⟨x0, hx0⟩ hc
  obtain ⟨q, hq, hq'⟩ := hcomp.exists_isMaxOn ⟨x0, hx0⟩ hc
  exact ⟨K * P p, K * P q, (hpd p hp).2, fun x hx => by rw [hden x hx.1]; exact ⟨hp' hx.1, hq' hx.1⟩⟩

end Oxsx
