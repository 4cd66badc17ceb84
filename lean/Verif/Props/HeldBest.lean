import Verif.Props.HeldChain
import Verif.Props.ChainBest
set_option linter.unusedSectionVars false
set_option linter.unusedSimpArgs false
set_option linter.unusedVariables false
/-
C116: fits with fixed parameters: the posterior given the fixed parameters, and the best fit with them.
-/
namespace Oxsx
open MeasureTheory ProbabilityTheory Spec
open scoped ENNReal NNReal Nat
variable {σ : Type}

/-- C116 for a fit: counts with Gaussian constraints on fitted normalisations, a chain as in `C108_posterior_histogram`, some of whose normalisations the sampler holds fixed. The fraction of
the recorded steps in every bin of the full histogram converges to the probability of the bin under the posterior as a function of the free normalisations, given the fixed ones. -/
theorem C116_posterior_histogram {name : Nat → String} {C : FitSys σ ℝ} {objs : Nat → σ} {log : List (BinnedED ℝ × NormStatus)} {d : BinnedED ℝ}
    {cs : List (String × ℝ × ℝ)} (hd : (cs.map (·.1)).Nodup) (hw : ∀ q ∈ cs, q.1 ∈ PdfLog.fitted log ∧ 0 < q.2.2) (h : CanFit log d)
    {n : Fin d.hist.nBins → ℕ} (hn : ∀ b, countIn d b.1 = n b) {ks : List String} (hk : NamesSorted ks) (hne : ks ≠ [])
    (hall : (PdfLog.fitted log).Perm ks) {m : MCMC ℝ} (hlog : m.logged = true) (hflip : m.flip = true) {lo hi : Fin ks.length → ℝ}
    (hl : HasLimits m ks lo hi) (hmin : m.minima.length = ks.length) (hmax : m.maxima.length = ks.length)
    (hpos : ∀ x ∈ limitBox lo hi, ∀ b, b < d.hist.nBins → 0 < rateAt log (pointDict ks x) b)
    {s : MetropolisSampler ℝ} (hs : ∀ i : Fin ks.length, ks[i] ∉ s.fixed → lo i < hi i ∧ ∃ sg, s.sigmas.find ks[i] = some sg ∧ sg ≠ 0)
    {x0 : Fin ks.length → ℝ} (hx0 : x0 ∈ limitBox lo hi)
    (hf : m.samples.Fresh) (hfull : m.samples.saveFull = true) (hch : m.samples.saveChain = false) (hq : 0 < m.samples.auto.qLen)
    {as : List (BinAxis ℝ)} (hax : (AxisCollection.empty : AxisCollection ℝ).addAxes as = .ok m.samples.axes) (hasne : as ≠ []) (hc : ∀ a ∈ as, a.Contiguous)
    (hlen : as.length = ks.length) (hnm : ∀ a ∈ as, a.name ∈ ks) :
    ∃ cons, setGaussians cs = .ok cons ∧ ∃ K : ℝ, ∀ x1 ∈ heldBox lo hi (heldBy s ks) x0, ∀ burnIn thin : Int, thin ≠ 0 → ∀ (N : Nat) (r : String → ℝ), 0 < N →
      ∃ cnt : (Fin N → (Fin ks.length → ℝ) × ℝ) → Nat → ℝ,
        (∀ ω, ∃ m' res, ({ m with trial := pointDict ks x1, maxIter := N, samples := { m.samples with burnIn := burnIn, thin := thin } } : MCMC ℝ).optimise Real.exp
            (fitStat name C objs log cons d) r ((List.ofFn ω).map fun w => s.input (fun k sg => sg * dval (pointDict ks w.1) k) w.2) = .ok (m', res) ∧
          ∀ b, b < m.samples.axes.nBins → m'.samples.hist.getBinContent b = .ok (cnt ω b)) ∧
        ∀ b, b < m.samples.axes.nBins → 0 < recordedCount burnIn thin N →
          Integrable (fun ω => (cnt ω b / recordedCount burnIn thin N -
              (heldLaw lo hi (heldBy s ks) x0 fun x => posterior log cs n (pointDict ks x)).real (binRegion m.samples.axes as ks b)) ^ 2)
            (Measure.pi fun _ : Fin N => (Measure.pi fun _ : Fin ks.length => gaussianReal 0 1).prod (volume.restrict (Set.Ico (0 : ℝ) 1))) ∧
          ∫ ω, (cnt ω b / recordedCount burnIn thin N -
              (heldLaw lo hi (heldBy s ks) x0 fun x => posterior log cs n (pointDict ks x)).real (binRegion m.samples.axes as ks b)) ^ 2
            ∂(Measure.pi fun _ : Fin N => (Measure.pi fun _ : Fin ks.length => gaussianReal 0 1).prod (volume.restrict (Set.Ico (0 : ℝ) 1))) ≤ K / recordedCount burnIn thin N := by
  obtain ⟨cons, K, e, hK, H⟩ := C97_posterior (name := name) (C := C) (objs := objs) hd hw h hn
  obtain ⟨V, v1, v2, v3, v4⟩ := held_density (t := fitStat name C objs log cons d) (posterior_continuous hk log cs n) hK hlog hflip (heldBy s ks) hx0 (fun x hx => by
    obtain ⟨v, h1, h2⟩ := H (pointDict ks x) (fun hh => hne (by rw [← pointDict_keys ks x, hh]; rfl)) (pointDict_sorted hk x) (by
      intro k hkf
      obtain ⟨i, rfl⟩ := names_get (hall.subset hkf)
      rw [pointDict_find hk]; rfl) (hpos x hx)
    refine ⟨v, ?_, h2⟩
    show (fitValue name C objs log cons d (pointDict ks x) >>= _) = _
    rw [h1]; rfl)
  obtain ⟨K, g⟩ := C116_histogram (t := fitStat name C objs log cons d) hk hall.length_eq hl hmin hmax v2 v1 (Or.inl hlog) hs hx0 v3 hf hfull hch hq hax hasne hc hlen hnm
  rw [v4] at g
  exact ⟨cons, e, K, g⟩

/-! ### The best fit with fixed parameters -/

/-- The points of a path stay where the chain does. -/
theorem points_stay {X W : Type} {T : X → W → X} {B : Set X} (h : ∀ x ∈ B, ∀ w, T x w ∈ B) : ∀ (ws : List W) {x : X}, x ∈ B → ∀ y ∈ x :: Ergodic.points T x ws, y ∈ B
  | [], x, hx, y, hy => by rw [Ergodic.points, List.mem_singleton] at hy; rw [hy]; exact hx
  | w :: ws, x, hx, y, hy => by
    rw [Ergodic.points] at hy
    rcases List.mem_cons.1 hy with rfl | hy
    · exact hx
    · exact points_stay h ws (h x hx w) y hy

/-- C116: the best fit with fixed parameters. With a statistic continuous within the limits and at least one free parameter, the best fit that a run reports has the fixed parameters where the run started, and for
every `ε` the probability, over the random numbers of the run, that with these values of the fixed parameters there is a value better than the reported one by `ε` or more is at most a constant over the number of steps. -/
theorem C116_best {m : MCMC ℝ} {t : TestStat ℝ} {ks : List String} (hk : NamesSorted ks) {lo hi : Fin ks.length → ℝ} (hl : HasLimits m ks lo hi)
    {V : (Fin ks.length → ℝ) → ℝ} (hV : ∀ x ∈ limitBox lo hi, t.eval (pointDict ks x) = .ok (V x)) (hm : Measurable V) (hcont : ContinuousOn V (limitBox lo hi))
    (hd : m.logged = true ∨ ∀ x, 0 < chainValue m V x)
    {s : MetropolisSampler ℝ} (hs : ∀ i : Fin ks.length, ks[i] ∉ s.fixed → lo i < hi i ∧ ∃ sg, s.sigmas.find ks[i] = some sg ∧ sg ≠ 0) (hfree : ∃ i : Fin ks.length, ks[i] ∉ s.fixed)
    {x0 : Fin ks.length → ℝ} (hx0 : x0 ∈ limitBox lo hi) (hb : ∃ a b, 0 < a ∧ ∀ x ∈ heldBox lo hi (heldBy s ks) x0, a ≤ chainDensity m V x ∧ chainDensity m V x ≤ b) :
    (∀ x1 ∈ heldBox lo hi (heldBy s ks) x0, ∀ (sm : MCMCSamples ℝ) (N : Nat) (r : String → ℝ) (ω : Fin N → (Fin ks.length → ℝ) × ℝ) m' res,
      ({ m with trial := pointDict ks x1, maxIter := N, samples := sm } : MCMC ℝ).optimise Real.exp t r
        ((List.ofFn ω).map fun w => s.input (fun k sg => sg * dval (pointDict ks w.1) k) w.2) = .ok (m', res) →
      ∃ y ∈ heldBox lo hi (heldBy s ks) x0, res.bestFit = pointDict ks y ∧ res.extremeVal = (if m.flip then - V y else V y)) ∧
    ∀ ε : ℝ, 0 < ε → ∃ K : ℝ, ∀ x1 ∈ heldBox lo hi (heldBy s ks) x0, ∀ (sm : MCMCSamples ℝ) (N : Nat) (r : String → ℝ), 0 < N →
      (Measure.pi fun _ : Fin N => (Measure.pi fun _ : Fin ks.length => gaussianReal 0 1).prod (volume.restrict (Set.Ico (0 : ℝ) 1))).real
        {ω | ∃ m' res, ({ m with trial := pointDict ks x1, maxIter := N, samples := sm } : MCMC ℝ).optimise Real.exp t r
            ((List.ofFn ω).map fun w => s.input (fun k sg => sg * dval (pointDict ks w.1) k) w.2) = .ok (m', res) ∧
          ∃ x ∈ heldBox lo hi (heldBy s ks) x0, res.extremeVal + ε ≤ (if m.flip then - V x else V x)} ≤ K / N := by
  have hne : ks ≠ [] := by
    rintro rfl
    obtain ⟨i, _⟩ := hfree
    exact i.elim0
  have hsome := held_some hs
  obtain ⟨hp, e, he⟩ := held_ergodic hm hd hs hx0 hb
  refine ⟨fun x1 hx1 sm N r ω m' res h => ?_, fun ε hε => ?_⟩
  · obtain ⟨⟨y, hy, c1, c2⟩, _⟩ := MCMC.optimise_best_path hk hne hl hV hsome hx1.1 h
    exact ⟨y, points_stay he.stays _ hx1 y hy, c1, c2⟩
  -- the best point, and two regions around it
  set F := heldBy s ks with hF
  have hx0F : ∀ i, F i → lo i ≤ x0 i ∧ x0 i ≤ hi i := fun i _ => hx0 i
  set V' : (Fin (freeCount F) → ℝ) → ℝ := fun z => V (withHeld F x0 z) with hV'
  have hin : ∀ z, z ∈ limitBox (freePart F lo) (freePart F hi) → withHeld F x0 z ∈ heldBox lo hi F x0 := fun z h => ⟨(withHeld_mem F hx0F z).2 h, fun i hi' => withHeld_held F hi'⟩
  have hW : ContinuousOn (chainValue m V') (limitBox (freePart F lo) (freePart F hi)) := by
    have hc : ContinuousOn V' (limitBox (freePart F lo) (freePart F hi)) := hcont.comp (withHeld_continuous F x0).continuousOn fun z hz => (hin z hz).1
    have : chainValue m V' = fun x => if m.flip then - V' x else V' x := rfl
    rw [this]
    split
    · exact hc.neg
    · exact hc
  have hlt : ∀ j, freePart F lo j < freePart F hi j := fun j => (hs _ ((freeIndex F).symm j).2).1
  have hcomp : IsCompact (limitBox (freePart F lo) (freePart F hi)) := by rw [limitBox_eq]; exact isCompact_Icc
  obtain ⟨p, hpb, hpmax⟩ := hcomp.exists_isMaxOn ⟨freePart F lo, fun i => ⟨le_rfl, (hlt i).le⟩⟩ hW
  obtain ⟨ρ, hρ, hnear⟩ := Metric.continuousOn_iff.1 hW p hpb ε hε
  have hcount : 0 < freeCount F := by
    obtain ⟨i, hi'⟩ := hfree
    exact (freeIndex F ⟨i, hi'⟩).pos
  obtain ⟨R₁, R₂, m1, m2, hdis, v1, v2, hR⟩ := two_regions hcount hlt hpb hρ
  have hb' : Bounded (freePart F lo) (freePart F hi) (chainDensity m V') := by
    obtain ⟨a, b, ha, h⟩ := hb
    exact ⟨a, b, ha, fun z hz => h _ (hin z hz)⟩
  set π := heldLaw lo hi F x0 (chainDensity m V) with hπ
  have hπR : ∀ R : Set (Fin (freeCount F) → ℝ), MeasurableSet R → (∀ y ∈ R, y ∈ limitBox (freePart F lo) (freePart F hi)) → volume R ≠ 0 → 0 < π.real (freePart F ⁻¹' R) := by
    intro R hRm hbox hv
    have q := sampledLaw_pos hlt hb' hRm hbox hv
    rw [hπ, heldLaw_eq F lo hi x0 (chainDensity_measurable hm), map_measureReal_apply (withHeld_measurable F x0) (freePart_measurable F hRm)]
    have : withHeld F x0 ⁻¹' (freePart F ⁻¹' R) = R := by
      ext z; simp only [Set.mem_preimage, freePart_withHeld]
    rw [this]
    exact q
  have q1 := hπR R₁ m1 (fun y hy => (hR y (Or.inl hy)).1) v1
  have q2 := hπR R₂ m2 (fun y hy => (hR y (Or.inr hy)).1) v2
  refine ⟨(1 + 2 / e) / π.real (freePart F ⁻¹' R₁) ^ 2 + (1 + 2 / e) / π.real (freePart F ⁻¹' R₂) ^ 2, fun x1 hx1 sm N r hN => ?_⟩
  have hmiss : ∀ R : Set (Fin ks.length → ℝ), MeasurableSet R → 0 < π.real R →
      (Measure.pi fun _ : Fin N => (Measure.pi fun _ : Fin ks.length => gaussianReal 0 1).prod (volume.restrict (Set.Ico (0 : ℝ) 1))).real
        {ω | ∀ y ∈ Ergodic.points (metroStep m lo hi V (stepWidth s ks)) x1 (List.ofFn ω), y ∉ R} ≤ (1 + 2 / e) / π.real R ^ 2 / N := by
    intro R hRm hq
    have hrec : 0 < recordedCount (-1) 1 N := by rw [recordedCount_all]; exact hN
    obtain ⟨i1, i2⟩ := fraction_close he hRm (-1) 1 N hrec hx1
    have := Ergodic.unlikely (μ := Measure.pi fun _ : Fin N => (Measure.pi fun _ : Fin ks.length => gaussianReal 0 1).prod (volume.restrict (Set.Ico (0 : ℝ) 1))) i1 i2 hq
    rw [recordedCount_all] at this
    refine le_trans (measureReal_mono ?_ (measure_ne_top _ _)) (this.trans (le_of_eq (by rw [div_right_comm])))
    intro ω hω
    show π.real R ≤ |_|
    rw [recordedIn_none hω, zero_div, zero_sub, abs_neg]
    exact le_abs_self _
  refine le_trans (measureReal_mono (s₂ := {ω | ∀ y ∈ Ergodic.points (metroStep m lo hi V (stepWidth s ks)) x1 (List.ofFn ω), y ∉ freePart F ⁻¹' R₁} ∪
    {ω | ∀ y ∈ Ergodic.points (metroStep m lo hi V (stepWidth s ks)) x1 (List.ofFn ω), y ∉ freePart F ⁻¹' R₂}) ?_ (measure_ne_top _ _))
    ((measureReal_union_le _ _).trans ?_)
  · rintro ω ⟨m', res, hrun, x, hx, hbad⟩
    by_contra hno
    simp only [Set.mem_union, Set.mem_ofPred_eq, not_or, not_forall, not_not] at hno
    obtain ⟨⟨y₁, hy1, hr1⟩, y₂, hy2, hr2⟩ := hno
    have hvis := (MCMC.optimise_best_path hk hne hl hV hsome hx1.1 hrun).2
    have hval : ∀ y ∈ Ergodic.points (metroStep m lo hi V (stepWidth s ks)) x1 (List.ofFn ω), freePart F y ∈ R₁ ∨ freePart F y ∈ R₂ → res.extremeVal < chainValue m V y := by
      intro y hyp hy
      have hyB : y ∈ heldBox lo hi F x0 := points_stay he.stays _ hx1 y (List.mem_cons_of_mem _ hyp)
      obtain ⟨hyb, hyd⟩ := hR _ hy
      have h1 := hnear _ hyb hyd
      rw [Real.dist_eq] at h1
      have h2 := (abs_lt.1 h1).1
      have back : ∀ x ∈ heldBox lo hi F x0, chainValue m V' (freePart F x) = chainValue m V x := by
        intro x hx
        unfold chainValue
        simp only [hV', withHeld_freePart F hx.2]
      have hxb : freePart F x ∈ limitBox (freePart F lo) (freePart F hi) := fun j => hx.1 _
      have h3 : chainValue m V' (freePart F x) ≤ chainValue m V' p := hpmax hxb
      rw [back x hx] at h3
      rw [back y hyB] at h2
      have h4 : res.extremeVal + ε ≤ chainValue m V x := hbad
      linarith
    have e1 := (hvis y₁ hy1).resolve_left (not_le.2 (hval y₁ hy1 (Or.inl hr1)))
    have e2 := (hvis y₂ hy2).resolve_left (not_le.2 (hval y₂ hy2 (Or.inr hr2)))
    have : y₁ = y₂ := pointDict_inj (e1.symm.trans e2)
    subst this
    exact Set.disjoint_left.1 hdis hr1 hr2
  · rw [add_div]
    exact add_le_add (hmiss _ (freePart_measurable F m1) q1) (hmiss _ (freePart_measurable F m2) q2)

/-! ### Examples -/

/-- With nothing fixed, the law is that of C108. -/
theorem heldLaw_none {n : Nat} (lo hi x0 : Fin n → ℝ) (d : (Fin n → ℝ) → ℝ) : heldLaw lo hi (fun _ => False) x0 d = sampledLaw lo hi d := by
  have e : heldVolume lo hi (fun _ => False) x0 = volume.restrict (limitBox lo hi) := by
    unfold heldVolume
    simp only [if_false]
    rw [limitBox_eq, ← Set.pi_univ_Icc, volume_pi, Measure.restrict_pi_pi]
  unfold heldLaw sampledLaw targetLaw
  rw [e]

/-- With everything fixed, it is the point itself. -/
theorem heldLaw_all {n : Nat} (lo hi x0 : Fin n → ℝ) {d : (Fin n → ℝ) → ℝ} (hd : Measurable d) (h0 : 0 < d x0) : heldLaw lo hi (fun _ => True) x0 d = Measure.dirac x0 := by
  have e : heldVolume lo hi (fun _ => True) x0 = Measure.dirac x0 := by
    unfold heldVolume
    simp only [if_true]
    refine Measure.pi_eq fun s hs => ?_
    rw [Measure.dirac_apply' _ (MeasurableSet.univ_pi hs)]
    by_cases h : x0 ∈ Set.univ.pi s
    · rw [Set.indicator_of_mem h]
      exact (Finset.prod_eq_one fun i _ => by rw [Measure.dirac_apply' _ (hs i), Set.indicator_of_mem (h i trivial)]; rfl).symm
    · rw [Set.indicator_of_notMem h]
      simp only [Set.mem_univ_pi, not_forall] at h
      obtain ⟨i, hi'⟩ := h
      exact (Finset.prod_eq_zero (Finset.mem_univ i) (by rw [Measure.dirac_apply' _ (hs i), Set.indicator_of_notMem hi'])).symm
  have hm : Measurable fun x => ENNReal.ofReal (d x) := ENNReal.measurable_ofReal.comp hd
  have hw : (Measure.dirac x0).withDensity (fun x => ENNReal.ofReal (d x)) = ENNReal.ofReal (d x0) • Measure.dirac x0 := by
    refine Measure.ext fun A hA => ?_
    rw [withDensity_apply _ hA, Measure.smul_apply, Measure.dirac_apply' _ hA, ← lintegral_indicator hA, lintegral_dirac' _ (hm.indicator hA)]
    by_cases h : x0 ∈ A <;> simp [h]
  unfold heldLaw
  rw [e, hw]
  have hK0 : ENNReal.ofReal (d x0) ≠ 0 := by simpa using h0
  rw [Measure.smul_apply, measure_univ, smul_eq_mul, mul_one, smul_smul, ENNReal.inv_mul_cancel hK0 ENNReal.ofReal_ne_top, one_smul]

/-- The walk of `exWalk` with the background held fixed. -/
noncomputable def exHeldWalk : MetropolisSampler ℝ := { sigmas := [("b", 1/2), ("s", 2)], fixed := ["b"] }

theorem exHeldWalk_widths : ∀ i : Fin 2, (["b", "s"] : List String)[i] ∉ exHeldWalk.fixed → (1 : ℝ) < 10 ∧ ∃ sg, exHeldWalk.sigmas.find (["b", "s"] : List String)[i] = some sg ∧ sg ≠ 0 := by
  intro i hi
  fin_cases i
  · exact absurd (by simp [exHeldWalk]) hi
  · exact ⟨by norm_num, 2, by simp [exHeldWalk, SMap.find], by norm_num⟩

-- two bins with 4 and 5 events, signal between 1 and 10, the background held at 3: the histogram of the chain converges to the posterior of the signal, given the background
example (C : FitSys σ ℝ) (objs : Nat → σ) : ∃ (c : AxisCollection ℝ) (as : List (BinAxis ℝ)) (cons : ConstraintManager ℝ) (K : ℝ), setGaussians [("b", 3, 1/2)] = .ok cons ∧
    ∃ cnt : (Fin 5000 → (Fin 2 → ℝ) × ℝ) → Nat → ℝ,
      (∀ ω, ∃ m' res, ({ exChain with samples := { MCMCSamples.new with saveFull := true, axes := c, burnIn := 1000, thin := 2 }, trial := pointDict ["b", "s"] ![3, 2], maxIter := 5000 } : MCMC ℝ).optimise
          Real.exp (fitStat exSysName C objs exTwo cons (exRealPdf "d" 4 5)) (fun _ => 0)
          ((List.ofFn ω).map fun w => exHeldWalk.input (fun k sg => sg * dval (pointDict ["b", "s"] w.1) k) w.2) = .ok (m', res) ∧
        ∀ b, b < c.nBins → m'.samples.hist.getBinContent b = .ok (cnt ω b)) ∧
      ∀ b, b < c.nBins → 0 < recordedCount 1000 2 5000 →
          ∫ ω, (cnt ω b / recordedCount 1000 2 5000 -
              (heldLaw (fun _ => 1) (fun _ => 10) (heldBy exHeldWalk ["b", "s"]) ![3, 7] fun x => posterior exTwo [("b", 3, 1/2)] ![4, 5] (pointDict ["b", "s"] x)).real
                (binRegion c as ["b", "s"] b)) ^ 2
            ∂(Measure.pi fun _ : Fin 5000 => (Measure.pi fun _ : Fin 2 => gaussianReal 0 1).prod (volume.restrict (Set.Ico (0 : ℝ) 1))) ≤ K / recordedCount 1000 2 5000 := by
  obtain ⟨a, b, c, ha, hb, na, nb, hc⟩ := exChainAxes
  have hx0 : (![3, 7] : Fin 2 → ℝ) ∈ limitBox (fun _ : Fin 2 => (1 : ℝ)) (fun _ => 10) := by
    intro i; fin_cases i <;> norm_num
  obtain ⟨cons, h1, K, h2⟩ := C116_posterior_histogram (name := exSysName) (C := C) (objs := objs) (cs := [("b", 3, 1/2)]) (by simp) (by
    intro q hq
    rw [List.mem_singleton] at hq
    subst hq
    exact ⟨by show "b" ∈ (["s", "b"] : List String); decide, by norm_num⟩) (exTwo_canFit 4 5) exTwo_counts exNames_sorted (by simp)
      (by show (["s", "b"] : List String).Perm ["b", "s"]; exact List.Perm.swap _ _ _)
      (m := { exChain with samples := { MCMCSamples.new with saveFull := true, axes := c } }) rfl rfl (lo := fun _ => 1) (hi := fun _ => 10)
      ⟨exChain_limits.low, exChain_limits.high⟩ rfl rfl exTwo_positive (s := exHeldWalk) exHeldWalk_widths hx0
      ⟨rfl, rfl, rfl, rfl⟩ rfl rfl (by show 0 < 1000; omega) hc (by simp) (by
        intro q hq
        simp only [List.mem_cons, List.not_mem_nil, or_false] at hq
        rcases hq with rfl | rfl
        · exact BinAxis.mkEqual_contiguous ha
        · exact BinAxis.mkEqual_contiguous hb) rfl (by
        intro q hq
        simp only [List.mem_cons, List.not_mem_nil, or_false] at hq
        rcases hq with rfl | rfl
        · rw [na]; simp
        · rw [nb]; simp)
  obtain ⟨cnt, h3, h4⟩ := h2 ![3, 2] ⟨by intro i; fin_cases i <;> norm_num, by
    intro i hi
    fin_cases i
    · rfl
    · exact absurd hi (by simp [heldBy, exHeldWalk])⟩ 1000 2 (by decide) 5000 (fun _ => 0) (by omega)
  exact ⟨c, [a, b], cons, K, h1, cnt, h3, fun b hb hr => (h4 b hb hr).2⟩

theorem exSquares_bounded : ∃ a b, 0 < a ∧ ∀ x ∈ heldBox (fun _ : Fin 2 => (1 : ℝ)) (fun _ => 10) (heldBy exHeldWalk ["b", "s"]) ![3, 7],
    a ≤ chainDensity exChain (fun x => x 0 ^ 2 + x 1 ^ 2) x ∧ chainDensity exChain (fun x => x 0 ^ 2 + x 1 ^ 2) x ≤ b := by
  refine ⟨Real.exp (-200), 1, Real.exp_pos _, fun x hx => ?_⟩
  have a0 := hx.1 0
  have a1 := hx.1 1
  unfold chainDensity chainValue
  simp only [exChain, if_true]
  refine ⟨Real.exp_le_exp.2 (by nlinarith), ?_⟩
  rw [← Real.exp_zero]
  exact Real.exp_le_exp.2 (by nlinarith)

-- the sum of two squares, with the first parameter held at 3: the best fit of a long chain is close to the smallest value with it, which is 10
example : ∃ K : ℝ, ∀ (sm : MCMCSamples ℝ) (N : Nat) (r : String → ℝ), 0 < N →
    (Measure.pi fun _ : Fin N => (Measure.pi fun _ : Fin 2 => gaussianReal 0 1).prod (volume.restrict (Set.Ico (0 : ℝ) 1))).real
      {ω | ∃ m' res, ({ exChain with trial := pointDict ["b", "s"] ![3, 7], maxIter := N, samples := sm } : MCMC ℝ).optimise Real.exp exSquares r
          ((List.ofFn ω).map fun w => exHeldWalk.input (fun k sg => sg * dval (pointDict ["b", "s"] w.1) k) w.2) = .ok (m', res) ∧ res.extremeVal ≤ -10 - 1 / 1000} ≤ K / N := by
  have hx0 : (![3, 7] : Fin 2 → ℝ) ∈ limitBox (fun _ : Fin 2 => (1 : ℝ)) (fun _ => 10) := by
    intro i; fin_cases i <;> norm_num
  have hm : Measurable fun x : Fin 2 → ℝ => x 0 ^ 2 + x 1 ^ 2 := by fun_prop
  obtain ⟨_, h⟩ := C116_best exNames_sorted (m := exChain) (t := exSquares) exChain_limits (fun x _ => exSquares_eval x) hm (by fun_prop) (Or.inl rfl) (s := exHeldWalk) exHeldWalk_widths
    ⟨1, by show "s" ∉ exHeldWalk.fixed; simp [exHeldWalk]⟩ hx0 exSquares_bounded
  obtain ⟨K, g⟩ := h (1 / 1000) (by norm_num)
  refine ⟨K, fun sm N r hN => le_trans (measureReal_mono ?_ (measure_ne_top _ _)) (g ![3, 7] ⟨hx0, fun i _ => rfl⟩ sm N r hN)⟩
  rintro ω ⟨m', res, h1, h2⟩
  refine ⟨m', res, h1, ![3, 1], ⟨by intro i; fin_cases i <;> norm_num, ?_⟩, ?_⟩
  · intro i hi
    fin_cases i
    · rfl
    · exact absurd hi (by simp [heldBy, exHeldWalk])
  · have : exChain.flip = true := rfl
    rw [this]
    norm_num
    linarith

end Oxsx
