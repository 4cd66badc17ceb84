import Verif.Props.ConvergeHist
import Verif.Props.Asymptotic
set_option linter.unusedSectionVars false
set_option linter.unusedSimpArgs false
set_option linter.unusedVariables false
/-
C115: the best fit of a chain. The best point a Metropolis chain has seen comes arbitrarily close to the best value within the limits.
-/
namespace Oxsx
open MeasureTheory ProbabilityTheory Filter
open scoped ENNReal Nat Topology
variable {σ : Type}

/-! ### What one run keeps as its best point -/

/-- One iteration keeps the best point noted so far, and notes its starting point before leaving it. -/
theorem MCMC.iterate_best {ex : ℝ → ℝ} {t : TestStat ℝ} {st st' : MCMC ℝ} {i : MCInput ℝ} (h : st.iterate ex t i = .ok st') :
    st.maxVal ≤ st'.maxVal ∧ (st.curVal ≤ st'.maxVal ∨ st'.curStep = st.curStep) ∧
      ((st'.bestFit = st.bestFit ∧ st'.maxVal = st.maxVal) ∨ (st'.bestFit = st.curStep ∧ st'.maxVal = st.curVal)) := by
  unfold MCMC.iterate at h
  obtain ⟨d, _, h⟩ := Res.bind_eq_ok.1 h
  obtain ⟨r, h1, h⟩ := Res.bind_eq_ok.1 h
  obtain ⟨s, _, h⟩ := Res.bind_eq_ok.1 h
  have h := Res.ok.inj h
  subst h
  unfold MCMC.stepAccepted at h1
  obtain ⟨b, _, h1⟩ := Res.bind_eq_ok.1 h1
  cases b with
  | false =>
    simp only [Bool.false_eq_true, if_false] at h1
    have h1 := Res.ok.inj h1
    subst h1
    exact ⟨le_rfl, Or.inr rfl, Or.inl ⟨rfl, rfl⟩⟩
  | true =>
    simp only [if_true] at h1
    obtain ⟨v, _, h1⟩ := Res.bind_eq_ok.1 h1
    have h1 := Res.ok.inj h1
    subst h1
    have hd : ∀ q : MCMC ℝ, (q.decideStep ex d.1 v d.2 i.unif).1.maxVal = q.maxVal ∧ (q.decideStep ex d.1 v d.2 i.unif).1.bestFit = q.bestFit := by
      intro q; unfold MCMC.decideStep; split <;> exact ⟨rfl, rfl⟩
    obtain ⟨e1, e2⟩ := hd st.noteBest
    simp only [e1, e2]
    unfold MCMC.noteBest
    split
    · rename_i hgt
      exact ⟨le_of_lt hgt, Or.inl le_rfl, Or.inr ⟨rfl, rfl⟩⟩
    · rename_i hgt
      exact ⟨le_rfl, Or.inl (not_lt.1 hgt), Or.inl ⟨rfl, rfl⟩⟩

/-- The whole loop: every point of the path is noted, except perhaps the one where the chain ends; and what is noted are points of the path. -/
theorem MCMC.run_best {m : MCMC ℝ} {t : TestStat ℝ} {ks : List String} (hk : NamesSorted ks) {lo hi : Fin ks.length → ℝ} (hl : HasLimits m ks lo hi)
    {V : (Fin ks.length → ℝ) → ℝ} (hV : ∀ x ∈ limitBox lo hi, t.eval (pointDict ks x) = .ok (V x))
    {s : MetropolisSampler ℝ} (hs : ∀ i : Fin ks.length, ks[i] ∉ s.fixed → (s.sigmas.find ks[i]).isSome) :
    ∀ (ws : List ((Fin ks.length → ℝ) × ℝ)) (x : Fin ks.length → ℝ) (st st' : MCMC ℝ), ChainAt m st ks V x →
      Res.forFold (MCMC.iterate Real.exp t) st (ws.map fun w => s.input (fun k sg => sg * dval (pointDict ks w.1) k) w.2) = .ok st' →
      st.maxVal ≤ st'.maxVal ∧
      (∀ y ∈ x :: Ergodic.points (metroStep m lo hi V (stepWidth s ks)) x ws, chainValue m V y ≤ st'.maxVal ∨ st'.curStep = pointDict ks y) ∧
      ((st'.bestFit = st.bestFit ∧ st'.maxVal = st.maxVal) ∨
        ∃ y ∈ x :: Ergodic.points (metroStep m lo hi V (stepWidth s ks)) x ws, st'.bestFit = pointDict ks y ∧ st'.maxVal = chainValue m V y)
  | [], x, st, st', hx, h => by
    have h := Res.ok.inj h
    subst h
    refine ⟨le_rfl, fun y hy => ?_, Or.inl ⟨rfl, rfl⟩⟩
    rw [Ergodic.points, List.mem_singleton] at hy
    subst hy
    exact Or.inr hx.step
  | w :: ws, x, st, st', hx, h => by
    rw [List.map_cons] at h
    obtain ⟨st1, h1, h2⟩ := Res.forFold_cons_eq_ok.1 h
    obtain ⟨d, r, _, _, _, hnext⟩ := metropolis_step hk hl hV hs x w.1 w.2 st hx
    have hx1 : ChainAt m st1 ks V (metroStep m lo hi V (stepWidth s ks) x w) := hnext st1 h1
    obtain ⟨a1, a2, a3⟩ := MCMC.run_best hk hl hV hs ws _ st1 st' hx1 h2
    obtain ⟨b1, b2, b3⟩ := MCMC.iterate_best h1
    refine ⟨b1.trans a1, fun y hy => ?_, ?_⟩
    · rw [Ergodic.points] at hy
      rcases List.mem_cons.1 hy with rfl | hy
      · rcases b2 with b2 | b2
        · rw [hx.val] at b2; exact Or.inl (b2.trans a1)
        · rw [hx1.step, hx.step] at b2
          have := pointDict_inj b2
          have h3 := a2 _ List.mem_cons_self
          rwa [this] at h3
      · exact a2 y hy
    · rcases a3 with ⟨c1, c2⟩ | ⟨y, hy, c1, c2⟩
      · rcases b3 with ⟨d1, d2⟩ | ⟨d1, d2⟩
        · exact Or.inl ⟨c1.trans d1, c2.trans d2⟩
        · exact Or.inr ⟨x, List.mem_cons_self, c1.trans (d1.trans hx.step), c2.trans (d2.trans hx.val)⟩
      · exact Or.inr ⟨y, by rw [Ergodic.points]; exact List.mem_cons_of_mem _ hy, c1, c2⟩

/-- The points of a path stay within the limits. -/
theorem points_in_box {m : MCMC ℝ} {n : Nat} {lo hi : Fin n → ℝ} {V : (Fin n → ℝ) → ℝ} {c : Fin n → ℝ} :
    ∀ (ws : List ((Fin n → ℝ) × ℝ)) {x : Fin n → ℝ}, x ∈ limitBox lo hi → ∀ y ∈ x :: Ergodic.points (metroStep m lo hi V c) x ws, y ∈ limitBox lo hi
  | [], x, hx, y, hy => by rw [Ergodic.points, List.mem_singleton] at hy; rw [hy]; exact hx
  | w :: ws, x, hx, y, hy => by
    rw [Ergodic.points] at hy
    rcases List.mem_cons.1 hy with rfl | hy
    · exact hx
    · refine points_in_box ws ?_ y hy
      unfold metroStep moveTo
      split
      · rename_i h; exact h.1
      · exact hx

/-- The best fit of a run is a point of its path, with its own value, and every point after the first one is noted, except perhaps the one where the chain ends. -/
theorem MCMC.optimise_best_path {m : MCMC ℝ} {t : TestStat ℝ} {ks : List String} (hk : NamesSorted ks) (hne : ks ≠ []) {lo hi : Fin ks.length → ℝ} (hl : HasLimits m ks lo hi)
    {V : (Fin ks.length → ℝ) → ℝ} (hV : ∀ x ∈ limitBox lo hi, t.eval (pointDict ks x) = .ok (V x))
    {s : MetropolisSampler ℝ} (hs : ∀ i : Fin ks.length, ks[i] ∉ s.fixed → (s.sigmas.find ks[i]).isSome) {x0 : Fin ks.length → ℝ} (hx0 : x0 ∈ limitBox lo hi)
    {sm : MCMCSamples ℝ} {N : Nat} {r : String → ℝ} {ω : Fin N → (Fin ks.length → ℝ) × ℝ} {m' : MCMC ℝ} {res : MCMCResult ℝ}
    (h : ({ m with trial := pointDict ks x0, maxIter := N, samples := sm } : MCMC ℝ).optimise Real.exp t r
        ((List.ofFn ω).map fun w => s.input (fun k sg => sg * dval (pointDict ks w.1) k) w.2) = .ok (m', res)) :
    (∃ y ∈ x0 :: Ergodic.points (metroStep m lo hi V (stepWidth s ks)) x0 (List.ofFn ω), res.bestFit = pointDict ks y ∧ res.extremeVal = chainValue m V y) ∧
    ∀ y ∈ Ergodic.points (metroStep m lo hi V (stepWidth s ks)) x0 (List.ofFn ω), chainValue m V y ≤ res.extremeVal ∨ m'.curStep = pointDict ks y := by
  unfold MCMC.optimise at h
  split at h
  · cases h
  have hpl : (pointDict ks x0).length = ks.length := by unfold pointDict; simp
  have hst0 : ({ m with trial := pointDict ks x0, maxIter := N, samples := sm } : MCMC ℝ).start r t =
      { m with trial := pointDict ks x0, maxIter := N, samples := sm, curStep := pointDict ks x0 } := by
    unfold MCMC.start
    rw [if_pos (by rw [hpl]; simpa using hne)]
  have hbeg : (({ m with trial := pointDict ks x0, maxIter := N, samples := sm, curStep := pointDict ks x0 } : MCMC ℝ).begin_ t) =
      .ok { m with trial := pointDict ks x0, maxIter := N, samples := sm, curStep := pointDict ks x0, curVal := chainValue m V x0, bestFit := pointDict ks x0, maxVal := chainValue m V x0 } := by
    unfold MCMC.begin_ MCMC.value
    simp only [hV x0 hx0, Res.ok_bind]
    rfl
  rw [hst0, hbeg, Res.ok_bind] at h
  obtain ⟨st', h1, h2⟩ := Res.bind_eq_ok.1 h
  have h2 := Res.ok.inj h2
  have e1 : st' = m' := congrArg Prod.fst h2
  have e2 : (⟨st'.bestFit, true, st'.maxVal⟩ : MCMCResult ℝ) = res := congrArg Prod.snd h2
  subst e1
  subst e2
  rw [List.take_of_length_le (by simp)] at h1
  have hrun := fun hc => MCMC.run_best (m := m) hk hl hV hs (List.ofFn ω) x0 _ st' hc h1
  obtain ⟨a1, a2, a3⟩ := hrun ⟨rfl, rfl, rfl, rfl, rfl, rfl⟩
  refine ⟨?_, fun y hy => a2 y (List.mem_cons_of_mem _ hy)⟩
  rcases a3 with ⟨c1, c2⟩ | ⟨y, hy, c1, c2⟩
  · exact ⟨x0, List.mem_cons_self, c1, c2⟩
  · exact ⟨y, hy, c1, c2⟩

/-- The run as a whole: what it reports. -/
theorem MCMC.optimise_best {m : MCMC ℝ} {t : TestStat ℝ} {ks : List String} (hk : NamesSorted ks) (hne : ks ≠ []) {lo hi : Fin ks.length → ℝ} (hl : HasLimits m ks lo hi)
    {V : (Fin ks.length → ℝ) → ℝ} (hV : ∀ x ∈ limitBox lo hi, t.eval (pointDict ks x) = .ok (V x))
    {s : MetropolisSampler ℝ} (hs : ∀ i : Fin ks.length, ks[i] ∉ s.fixed → (s.sigmas.find ks[i]).isSome) {x0 : Fin ks.length → ℝ} (hx0 : x0 ∈ limitBox lo hi)
    {sm : MCMCSamples ℝ} {N : Nat} {r : String → ℝ} {ω : Fin N → (Fin ks.length → ℝ) × ℝ} {m' : MCMC ℝ} {res : MCMCResult ℝ}
    (h : ({ m with trial := pointDict ks x0, maxIter := N, samples := sm } : MCMC ℝ).optimise Real.exp t r
        ((List.ofFn ω).map fun w => s.input (fun k sg => sg * dval (pointDict ks w.1) k) w.2) = .ok (m', res)) :
    (∃ y ∈ limitBox lo hi, res.bestFit = pointDict ks y ∧ res.extremeVal = chainValue m V y) ∧
    ∀ y ∈ Ergodic.points (metroStep m lo hi V (stepWidth s ks)) x0 (List.ofFn ω), chainValue m V y ≤ res.extremeVal ∨ m'.curStep = pointDict ks y := by
  obtain ⟨⟨y, hy, c1, c2⟩, h2⟩ := MCMC.optimise_best_path hk hne hl hV hs hx0 h
  exact ⟨⟨y, points_in_box _ hx0 y hy, c1, c2⟩, h2⟩

/-! ### How likely it is that a region is not visited -/

/-- Around a point within the limits there are two separate regions of positive volume. -/
theorem two_regions {n : Nat} (hn : 0 < n) {lo hi : Fin n → ℝ} (hlt : ∀ i, lo i < hi i) {x : Fin n → ℝ} (hx : x ∈ limitBox lo hi) {r : ℝ} (hr : 0 < r) :
    ∃ R₁ R₂ : Set (Fin n → ℝ), MeasurableSet R₁ ∧ MeasurableSet R₂ ∧ Disjoint R₁ R₂ ∧ volume R₁ ≠ 0 ∧ volume R₂ ≠ 0 ∧
      ∀ y, y ∈ R₁ ∨ y ∈ R₂ → y ∈ limitBox lo hi ∧ dist y x < r := by
  set a : Fin n → ℝ := fun i => max (lo i) (x i - r / 2) with ha
  set b : Fin n → ℝ := fun i => min (hi i) (x i + r / 2) with hb
  have hab : ∀ i, a i < b i := by
    intro i
    have h1 := hx i
    have h2 := hlt i
    simp only [ha, hb, lt_min_iff, max_lt_iff]
    exact ⟨⟨h2, by linarith⟩, by linarith, by linarith⟩
  set z : Fin n := ⟨0, hn⟩
  set c₁ := a z + (b z - a z) / 3 with hc1
  set c₂ := a z + 2 * (b z - a z) / 3 with hc2
  have hz := hab z
  refine ⟨Set.Icc a (Function.update b z c₁), Set.Icc (Function.update a z c₂) b, measurableSet_Icc, measurableSet_Icc, ?_, ?_, ?_, ?_⟩
  · refine Set.disjoint_left.2 fun y h1 h2 => ?_
    have e1 := h1.2 z
    have e2 := h2.1 z
    rw [Function.update_self] at e1 e2
    linarith
  · rw [Real.volume_Icc_pi]
    refine Finset.prod_ne_zero_iff.2 fun i _ => ?_
    have : a i < Function.update b z c₁ i := by
      by_cases h : i = z
      · subst h; rw [Function.update_self]; linarith
      · rw [Function.update_of_ne h]; exact hab i
    simpa using this
  · rw [Real.volume_Icc_pi]
    refine Finset.prod_ne_zero_iff.2 fun i _ => ?_
    have : Function.update a z c₂ i < b i := by
      by_cases h : i = z
      · subst h; rw [Function.update_self]; linarith
      · rw [Function.update_of_ne h]; exact hab i
    simpa using this
  · intro y hy
    have hy' : ∀ i, a i ≤ y i ∧ y i ≤ b i := by
      intro i
      rcases hy with hy | hy
      · refine ⟨hy.1 i, (hy.2 i).trans ?_⟩
        by_cases h : i = z
        · subst h; rw [Function.update_self]; linarith
        · rw [Function.update_of_ne h]
      · refine ⟨le_trans ?_ (hy.1 i), hy.2 i⟩
        by_cases h : i = z
        · subst h; rw [Function.update_self]; linarith
        · rw [Function.update_of_ne h]
    refine ⟨fun i => ⟨(le_max_left _ _).trans (hy' i).1, (hy' i).2.trans (min_le_left _ _)⟩, ?_⟩
    rw [dist_pi_lt_iff hr]
    intro i
    have h1 : x i - r / 2 ≤ y i := (le_max_right _ _).trans (hy' i).1
    have h2 : y i ≤ x i + r / 2 := (hy' i).2.trans (min_le_right _ _)
    rw [Real.dist_eq, abs_lt]
    constructor <;> linarith

theorem sampledLaw_pos {n : Nat} {lo hi : Fin n → ℝ} (hlt : ∀ i, lo i < hi i) {d : (Fin n → ℝ) → ℝ} (hb : Bounded lo hi d) {R : Set (Fin n → ℝ)} (hR : MeasurableSet R)
    (hbox : ∀ y ∈ R, y ∈ limitBox lo hi) (hv : volume R ≠ 0) : 0 < (sampledLaw lo hi d).real R := by
  have hp := sampledLaw_prob hlt hb
  obtain ⟨h0, h1⟩ := targetLaw_total hlt hb
  obtain ⟨a, b, ha, hab⟩ := hb
  rw [measureReal_def, ENNReal.toReal_pos_iff]
  refine ⟨?_, measure_lt_top _ _⟩
  unfold sampledLaw
  rw [Measure.smul_apply, smul_eq_mul]
  refine ENNReal.mul_pos (ENNReal.inv_ne_zero.2 h1) ?_
  unfold targetLaw
  rw [withDensity_apply _ hR, Measure.restrict_restrict hR, Set.inter_eq_left.2 hbox]
  have : ENNReal.ofReal a * volume R ≤ ∫⁻ x in R, ENNReal.ofReal (d x) := by
    rw [← setLIntegral_const]
    exact setLIntegral_mono' hR fun x hx => ENNReal.ofReal_le_ofReal (hab x (hbox x hx)).1
  intro h
  rw [h] at this
  rcases mul_eq_zero.1 (le_antisymm this zero_le) with h | h
  · simp at h; linarith
  · exact hv h

theorem recordedCount_all (N : Nat) : recordedCount (-1) 1 N = N := by
  unfold recordedCount
  rw [Finset.filter_true_of_mem, Finset.card_range]
  intro i _
  exact ⟨by omega, one_dvd _⟩

theorem recordedIn_none {X : Type} {xs : List X} {R : Set X} (h : ∀ y ∈ xs, y ∉ R) (burnIn thin : Int) : recordedIn burnIn thin xs R = 0 := by
  classical
  unfold recordedIn
  apply List.sum_eq_zero
  intro a ha
  obtain ⟨p, hp, rfl⟩ := List.mem_map.1 ha
  rw [if_neg (h p.1 (List.fst_mem_of_mem_zipIdx hp)), mul_zero]

/-- C115. Run a Metropolis chain (Gaussian steps of non-zero width in all parameters) on a statistic that is continuous within the limits, from any starting point there. The best fit that the run
reports is a point within the limits with its own value, and for every `ε` the probability, over the random numbers of the run, that anywhere within the limits there is a value better than the reported one by `ε` or more is
at most a constant over the number of steps. -/
theorem C115_best {m : MCMC ℝ} {t : TestStat ℝ} {ks : List String} (hk : NamesSorted ks) (hne : ks ≠ []) {lo hi : Fin ks.length → ℝ} (hl : HasLimits m ks lo hi)
    (hlt : ∀ i, lo i < hi i) {V : (Fin ks.length → ℝ) → ℝ} (hV : ∀ x ∈ limitBox lo hi, t.eval (pointDict ks x) = .ok (V x)) (hm : Measurable V) (hcont : ContinuousOn V (limitBox lo hi))
    (hd : m.logged = true ∨ ∀ x, 0 < chainValue m V x) (hb : Bounded lo hi (chainDensity m V))
    {s : MetropolisSampler ℝ} (hs : ∀ i : Fin ks.length, ks[i] ∉ s.fixed ∧ ∃ sg, s.sigmas.find ks[i] = some sg ∧ sg ≠ 0) :
    (∀ x0 ∈ limitBox lo hi, ∀ (sm : MCMCSamples ℝ) (N : Nat) (r : String → ℝ) (ω : Fin N → (Fin ks.length → ℝ) × ℝ) m' res,
      ({ m with trial := pointDict ks x0, maxIter := N, samples := sm } : MCMC ℝ).optimise Real.exp t r
        ((List.ofFn ω).map fun w => s.input (fun k sg => sg * dval (pointDict ks w.1) k) w.2) = .ok (m', res) →
      ∃ y ∈ limitBox lo hi, res.bestFit = pointDict ks y ∧ res.extremeVal = (if m.flip then - V y else V y)) ∧
    ∀ ε : ℝ, 0 < ε → ∃ K : ℝ, ∀ x0 ∈ limitBox lo hi, ∀ (sm : MCMCSamples ℝ) (N : Nat) (r : String → ℝ), 0 < N →
      (Measure.pi fun _ : Fin N => (Measure.pi fun _ : Fin ks.length => gaussianReal 0 1).prod (volume.restrict (Set.Ico (0 : ℝ) 1))).real
        {ω | ∃ m' res, ({ m with trial := pointDict ks x0, maxIter := N, samples := sm } : MCMC ℝ).optimise Real.exp t r
            ((List.ofFn ω).map fun w => s.input (fun k sg => sg * dval (pointDict ks w.1) k) w.2) = .ok (m', res) ∧
          ∃ x ∈ limitBox lo hi, res.extremeVal + ε ≤ (if m.flip then - V x else V x)} ≤ K / N := by
  have hsome : ∀ i : Fin ks.length, ks[i] ∉ s.fixed → (s.sigmas.find ks[i]).isSome := fun i _ => by obtain ⟨_, sg, h, _⟩ := hs i; rw [h]; rfl
  refine ⟨fun x0 hx0 sm N r ω m' res h => (MCMC.optimise_best hk hne hl hV hsome hx0 h).1, fun ε hε => ?_⟩
  have hp := sampledLaw_prob hlt hb
  obtain ⟨e, he⟩ := metropolis_ergodic hlt hm hd hb hs
  -- the best point, and two regions around it
  have hW : ContinuousOn (chainValue m V) (limitBox lo hi) := by
    have : chainValue m V = fun x => if m.flip then - V x else V x := rfl
    rw [this]
    split
    · exact hcont.neg
    · exact hcont
  have hcomp : IsCompact (limitBox lo hi) := by rw [limitBox_eq]; exact isCompact_Icc
  obtain ⟨p, hpb, hpmax⟩ := hcomp.exists_isMaxOn ⟨lo, fun i => ⟨le_rfl, (hlt i).le⟩⟩ hW
  obtain ⟨ρ, hρ, hnear⟩ := Metric.continuousOn_iff.1 hW p hpb ε hε
  obtain ⟨R₁, R₂, m1, m2, hdis, v1, v2, hR⟩ := two_regions (List.length_pos_iff.2 hne) hlt hpb hρ
  have q1 := sampledLaw_pos hlt hb m1 (fun y hy => (hR y (Or.inl hy)).1) v1
  have q2 := sampledLaw_pos hlt hb m2 (fun y hy => (hR y (Or.inr hy)).1) v2
  set π := sampledLaw lo hi (chainDensity m V) with hπ
  refine ⟨(1 + 2 / e) / π.real R₁ ^ 2 + (1 + 2 / e) / π.real R₂ ^ 2, fun x0 hx0 sm N r hN => ?_⟩
  have hmiss : ∀ R : Set (Fin ks.length → ℝ), MeasurableSet R → 0 < π.real R →
      (Measure.pi fun _ : Fin N => (Measure.pi fun _ : Fin ks.length => gaussianReal 0 1).prod (volume.restrict (Set.Ico (0 : ℝ) 1))).real
        {ω | ∀ y ∈ Ergodic.points (metroStep m lo hi V (stepWidth s ks)) x0 (List.ofFn ω), y ∉ R} ≤ (1 + 2 / e) / π.real R ^ 2 / N := by
    intro R hRm hq
    have hrec : 0 < recordedCount (-1) 1 N := by rw [recordedCount_all]; exact hN
    obtain ⟨i1, i2⟩ := fraction_close he hRm (-1) 1 N hrec hx0
    have := Ergodic.unlikely (μ := Measure.pi fun _ : Fin N => (Measure.pi fun _ : Fin ks.length => gaussianReal 0 1).prod (volume.restrict (Set.Ico (0 : ℝ) 1))) i1 i2 hq
    rw [recordedCount_all] at this
    refine le_trans (measureReal_mono ?_ (measure_ne_top _ _)) (this.trans (le_of_eq (by rw [div_right_comm])))
    intro ω hω
    show π.real R ≤ |_|
    rw [recordedIn_none hω, zero_div, zero_sub, abs_neg]
    exact le_abs_self _
  refine le_trans (measureReal_mono (s₂ := {ω | ∀ y ∈ Ergodic.points (metroStep m lo hi V (stepWidth s ks)) x0 (List.ofFn ω), y ∉ R₁} ∪
    {ω | ∀ y ∈ Ergodic.points (metroStep m lo hi V (stepWidth s ks)) x0 (List.ofFn ω), y ∉ R₂}) ?_ (measure_ne_top _ _))
    ((measureReal_union_le _ _).trans ?_)
  · rintro ω ⟨m', res, hrun, x, hx, hbad⟩
    by_contra hno
    simp only [Set.mem_union, Set.mem_ofPred_eq, not_or, not_forall, not_not] at hno
    obtain ⟨⟨y₁, hy1, hr1⟩, y₂, hy2, hr2⟩ := hno
    have hvis := (MCMC.optimise_best hk hne hl hV hsome hx0 hrun).2
    have hval : ∀ y, y ∈ R₁ ∨ y ∈ R₂ → res.extremeVal < chainValue m V y := by
      intro y hy
      obtain ⟨hyb, hyd⟩ := hR y hy
      have h1 := hnear y hyb hyd
      rw [Real.dist_eq] at h1
      have h2 := (abs_lt.1 h1).1
      have h3 : chainValue m V x ≤ chainValue m V p := hpmax hx
      have h4 : res.extremeVal + ε ≤ chainValue m V x := hbad
      linarith
    have e1 := (hvis y₁ hy1).resolve_left (not_le.2 (hval y₁ (Or.inl hr1)))
    have e2 := (hvis y₂ hy2).resolve_left (not_le.2 (hval y₂ (Or.inr hr2)))
    have : y₁ = y₂ := pointDict_inj (e1.symm.trans e2)
    subst this
    exact Set.disjoint_left.1 hdis hr1 hr2
  · rw [add_div]
    exact add_le_add (hmiss R₁ m1 q1) (hmiss R₂ m2 q2)

/-- C115 for a fit: with Gaussian constraints, and limits at all points of which every bin has a positive expected rate, the probability, over the random numbers of the run, that the best fit of the chain
does not fit as well as every point within the limits, up to `ε`, is at most a constant over the number of steps. -/
theorem C115_fit {name : Nat → String} {C : FitSys σ ℝ} {objs : Nat → σ} {log : List (BinnedED ℝ × NormStatus)} {d : BinnedED ℝ}
    {cs : List (String × ℝ × ℝ)} (hd : (cs.map (·.1)).Nodup) (hw : ∀ q ∈ cs, q.1 ∈ PdfLog.fitted log ∧ 0 < q.2.2) (h : CanFit log d)
    {n : Fin d.hist.nBins → ℕ} (hn : ∀ b, countIn d b.1 = n b) {ks : List String} (hk : NamesSorted ks) (hne : ks ≠ [])
    (hall : ∀ k ∈ PdfLog.fitted log, k ∈ ks) {m : MCMC ℝ} (hlog : m.logged = true) (hflip : m.flip = true) {lo hi : Fin ks.length → ℝ}
    (hl : HasLimits m ks lo hi) (hlt : ∀ i, lo i < hi i) (hpos : ∀ x ∈ limitBox lo hi, ∀ b, b < d.hist.nBins → 0 < rateAt log (pointDict ks x) b)
    {s : MetropolisSampler ℝ} (hs : ∀ i : Fin ks.length, ks[i] ∉ s.fixed ∧ ∃ sg, s.sigmas.find ks[i] = some sg ∧ sg ≠ 0)
    {cons : ConstraintManager ℝ} (hcons : setGaussians cs = .ok cons) {ε : ℝ} (hε : 0 < ε) :
    ∃ K : ℝ, ∀ x0 ∈ limitBox lo hi, ∀ (sm : MCMCSamples ℝ) (N : Nat) (r : String → ℝ), 0 < N →
      (Measure.pi fun _ : Fin N => (Measure.pi fun _ : Fin ks.length => gaussianReal 0 1).prod (volume.restrict (Set.Ico (0 : ℝ) 1))).real
        {ω | ∃ m' res, ({ m with trial := pointDict ks x0, maxIter := N, samples := sm } : MCMC ℝ).optimise Real.exp (fitStat name C objs log cons d) r
            ((List.ofFn ω).map fun w => s.input (fun k sg => sg * dval (pointDict ks w.1) k) w.2) = .ok (m', res) ∧
          ¬ ∃ y ∈ limitBox lo hi, res.bestFit = pointDict ks y ∧ ∃ v, fitValue name C objs log cons d res.bestFit = .ok (some v) ∧
            ∀ x ∈ limitBox lo hi, ∃ vx, fitValue name C objs log cons d (pointDict ks x) = .ok (some vx) ∧ v < vx + ε} ≤ K / N := by
  obtain ⟨cons', e, V, hVm, h1, h2, h3, h4⟩ := posterior_chain (name := name) (C := C) (objs := objs) hd hw h hn hk hne hall hlog hflip hlt hpos
  rw [hcons] at e
  have e := Res.ok.inj e
  subst e
  have hcont : ContinuousOn V (limitBox lo hi) := by
    obtain ⟨cons', K, e, hK, H⟩ := C97_posterior (name := name) (C := C) (objs := objs) hd hw h hn
    rw [hcons] at e
    have e := Res.ok.inj e
    subst e
    have hv : ∀ x ∈ limitBox lo hi, Real.exp (-(V x)) = K * posterior log cs n (pointDict ks x) := by
      intro x hx
      obtain ⟨v, g1, g2⟩ := H (pointDict ks x) (fun hh => hne (by rw [← pointDict_keys ks x, hh]; rfl)) (pointDict_sorted hk x) (by
        intro k hkf
        obtain ⟨i, rfl⟩ := names_get (hall k hkf)
        rw [pointDict_find hk]; rfl) (hpos x hx)
      rw [h1 x hx] at g1
      have g1 := Option.some.inj (Res.ok.inj g1)
      rw [g1]; exact g2
    have hc : ContinuousOn (fun x => - Real.log (K * posterior log cs n (pointDict ks x))) (limitBox lo hi) := by
      refine ContinuousOn.neg (ContinuousOn.log ((posterior_continuous hk log cs n).const_mul K |>.continuousOn) fun x hx => ?_)
      rw [← hv x hx]; exact (Real.exp_pos _).ne'
    refine hc.congr fun x hx => ?_
    show V x = - Real.log (K * posterior log cs n (pointDict ks x))
    rw [← hv x hx, Real.log_exp, neg_neg]
  obtain ⟨g1, g2⟩ := C115_best (t := fitStat name C objs log cons d) hk hne hl hlt h2 hVm hcont (Or.inl hlog) h3 hs
  obtain ⟨K, hK⟩ := g2 ε hε
  refine ⟨K, fun x0 hx0 sm N r hN => le_trans (measureReal_mono ?_ (measure_ne_top _ _)) (hK x0 hx0 sm N r hN)⟩
  rintro ω ⟨m', res, hrun, hbad⟩
  refine ⟨m', res, hrun, ?_⟩
  obtain ⟨y, hy, e1, e2⟩ := g1 x0 hx0 sm N r ω m' res hrun
  by_contra hno
  push Not at hno
  refine hbad ⟨y, hy, e1, V y, by rw [e1]; exact h1 y hy, fun x hx => ⟨V x, h1 x hx, ?_⟩⟩
  have := hno x hx
  simp only [hflip, if_true] at this e2
  linarith

theorem gaussian_nonneg {cs : List (String × ℝ × ℝ)} (hd : (cs.map (·.1)).Nodup) (hw : ∀ q ∈ cs, 0 < q.2.2) {cons : ConstraintManager ℝ} (hcons : setGaussians cs = .ok cons)
    {E : ParamDict ℝ} (hE : ∀ q ∈ cs, (SMap.find E q.1).isSome) {c : ℝ} (hc : cons.evaluate E = .ok (some c)) : 0 ≤ c := by
  obtain ⟨m, e, H⟩ := gaussian_constraints hd hw
  rw [hcons] at e
  have e := Res.ok.inj e
  subst e
  obtain ⟨c', e1, e2⟩ := H E hE
  rw [hc] at e1
  have e1 := Option.some.inj (Res.ok.inj e1)
  subst e1
  have hle : (cs.map (fun q => Real.sqrt (2 * Real.pi * q.2.2 ^ 2))).prod * priorAt cs E ≤ 1 := by
    unfold priorAt
    have gen : ∀ l : List (String × ℝ × ℝ), (∀ q ∈ l, 0 < q.2.2) → 0 ≤ (l.map (fun q => Real.sqrt (2 * Real.pi * q.2.2 ^ 2))).prod *
        (l.map (fun q => gaussianPDFReal q.2.1 (q.2.2 ^ 2).toNNReal ((SMap.find E q.1).getD 0))).prod ∧
        (l.map (fun q => Real.sqrt (2 * Real.pi * q.2.2 ^ 2))).prod * (l.map (fun q => gaussianPDFReal q.2.1 (q.2.2 ^ 2).toNNReal ((SMap.find E q.1).getD 0))).prod ≤ 1 := by
      intro l hl
      induction l with
      | nil => simp
      | cons q l ih =>
        obtain ⟨i1, i2⟩ := ih fun q hq => hl q (List.mem_cons_of_mem _ hq)
        have hq := hl q List.mem_cons_self
        have hone : 0 ≤ Real.sqrt (2 * Real.pi * q.2.2 ^ 2) * gaussianPDFReal q.2.1 (q.2.2 ^ 2).toNNReal ((SMap.find E q.1).getD 0) ∧
            Real.sqrt (2 * Real.pi * q.2.2 ^ 2) * gaussianPDFReal q.2.1 (q.2.2 ^ 2).toNNReal ((SMap.find E q.1).getD 0) ≤ 1 := by
          refine ⟨mul_nonneg (Real.sqrt_nonneg _) (gaussianPDFReal_nonneg _ _ _), ?_⟩
          unfold gaussianPDFReal
          rw [Real.coe_toNNReal _ (by positivity), ← mul_assoc, mul_inv_cancel₀ (by positivity), one_mul]
          refine Real.exp_le_one_iff.2 ?_
          rw [neg_div]
          exact neg_nonpos.2 (by positivity)
        simp only [List.map_cons, List.prod_cons]
        rw [mul_mul_mul_comm]
        exact ⟨mul_nonneg hone.1 i1, mul_le_one₀ hone.2 i1 i2⟩
    exact (gen cs hw).2
  rw [← e2] at hle
  have := Real.exp_le_one_iff.1 hle
  linarith

/-- C115, closure: data are drawn from the model at true normalisations within the limits, and a chain is run on the fit statistic. Except for data of probability at most
`9 (4 bins + 2 (c₀ + s)) / (δ² r)` (`c₀` the constraint term at the truth, `r` the smallest number of events expected in a bin), the probability, over the random numbers of the chain, that the
number of events its best fit expects in some bin is wrong by a fraction `δ` or more is at most a constant over the number of steps. -/
theorem C115_closure {name : Nat → String} {C : FitSys σ ℝ} {objs : Nat → σ} {log : List (BinnedED ℝ × NormStatus)} {d : BinnedED ℝ}
    {cs : List (String × ℝ × ℝ)} (hd : (cs.map (·.1)).Nodup) (hw : ∀ q ∈ cs, q.1 ∈ PdfLog.fitted log ∧ 0 < q.2.2) (h : CanFit log d)
    {ks : List String} (hk : NamesSorted ks) (hne : ks ≠ [])
    (hall : ∀ k ∈ PdfLog.fitted log, k ∈ ks) {m : MCMC ℝ} (hlog : m.logged = true) (hflip : m.flip = true) {lo hi : Fin ks.length → ℝ}
    (hl : HasLimits m ks lo hi) (hlt : ∀ i, lo i < hi i) (hpos : ∀ x ∈ limitBox lo hi, ∀ b, b < d.hist.nBins → 0 < rateAt log (pointDict ks x) b)
    {s : MetropolisSampler ℝ} (hs : ∀ i : Fin ks.length, ks[i] ∉ s.fixed ∧ ∃ sg, s.sigmas.find ks[i] = some sg ∧ sg ≠ 0)
    {cons : ConstraintManager ℝ} (hcons : setGaussians cs = .ok cons) {truth : Fin ks.length → ℝ} (htruth : truth ∈ limitBox lo hi) {c₀ : ℝ}
    (h₀ : FitPoint log cons d (pointDict ks truth) c₀) {ε δ r : ℝ} (hε : 0 < ε) (hδ : 0 < δ) (hδ1 : δ ≤ 1) (hr : 0 < r) (hrb : ∀ b, b < d.hist.nBins → r ≤ rateAt log (pointDict ks truth) b) :
    ∃ Bad : Set (Fin d.hist.nBins → ℕ), (dataLaw log (pointDict ks truth) d.hist.nBins).real Bad ≤ 9 * (4 * d.hist.nBins + 2 * (c₀ + ε)) / (δ ^ 2 * r) ∧
      ∀ n, n ∉ Bad → ∃ K : ℝ, ∀ x0 ∈ limitBox lo hi, ∀ (sm : MCMCSamples ℝ) (N : Nat) (r : String → ℝ), 0 < N →
        (Measure.pi fun _ : Fin N => (Measure.pi fun _ : Fin ks.length => gaussianReal 0 1).prod (volume.restrict (Set.Ico (0 : ℝ) 1))).real
          {ω | ∃ m' res, ({ m with trial := pointDict ks x0, maxIter := N, samples := sm } : MCMC ℝ).optimise Real.exp (fitStat name C objs log cons (withCounts d n)) r
              ((List.ofFn ω).map fun w => s.input (fun k sg => sg * dval (pointDict ks w.1) k) w.2) = .ok (m', res) ∧
            ∃ b, b < d.hist.nBins ∧ δ * rateAt log (pointDict ks truth) b ≤ |rateAt log res.bestFit b - rateAt log (pointDict ks truth) b|} ≤ K / N := by
  have hfind : ∀ x : Fin ks.length → ℝ, ∀ q ∈ cs, (SMap.find ((pointDict ks x).filter (fun p => p.1 ∈ PdfLog.fitted log)) q.1).isSome := by
    intro x q hq
    have hqf := (hw q hq).1
    obtain ⟨i, hi⟩ := names_get (hall q.1 hqf)
    rw [SMap.find_isSome_iff]
    have : (q.1, x i) ∈ (pointDict ks x).filter (fun p => p.1 ∈ PdfLog.fitted log) := by
      refine List.mem_filter.2 ⟨?_, by simpa using hqf⟩
      rw [← hi]; exact pointDict_mem.2 ⟨i, rfl⟩
    exact List.mem_map_of_mem (f := Prod.fst) this
  have hnn : ∀ x : Fin ks.length → ℝ, ∀ c, FitPoint log cons d (pointDict ks x) c → 0 ≤ c := fun x c hp =>
    gaussian_nonneg hd (fun q hq => (hw q hq).2) hcons (hfind x) hp.constraint
  have hpt : ∀ x ∈ limitBox lo hi, ∃ c, FitPoint log cons d (pointDict ks x) c := by
    intro x hx
    obtain ⟨m', e, H⟩ := gaussian_constraints hd (fun q hq => (hw q hq).2)
    rw [hcons] at e
    have e := Res.ok.inj e
    subst e
    obtain ⟨c, hc, _⟩ := H _ (hfind x)
    exact ⟨c, fun hh => hne (by rw [← pointDict_keys ks x, hh]; rfl), pointDict_sorted hk x, by
      intro k hkf
      obtain ⟨i, rfl⟩ := names_get (hall k hkf)
      rw [pointDict_find hk]; rfl, hpos x hx, hc⟩
  refine ⟨_, C110_relative_all (name := name) (C := C) (objs := objs) h h₀ (hnn truth c₀ h₀) hε.le hδ hδ1 hr hrb, fun n hnb => ?_⟩
  obtain ⟨K, hK⟩ := C115_fit (name := name) (C := C) (objs := objs) (d := withCounts d n) hd hw (withCounts_canFit h n) (n := n) (fun b => withCounts_countIn d n b) hk hne hall hlog hflip hl hlt hpos hs hcons hε
  refine ⟨K, fun x0 hx0 sm N r hN => le_trans (measureReal_mono ?_ (measure_ne_top _ _)) (hK x0 hx0 sm N r hN)⟩
  rintro ω ⟨m', res, hrun, b, hb, hbad⟩
  refine ⟨m', res, hrun, ?_⟩
  rintro ⟨y, hy, e1, v, e2, e3⟩
  obtain ⟨v₀, e4, e5⟩ := e3 truth htruth
  obtain ⟨c, hc⟩ := hpt y hy
  exact hnb ⟨res.bestFit, ⟨c, v₀, v, by rw [e1]; exact hc, hnn y c hc, e4, e2, e5.le⟩, b, hb, hbad⟩

/-! ### Concrete cases -/

-- two bins with 4 and 5 events, signal and constrained background between 1 and 10
example (C : FitSys σ ℝ) (objs : Nat → σ) : ∃ (cons : ConstraintManager ℝ), setGaussians [("b", 3, 1/2)] = .ok cons ∧ ∃ K : ℝ, ∀ (sm : MCMCSamples ℝ) (N : Nat) (r : String → ℝ), 0 < N →
    (Measure.pi fun _ : Fin N => (Measure.pi fun _ : Fin 2 => gaussianReal 0 1).prod (volume.restrict (Set.Ico (0 : ℝ) 1))).real
      {ω | ∃ m' res, ({ exChain with trial := pointDict ["b", "s"] (fun _ => 2), maxIter := N, samples := sm } : MCMC ℝ).optimise Real.exp (fitStat exSysName C objs exTwo cons (exRealPdf "d" 4 5)) r
          ((List.ofFn ω).map fun w => exWalk.input (fun k sg => sg * dval (pointDict ["b", "s"] w.1) k) w.2) = .ok (m', res) ∧
        ¬ ∃ y ∈ limitBox (fun _ : Fin 2 => (1 : ℝ)) (fun _ => 10), res.bestFit = pointDict ["b", "s"] y ∧ ∃ v, fitValue exSysName C objs exTwo cons (exRealPdf "d" 4 5) res.bestFit = .ok (some v) ∧
          ∀ x ∈ limitBox (fun _ : Fin 2 => (1 : ℝ)) (fun _ => 10), ∃ vx, fitValue exSysName C objs exTwo cons (exRealPdf "d" 4 5) (pointDict ["b", "s"] x) = .ok (some vx) ∧ v < vx + 1/1000} ≤ K / N := by
  obtain ⟨cons, h1, _⟩ := gaussian_constraints (cs := [("b", (3 : ℝ), 1/2)]) (by simp) (by simp)
  obtain ⟨K, hK⟩ := C115_fit (name := exSysName) (C := C) (objs := objs) (cs := [("b", 3, 1/2)]) (by simp) (by
    intro q hq
    rw [List.mem_singleton] at hq
    subst hq
    exact ⟨by show "b" ∈ (["s", "b"] : List String); decide, by norm_num⟩) (exTwo_canFit 4 5) exTwo_counts exNames_sorted (by simp) (by
        intro k hk
        have : k ∈ (["s", "b"] : List String) := hk
        revert this; simp; tauto) (m := exChain) rfl rfl exChain_limits (fun _ => by norm_num) exTwo_positive (s := exWalk) exWalk_widths h1 (ε := 1/1000) (by norm_num)
  exact ⟨cons, h1, K, fun sm N r hN => hK (fun _ => 2) (fun i => ⟨by norm_num, by norm_num⟩) sm N r hN⟩

/-- The same chain between 1 and ten million. -/
noncomputable def exBigChain : MCMC ℝ :=
  { (MCMC.new : MCMC ℝ) with logged := true, flip := true, minima := [("b", 1), ("s", 1)], maxima := [("b", 10000000), ("s", 10000000)] }

-- fits of millions of events: apart from 1 % of the data, the rates of the best fit are right to 10 % but for long chains' unlikely random numbers
example (C : FitSys σ ℝ) (objs : Nat → σ) : ∃ Bad : Set (Fin (exRealPdf "d" 0 0).hist.nBins → ℕ),
    (dataLaw exTwo (pointDict ["b", "s"] ![3000000, 2000000]) (exRealPdf "d" 0 0).hist.nBins).real Bad ≤ 1/100 ∧
    ∀ n, n ∉ Bad → ∃ K : ℝ, ∀ (sm : MCMCSamples ℝ) (N : Nat) (r : String → ℝ), 0 < N →
      (Measure.pi fun _ : Fin N => (Measure.pi fun _ : Fin 2 => gaussianReal 0 1).prod (volume.restrict (Set.Ico (0 : ℝ) 1))).real
        {ω | ∃ m' res, ({ exBigChain with trial := pointDict ["b", "s"] (fun _ => 2), maxIter := N, samples := sm } : MCMC ℝ).optimise Real.exp
            (fitStat exSysName C objs exTwo .empty (withCounts (exRealPdf "d" 0 0) n)) r ((List.ofFn ω).map fun w => exWalk.input (fun k sg => sg * dval (pointDict ["b", "s"] w.1) k) w.2) = .ok (m', res) ∧
          ∃ b, b < (exRealPdf "d" 0 0).hist.nBins ∧ 1/10 * rateAt exTwo (pointDict ["b", "s"] ![3000000, 2000000]) b ≤
            |rateAt exTwo res.bestFit b - rateAt exTwo (pointDict ["b", "s"] ![3000000, 2000000]) b|} ≤ K / N := by
  have e : ∀ x : Fin 2 → ℝ, pointDict ["b", "s"] x = [("b", x 0), ("s", x 1)] := fun x => by simp [pointDict, List.ofFn_succ]
  have ht : pointDict ["b", "s"] ![3000000, 2000000] = [("b", (3000000 : ℝ)), ("s", 2000000)] := by rw [e]; simp
  obtain ⟨Bad, h1, h2⟩ := C115_closure (name := exSysName) (C := C) (objs := objs) (cs := []) (by simp) (by simp) (exTwo_canFit 0 0) exNames_sorted (by simp) (by
        intro k hk
        have : k ∈ (["s", "b"] : List String) := hk
        revert this; simp; tauto) (m := exBigChain) rfl rfl (lo := fun _ => 1) (hi := fun _ => 10000000)
      ⟨by intro i; fin_cases i <;> simp [exBigChain, SMap.find], by intro i; fin_cases i <;> simp [exBigChain, SMap.find]⟩ (fun _ => by norm_num) (by
        intro x hx b hb
        have a0 : 1 ≤ x 0 := (hx 0).1
        have a1 : 1 ≤ x 1 := (hx 1).1
        rw [e]
        have : b < 2 := hb
        have hb' : b = 0 ∨ b = 1 := by omega
        rcases hb' with rfl | rfl
        · rw [(exTwo_rate _ _).1]; linarith
        · rw [(exTwo_rate _ _).2]; linarith) (s := exWalk) exWalk_widths (cons := .empty) rfl (truth := ![3000000, 2000000]) (by
        intro i; fin_cases i <;> simp <;> norm_num) (c₀ := 0) (by rw [ht]; exact exTwo_point 0 0 (by norm_num) (by norm_num)) (ε := 1) (δ := 1/10) (r := 1750000) (by norm_num) (by norm_num) (by norm_num)
      (by norm_num) (by
        intro b hb
        rw [ht]
        have : b < 2 := hb
        have hb' : b = 0 ∨ b = 1 := by omega
        rcases hb' with rfl | rfl
        · rw [(exTwo_rate _ _).1]; norm_num
        · rw [(exTwo_rate _ _).2]; norm_num)
  refine ⟨Bad, h1.trans ?_, fun n hn => ?_⟩
  · show 9 * (4 * ((2 : ℕ) : ℝ) + 2 * (0 + 1)) / ((1/10) ^ 2 * 1750000) ≤ 1/100
    norm_num
  · obtain ⟨K, hK⟩ := h2 n hn
    exact ⟨K, fun sm N r hN => hK (fun _ => 2) (fun i => ⟨by norm_num, by norm_num⟩) sm N r hN⟩

end Oxsx
