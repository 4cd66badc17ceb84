import Verif.Lemmas.ChainHistogram
import Verif.Props.StationaryPosterior
set_option linter.unusedSectionVars false
set_option linter.unusedSimpArgs false
set_option linter.unusedVariables false
/-
C108: the histogram that the chain saves converges to the sampled density; the chain on a fit statistic converges to the posterior.
-/
namespace Oxsx
open MeasureTheory ProbabilityTheory Spec
open scoped ENNReal NNReal

/-- The number of steps out of `N` that are recorded. -/
def recordedCount (burnIn thin : Int) (N : Nat) : Nat := ((Finset.range N).filter fun i : Nat => burnIn < (i : Int) ∧ thin ∣ (i : Int)).card

theorem recorded_params (burnIn thin : Int) {X : Type} (h : List (ChainStep ℝ)) (xs : List X) (g : X → ParamDict ℝ) (e : h.map (·.params) = xs.map g) :
    (recorded burnIn thin h).map (·.params) = ((xs.zipIdx.filter fun p => decide (burnIn < (p.2 : Int) ∧ thin ∣ (p.2 : Int))).map (·.1)).map g := by
  unfold recorded
  have gen : ∀ (h : List (ChainStep ℝ)) (xs : List X) (k : Nat), h.map (·.params) = xs.map g →
      (((h.zipIdx k).filter fun p => decide (burnIn < (p.2 : Int) ∧ thin ∣ (p.2 : Int))).map (·.1)).map (·.params) =
        (((xs.zipIdx k).filter fun p => decide (burnIn < (p.2 : Int) ∧ thin ∣ (p.2 : Int))).map (·.1)).map g := by
    intro h
    induction h with
    | nil => intro xs k e; have : xs = [] := by simpa using e.symm
             subst this; rfl
    | cons a h ih =>
      intro xs k e
      rcases xs with _ | ⟨x, xs⟩
      · simp at e
      · simp only [List.map_cons, List.cons.injEq] at e
        simp only [List.zipIdx_cons, List.filter_cons]
        split
        · simp only [List.map_cons, e.1, ih xs (k + 1) e.2]
        · exact ih xs (k + 1) e.2
  exact gen h xs 0 e

theorem filter_count_sum {X : Type} (burnIn thin : Int) (q : X → Prop) [DecidablePred q] (xs : List X) (k : Nat) :
    (((((xs.zipIdx k).filter fun p => decide (burnIn < (p.2 : Int) ∧ thin ∣ (p.2 : Int))).map (·.1)).filter fun x => decide (q x)).length : ℝ) =
      ((xs.zipIdx k).map fun p => (if burnIn < (p.2 : Int) ∧ thin ∣ (p.2 : Int) then (1 : ℝ) else 0) * (if q p.1 then (1 : ℝ) else 0)).sum := by
  induction xs generalizing k with
  | nil => simp
  | cons x xs ih =>
    simp only [List.zipIdx_cons, List.filter_cons, List.map_cons, List.sum_cons]
    rw [← ih]
    by_cases h1 : burnIn < (k : Int) ∧ thin ∣ (k : Int)
    · by_cases h2 : q x
      · simp [h1, h2]; ring
      · simp [h1, h2]
    · simp [h1]

theorem points_length {X W : Type} (T : X → W → X) : ∀ (ws : List W) (x : X), (Ergodic.points T x ws).length = ws.length
  | [], _ => rfl
  | w :: ws, x => by simp [Ergodic.points, points_length T ws]

/-- A run of the chain from a point within the limits: the steps it stores are at the points of the path, and if the store takes them, the run succeeds. -/
theorem chain_run {m : MCMC ℝ} {t : TestStat ℝ} {ks : List String} (hk : NamesSorted ks) (hne : ks ≠ []) (hnames : t.names.length = ks.length) {lo hi : Fin ks.length → ℝ}
    (hl : HasLimits m ks lo hi) (hmin : m.minima.length = ks.length) (hmax : m.maxima.length = ks.length)
    {V : (Fin ks.length → ℝ) → ℝ} (hV : ∀ x ∈ limitBox lo hi, t.eval (pointDict ks x) = .ok (V x))
    {s : MetropolisSampler ℝ} (hs : ∀ i : Fin ks.length, ks[i] ∉ s.fixed → (s.sigmas.find ks[i]).isSome) {x0 : Fin ks.length → ℝ} (hx0 : x0 ∈ limitBox lo hi)
    (sm : MCMCSamples ℝ) {N : Nat} (hN : 0 < N) (r : String → ℝ) (ω : Fin N → (Fin ks.length → ℝ) × ℝ) :
    ∃ h : List (ChainStep ℝ), h ≠ [] ∧ h.map (·.params) = (Ergodic.points (metroStep m lo hi V (stepWidth s ks)) x0 (List.ofFn ω)).map (pointDict ks) ∧
      ∀ s', sm.fillAll m.bounds h = .ok s' → ∃ m' res, ({ m with trial := pointDict ks x0, maxIter := N, samples := sm } : MCMC ℝ).optimise Real.exp t r
        ((List.ofFn ω).map fun w => s.input (fun k sg => sg * dval (pointDict ks w.1) k) w.2) = .ok (m', res) ∧ m'.samples = s' := by
  set st : MCMC ℝ := { m with trial := pointDict ks x0, maxIter := N, samples := sm, curStep := pointDict ks x0, curVal := chainValue m V x0, bestFit := pointDict ks x0, maxVal := chainValue m V x0 } with hst
  have hat : ChainAt m st ks V x0 := ⟨rfl, rfl, rfl, rfl, rfl, rfl⟩
  obtain ⟨h, e1, e2⟩ := MCMC.run_points hk hl hV hs (List.ofFn ω) x0 st hat
  have hlh : h.length = N := by
    have := congrArg List.length e1
    rw [List.length_map, List.length_map, points_length, List.length_ofFn] at this
    exact this
  refine ⟨h, by intro e; rw [e] at hlh; simp at hlh; omega, e1, fun s' f1 => ?_⟩
  obtain ⟨st', g1, g2⟩ := e2 sm s' f1
  refine ⟨st', ⟨st'.bestFit, true, st'.maxVal⟩, ?_, g2⟩
  have hpl : (pointDict ks x0).length = ks.length := by unfold pointDict; simp
  unfold MCMC.optimise
  rw [if_neg (by
    simp only [hnames, hpl, hmin, hmax, ne_eq, not_true_eq_false, false_and, or_self, not_false_eq_true])]
  have hst0 : ({ m with trial := pointDict ks x0, maxIter := N, samples := sm } : MCMC ℝ).start r t =
      { m with trial := pointDict ks x0, maxIter := N, samples := sm, curStep := pointDict ks x0 } := by
    unfold MCMC.start
    rw [if_pos (by rw [hpl]; simpa using hne)]
  have hbeg : (({ m with trial := pointDict ks x0, maxIter := N, samples := sm, curStep := pointDict ks x0 } : MCMC ℝ).begin_ t) = .ok st := by
    unfold MCMC.begin_ MCMC.value
    simp only [hV x0 hx0, Res.ok_bind]
    rfl
  rw [hst0, hbeg, Res.ok_bind]
  have htake : ((List.ofFn ω).map fun w => s.input (fun k sg => sg * dval (pointDict ks w.1) k) w.2).take st.maxIter =
      (List.ofFn ω).map fun w => s.input (fun k sg => sg * dval (pointDict ks w.1) k) w.2 := by
    refine List.take_of_length_le ?_
    rw [List.length_map, List.length_ofFn]
  rw [htake]
  have : Res.forFold (MCMC.iterate Real.exp t) st ((List.ofFn ω).map fun w => s.input (fun k sg => sg * dval (pointDict ks w.1) k) w.2) = .ok st' := g1
  rw [this, Res.ok_bind]

open Classical in
/-- The recorded steps of a path in a region. -/
noncomputable def recordedIn {X : Type} (burnIn thin : Int) (xs : List X) (R : Set X) : ℝ :=
  (xs.zipIdx.map fun p => (if burnIn < (p.2 : Int) ∧ thin ∣ (p.2 : Int) then (1 : ℝ) else 0) * (if p.1 ∈ R then (1 : ℝ) else 0)).sum

open Classical in
/-- An empty histogram filled with the recorded steps of a path holds in each bin the number of them in the bin's region. -/
theorem filled_content {as : List (BinAxis ℝ)} {e p : Histogram ℝ} (he : IsEmptyHist e as) (hc : ∀ a ∈ as, a.Contiguous) {ks : List String} (hk : NamesSorted ks)
    (hnm : ∀ a ∈ as, a.name ∈ ks) {burnIn thin : Int} {h : List (ChainStep ℝ)} {xs : List (Fin ks.length → ℝ)} (e1 : h.map (·.params) = xs.map (pointDict ks))
    (hp : fillSteps e (recorded burnIn thin h) = .ok p) {b : Nat} (hb : b < e.nBins) :
    p.getBinContent b = .ok (recordedIn burnIn thin xs {x | e.findBin (axisCoords as ks x) = .ok b}) := by
  obtain ⟨y, y1, y2⟩ := fillSteps_content he.1 hc hk hnm _ _ (recorded_params burnIn thin h _ _ e1) hp hb
  have hy0 : y = 0 := by
    unfold Histogram.getBinContent at y1
    split at y1
    · cases y1
    · exact he.2 y (List.mem_of_getElem? (idx_ok.1 y1))
  rw [y2, hy0, zero_add]
  congr 1
  have := filter_count_sum burnIn thin (fun x => e.findBin (axisCoords as ks x) = .ok b) xs 0
  refine (Eq.trans ?_ this).trans ?_
  · congr 2
  · unfold recordedIn
    congr!

/-- The fraction of the recorded steps in a region, along the path of a chain: its mean square distance from the probability of the region. -/
theorem fraction_close {n : Nat} {W : Type} [MeasurableSpace W] {T : (Fin n → ℝ) → W → (Fin n → ℝ)} {Q : Measure W} [IsProbabilityMeasure Q] {B : Set (Fin n → ℝ)}
    {π : Measure (Fin n → ℝ)} [IsProbabilityMeasure π] {ε : ℝ} (hε : Ergodic.Chain T Q B π ε) {R : Set (Fin n → ℝ)} (hR : MeasurableSet R) (burnIn thin : Int) (N : Nat)
    (hrec : 0 < recordedCount burnIn thin N) {x0 : Fin n → ℝ} (hx0 : x0 ∈ B) :
    Integrable (fun ω => (recordedIn burnIn thin (Ergodic.points T x0 (List.ofFn ω)) R / recordedCount burnIn thin N - π.real R) ^ 2) (Measure.pi fun _ : Fin N => Q) ∧
    ∫ ω, (recordedIn burnIn thin (Ergodic.points T x0 (List.ofFn ω)) R / recordedCount burnIn thin N - π.real R) ^ 2 ∂(Measure.pi fun _ : Fin N => Q) ≤
      (1 + 2 / ε) / recordedCount burnIn thin N := by
  classical
  have hfm : Measurable fun x : Fin n → ℝ => if x ∈ R then (1 : ℝ) else 0 := Measurable.ite hR measurable_const measurable_const
  have hsum : ∑ i ∈ Finset.range N, (if burnIn < (i : Int) ∧ thin ∣ (i : Int) then (1 : ℝ) else 0) = (recordedCount burnIn thin N : ℝ) := by
    unfold recordedCount
    rw [Finset.card_filter]; push_cast; rfl
  have := hε.average hfm (fun x => by split <;> simp) N (fun i => if burnIn < (i : Int) ∧ thin ∣ (i : Int) then (1 : ℝ) else 0)
    (fun i => by split <;> simp) hsum (by exact_mod_cast hrec) hx0
  have hint : ∫ y, (if y ∈ R then (1 : ℝ) else 0) ∂π = π.real R := by
    have e : (fun y => if y ∈ R then (1 : ℝ) else 0) = R.indicator fun _ => (1 : ℝ) := by
      funext y; rw [Set.indicator_apply]
    rw [e, integral_indicator_const _ hR]; simp
  rw [hint] at this
  convert this using 6 <;> (unfold recordedIn; congr!)

/-- The histogram of a run, for any set of starting points from which the chain converges. -/
theorem histogram_of_chain {m : MCMC ℝ} {t : TestStat ℝ} {ks : List String} (hk : NamesSorted ks) (hnames : t.names.length = ks.length) {lo hi : Fin ks.length → ℝ} (hl : HasLimits m ks lo hi)
    (hmin : m.minima.length = ks.length) (hmax : m.maxima.length = ks.length)
    {V : (Fin ks.length → ℝ) → ℝ} (hV : ∀ x ∈ limitBox lo hi, t.eval (pointDict ks x) = .ok (V x))
    {s : MetropolisSampler ℝ} (hsome : ∀ i : Fin ks.length, ks[i] ∉ s.fixed → (s.sigmas.find ks[i]).isSome)
    {B : Set (Fin ks.length → ℝ)} (hB : B ⊆ limitBox lo hi) {π : Measure (Fin ks.length → ℝ)} [IsProbabilityMeasure π] {ε : ℝ}
    (hε : Ergodic.Chain (metroStep m lo hi V (stepWidth s ks)) (stepLaw ks.length) B π ε)
    (hf : m.samples.Fresh) (hfull : m.samples.saveFull = true) (hch : m.samples.saveChain = false) (hq : 0 < m.samples.auto.qLen)
    {as : List (BinAxis ℝ)} (hax : (AxisCollection.empty : AxisCollection ℝ).addAxes as = .ok m.samples.axes) (hne : as ≠ []) (hc : ∀ a ∈ as, a.Contiguous)
    (hlen : as.length = ks.length) (hnm : ∀ a ∈ as, a.name ∈ ks) :
    ∃ K : ℝ, ∀ x0 ∈ B, ∀ burnIn thin : Int, thin ≠ 0 → ∀ (N : Nat) (r : String → ℝ), 0 < N →
      ∃ cnt : (Fin N → (Fin ks.length → ℝ) × ℝ) → Nat → ℝ,
        (∀ ω, ∃ m' res, ({ m with trial := pointDict ks x0, maxIter := N, samples := { m.samples with burnIn := burnIn, thin := thin } } : MCMC ℝ).optimise Real.exp t r
            ((List.ofFn ω).map fun w => s.input (fun k sg => sg * dval (pointDict ks w.1) k) w.2) = .ok (m', res) ∧
          ∀ b, b < m.samples.axes.nBins → m'.samples.hist.getBinContent b = .ok (cnt ω b)) ∧
        ∀ b, b < m.samples.axes.nBins → 0 < recordedCount burnIn thin N →
          Integrable (fun ω => (cnt ω b / recordedCount burnIn thin N - π.real (binRegion m.samples.axes as ks b)) ^ 2)
            (Measure.pi fun _ : Fin N => (Measure.pi fun _ : Fin ks.length => gaussianReal 0 1).prod (volume.restrict (Set.Ico (0 : ℝ) 1))) ∧
          ∫ ω, (cnt ω b / recordedCount burnIn thin N - π.real (binRegion m.samples.axes as ks b)) ^ 2
            ∂(Measure.pi fun _ : Fin N => (Measure.pi fun _ : Fin ks.length => gaussianReal 0 1).prod (volume.restrict (Set.Ico (0 : ℝ) 1))) ≤ K / recordedCount burnIn thin N := by
  refine ⟨1 + 2 / ε, fun x0 hx0 burnIn thin hthin N r hN => ?_⟩
  have hksne : ks ≠ [] := by intro e; rw [e] at hlen; simp at hlen; exact hne hlen
  have hH := AxisCollection.holds_of_addAxes hax
  refine ⟨fun ω b => recordedIn burnIn thin (Ergodic.points (metroStep m lo hi V (stepWidth s ks)) x0 (List.ofFn ω)) (binRegion m.samples.axes as ks b), fun ω => ?_,
    fun b hbn hrec => fraction_close hε (binRegion_measurable hk hax hne hc hbn) burnIn thin N hrec hx0⟩
  obtain ⟨h, hhne, e1, hrun⟩ := chain_run hk hksne hnames hl hmin hmax hV hsome (hB hx0) ({ m.samples with burnIn := burnIn, thin := thin } : MCMCSamples ℝ) hN r ω
  have hfresh : ({ m.samples with burnIn := burnIn, thin := thin } : MCMCSamples ℝ).Fresh := ⟨hf.accepted, hf.total, hf.initialised, hf.auto⟩
  obtain ⟨s', f1, _⟩ := C54_full_total (b := m.bounds) hfresh hfull hch hthin hq hax hne hc (by show as.length = m.minima.length; rw [hlen, hmin]) hhne (by
    intro y hy a ha
    have : y.params ∈ h.map (·.params) := List.mem_map_of_mem hy
    rw [e1] at this
    obtain ⟨x, _, e⟩ := List.mem_map.1 this
    rw [← e, SMap.lookup_eq_find]
    obtain ⟨i, hi⟩ := names_get (hnm a ha)
    rw [← hi, pointDict_find hk]; rfl)
  obtain ⟨m', res, g1, g2⟩ := hrun s' f1
  refine ⟨m', res, g1, fun b hbn => ?_⟩
  obtain ⟨i, hi, hrecd, _⟩ := C54_recorded hfresh hhne f1
  obtain ⟨ax, a1, a2, _⟩ := C54_init hi
  have hax' : ax = m.samples.axes := by
    unfold MCMCSamples.histAxes at a1
    rw [if_pos (by show m.samples.axes.nDims ≠ 0; rw [hH.dims]; simpa using hne),
      if_neg (by show ¬ (m.samples.axes.nDims ≠ m.minima.length); rw [hH.dims, hlen, hmin]; simp)] at a1
    exact (Res.ok.inj a1).symm
  have hih := a2 hfull
  rw [hax'] at hih
  have he : IsEmptyHist i.hist as := by rw [hih]; exact isEmptyHist_of hH hne
  have hnb : i.hist.nBins = m.samples.axes.nBins := by rw [hih]; rfl
  rw [g2, filled_content he hc hk hnm e1 (hrecd hfull) (hnb ▸ hbn)]
  have hax2 : i.hist.axes = m.samples.axes := by rw [hih]; rfl
  unfold Histogram.findBin binRegion
  rw [hax2]

/-- C108, the histogram: set the chain up as in `C108_converges`, start it at a point within the limits, let it save the full histogram, with axes for
parameters, whatever the burn-in and the thinning. The run succeeds, and there is a constant such that in every bin the mean square of
the difference between the fraction of the recorded steps and the probability of the bin under the sampled density is at most the constant over the
number of recorded steps; the constant depends neither on the starting point nor on the number of steps, the burn-in and thinning or the bin. -/
theorem C108_histogram {m : MCMC ℝ} {t : TestStat ℝ} {ks : List String} (hk : NamesSorted ks) (hnames : t.names.length = ks.length) {lo hi : Fin ks.length → ℝ} (hl : HasLimits m ks lo hi)
    (hmin : m.minima.length = ks.length) (hmax : m.maxima.length = ks.length)
    (hlt : ∀ i, lo i < hi i) {V : (Fin ks.length → ℝ) → ℝ} (hV : ∀ x ∈ limitBox lo hi, t.eval (pointDict ks x) = .ok (V x)) (hm : Measurable V)
    (hd : m.logged = true ∨ ∀ x, 0 < chainValue m V x) (hb : Bounded lo hi (chainDensity m V))
    {s : MetropolisSampler ℝ} (hs : ∀ i : Fin ks.length, ks[i] ∉ s.fixed ∧ ∃ sg, s.sigmas.find ks[i] = some sg ∧ sg ≠ 0)
    (hf : m.samples.Fresh) (hfull : m.samples.saveFull = true) (hch : m.samples.saveChain = false) (hq : 0 < m.samples.auto.qLen)
    {as : List (BinAxis ℝ)} (hax : (AxisCollection.empty : AxisCollection ℝ).addAxes as = .ok m.samples.axes) (hne : as ≠ []) (hc : ∀ a ∈ as, a.Contiguous)
    (hlen : as.length = ks.length) (hnm : ∀ a ∈ as, a.name ∈ ks) :
    ∃ K : ℝ, ∀ x0 ∈ limitBox lo hi, ∀ burnIn thin : Int, thin ≠ 0 → ∀ (N : Nat) (r : String → ℝ), 0 < N →
      ∃ cnt : (Fin N → (Fin ks.length → ℝ) × ℝ) → Nat → ℝ,
        (∀ ω, ∃ m' res, ({ m with trial := pointDict ks x0, maxIter := N, samples := { m.samples with burnIn := burnIn, thin := thin } } : MCMC ℝ).optimise Real.exp t r
            ((List.ofFn ω).map fun w => s.input (fun k sg => sg * dval (pointDict ks w.1) k) w.2) = .ok (m', res) ∧
          ∀ b, b < m.samples.axes.nBins → m'.samples.hist.getBinContent b = .ok (cnt ω b)) ∧
        ∀ b, b < m.samples.axes.nBins → 0 < recordedCount burnIn thin N →
          Integrable (fun ω => (cnt ω b / recordedCount burnIn thin N - (sampledLaw lo hi (chainDensity m V)).real (binRegion m.samples.axes as ks b)) ^ 2)
            (Measure.pi fun _ : Fin N => (Measure.pi fun _ : Fin ks.length => gaussianReal 0 1).prod (volume.restrict (Set.Ico (0 : ℝ) 1))) ∧
          ∫ ω, (cnt ω b / recordedCount burnIn thin N - (sampledLaw lo hi (chainDensity m V)).real (binRegion m.samples.axes as ks b)) ^ 2
            ∂(Measure.pi fun _ : Fin N => (Measure.pi fun _ : Fin ks.length => gaussianReal 0 1).prod (volume.restrict (Set.Ico (0 : ℝ) 1))) ≤ K / recordedCount burnIn thin N := by
  have hp := sampledLaw_prob hlt hb
  obtain ⟨ε, hε⟩ := metropolis_ergodic hlt hm hd hb hs
  exact histogram_of_chain hk hnames hl hmin hmax hV (fun i _ => by obtain ⟨_, sg, h, _⟩ := hs i; rw [h]; rfl) (fun _ h => h) hε hf hfull hch hq hax hne hc hlen hnm

/-! ### The posterior of a fit -/

theorem list_sum_continuous {X ι : Type} [TopologicalSpace X] (l : List ι) (f : X → ι → ℝ) (h : ∀ i ∈ l, Continuous fun x => f x i) :
    Continuous fun x => (l.map (f x)).sum := by
  induction l with
  | nil => simpa using continuous_const
  | cons a l ih =>
    simp only [List.map_cons, List.sum_cons]
    exact (h a (by simp)).add (ih fun i hi => h i (by simp [hi]))

theorem list_prod_continuous {X ι : Type} [TopologicalSpace X] (l : List ι) (f : X → ι → ℝ) (h : ∀ i ∈ l, Continuous fun x => f x i) :
    Continuous fun x => (l.map (f x)).prod := by
  induction l with
  | nil => simpa using continuous_const
  | cons a l ih =>
    simp only [List.map_cons, List.prod_cons]
    exact (h a (by simp)).mul (ih fun i hi => h i (by simp [hi]))

theorem pointDict_coord_continuous (ks : List String) (hk : NamesSorted ks) (k : String) :
    Continuous fun x : Fin ks.length → ℝ => ((pointDict ks x).find k).getD 0 := by
  by_cases h : k ∈ ks
  · obtain ⟨i, rfl⟩ := names_get h
    simp only [pointDict_find hk, Option.getD_some]
    exact continuous_apply i
  · have : ∀ x : Fin ks.length → ℝ, (pointDict ks x).find k = none := fun x => (SMap.find_none_iff _ k).2 (by rw [pointDict_keys]; exact h)
    simp only [this, Option.getD_none]
    exact continuous_const

theorem posterior_continuous {ks : List String} (hk : NamesSorted ks) (log : List (BinnedED ℝ × NormStatus)) (cs : List (String × ℝ × ℝ)) {k : Nat}
    (n : Fin k → ℕ) : Continuous fun x : Fin ks.length → ℝ => posterior log cs n (pointDict ks x) := by
  unfold posterior
  refine Continuous.mul ?_ ?_
  · simp only [dataLaw_singleton, poissonMeasure_real_singleton]
    refine continuous_finset_prod _ fun b _ => ?_
    have hr : Continuous fun x : Fin ks.length → ℝ => (((rateAt log (pointDict ks x) b).toNNReal : NNReal) : ℝ) := by
      refine NNReal.continuous_coe.comp (continuous_real_toNNReal.comp ?_)
      unfold rateAt expectedRate
      refine list_sum_continuous _ (fun x (q : (BinnedED ℝ × NormStatus) × BinnedED ℝ) =>
        normOf (fun n => (SMap.find (pointDict ks x) n).getD 0) q.1 * q.2.hist.contents.getD b 0) fun q _ => ?_
      refine Continuous.mul ?_ continuous_const
      unfold normOf
      split
      · exact pointDict_coord_continuous ks hk _
      · exact continuous_const
    exact ((Real.continuous_exp.comp hr.neg).mul (hr.pow _)).div_const _
  · refine list_prod_continuous cs (fun x q => gaussianPDFReal q.2.1 (q.2.2 ^ 2).toNNReal ((SMap.find (pointDict ks x) q.1).getD 0)) fun q _ => ?_
    have hg : Continuous (gaussianPDFReal q.2.1 (q.2.2 ^ 2).toNNReal) := by unfold gaussianPDFReal; fun_prop
    exact hg.comp (pointDict_coord_continuous ks hk _)

/-- A continuous positive density is bounded between limits. -/
theorem bounded_of_continuous {n : Nat} {lo hi : Fin n → ℝ} (hlt : ∀ i, lo i < hi i) {d : (Fin n → ℝ) → ℝ} (hc : Continuous d) (hpos : ∀ x ∈ limitBox lo hi, 0 < d x) : Bounded lo hi d := by
  have hcomp : IsCompact (limitBox lo hi) := by rw [limitBox_eq]; exact isCompact_Icc
  have hne : (limitBox lo hi).Nonempty := ⟨lo, fun i => ⟨le_rfl, (hlt i).le⟩⟩
  obtain ⟨p, hp, hp'⟩ := hcomp.exists_isMinOn hne hc.continuousOn
  obtain ⟨q, hq, hq'⟩ := hcomp.exists_isMaxOn hne hc.continuousOn
  exact ⟨d p, d q, hpos p hp, fun x hx => ⟨hp' hx, hq' hx⟩⟩

variable {σ : Type}

/-- A chain on a statistic whose exponential is, up to a factor, a continuous density. -/
theorem density_chain {t : TestStat ℝ} {ks : List String} {P : (Fin ks.length → ℝ) → ℝ} (hP : Continuous P) {K : ℝ} (hK : 0 < K)
    {m : MCMC ℝ} (hlog : m.logged = true) (hflip : m.flip = true) {lo hi : Fin ks.length → ℝ} (hlt : ∀ i, lo i < hi i)
    (H : ∀ x ∈ limitBox lo hi, ∃ v, t.eval (pointDict ks x) = .ok v ∧ Real.exp (-v) = K * P x) :
    ∃ V : (Fin ks.length → ℝ) → ℝ, Measurable V ∧ (∀ x ∈ limitBox lo hi, t.eval (pointDict ks x) = .ok (V x)) ∧
      Bounded lo hi (chainDensity m V) ∧ sampledLaw lo hi (chainDensity m V) = sampledLaw lo hi P := by
  set V : (Fin ks.length → ℝ) → ℝ := fun x => - Real.log (K * P x) with hVdef
  have hpd : ∀ x ∈ limitBox lo hi, t.eval (pointDict ks x) = .ok (V x) ∧ 0 < K * P x := by
    intro x hx
    obtain ⟨v, h1, h3⟩ := H x hx
    refine ⟨?_, by rw [← h3]; exact Real.exp_pos _⟩
    rw [h1, hVdef]
    simp only
    rw [← h3, Real.log_exp, neg_neg]
  have hpost : Measurable P := hP.measurable
  have hVm : Measurable V := (Real.measurable_log.comp (measurable_const.mul hpost)).neg
  have hden : ∀ x ∈ limitBox lo hi, chainDensity m V x = K * P x := by
    intro x hx
    unfold chainDensity chainValue
    simp only [hlog, hflip, if_true, hVdef, neg_neg]
    exact Real.exp_log (hpd x hx).2
  refine ⟨V, hVm, fun x hx => (hpd x hx).1, ?_, ?_⟩
  · obtain ⟨a, b, ha, hab⟩ := bounded_of_continuous hlt (continuous_const.mul hP) (fun x hx => (hpd x hx).2)
    exact ⟨a, b, ha, fun x hx => by rw [hden x hx]; exact hab x hx⟩
  · have hlaw : targetLaw lo hi (chainDensity m V) = ENNReal.ofReal K • targetLaw lo hi P := by
      unfold targetLaw
      have hsm := withDensity_smul (μ := (volume : Measure (Fin ks.length → ℝ)).restrict (limitBox lo hi)) (ENNReal.ofReal K)
        (ENNReal.measurable_ofReal.comp hpost)
      refine Eq.trans ?_ hsm
      refine withDensity_congr_ae ?_
      refine (ae_restrict_iff' (measurableSet_limitBox lo hi)).2 (Filter.Eventually.of_forall fun x hx => ?_)
      simp only [hden x hx, Pi.smul_apply, smul_eq_mul, Function.comp]
      rw [ENNReal.ofReal_mul hK.le]
    have hK0 : ENNReal.ofReal K ≠ 0 := by simpa using hK
    unfold sampledLaw
    rw [hlaw, Measure.smul_apply, smul_eq_mul, ENNReal.mul_inv (Or.inl hK0) (Or.inl ENNReal.ofReal_ne_top), smul_smul,
      mul_comm (ENNReal.ofReal K)⁻¹, mul_assoc, ENNReal.inv_mul_cancel hK0 ENNReal.ofReal_ne_top, mul_one]

/-- The setting of a chain on a fit statistic. -/
theorem posterior_chain {name : Nat → String} {C : FitSys σ ℝ} {objs : Nat → σ} {log : List (BinnedED ℝ × NormStatus)} {d : BinnedED ℝ}
    {cs : List (String × ℝ × ℝ)} (hd : (cs.map (·.1)).Nodup) (hw : ∀ q ∈ cs, q.1 ∈ PdfLog.fitted log ∧ 0 < q.2.2) (h : CanFit log d)
    {n : Fin d.hist.nBins → ℕ} (hn : ∀ b, countIn d b.1 = n b) {ks : List String} (hk : NamesSorted ks) (hne : ks ≠ [])
    (hall : ∀ k ∈ PdfLog.fitted log, k ∈ ks) {m : MCMC ℝ} (hlog : m.logged = true) (hflip : m.flip = true) {lo hi : Fin ks.length → ℝ} (hlt : ∀ i, lo i < hi i)
    (hpos : ∀ x ∈ limitBox lo hi, ∀ b, b < d.hist.nBins → 0 < rateAt log (pointDict ks x) b) :
    ∃ cons, setGaussians cs = .ok cons ∧ ∃ V : (Fin ks.length → ℝ) → ℝ, Measurable V ∧
      (∀ x ∈ limitBox lo hi, fitValue name C objs log cons d (pointDict ks x) = .ok (some (V x))) ∧
      (∀ x ∈ limitBox lo hi, (fitStat name C objs log cons d).eval (pointDict ks x) = .ok (V x)) ∧
      Bounded lo hi (chainDensity m V) ∧ sampledLaw lo hi (chainDensity m V) = sampledLaw lo hi fun x => posterior log cs n (pointDict ks x) := by
  obtain ⟨cons, K, e, hK, H⟩ := C97_posterior (name := name) (C := C) (objs := objs) hd hw h hn
  obtain ⟨V, v1, v2, v3, v4⟩ := density_chain (t := fitStat name C objs log cons d) (posterior_continuous hk log cs n) hK hlog hflip hlt (fun x hx => by
    obtain ⟨v, h1, h2⟩ := H (pointDict ks x) (fun hh => hne (by rw [← pointDict_keys ks x, hh]; rfl)) (pointDict_sorted hk x) (by
      intro k hkf
      obtain ⟨i, rfl⟩ := names_get (hall k hkf)
      rw [pointDict_find hk]; rfl) (hpos x hx)
    refine ⟨v, ?_, h2⟩
    show (fitValue name C objs log cons d (pointDict ks x) >>= _) = _
    rw [h1]; rfl)
  refine ⟨cons, e, V, v1, fun x hx => ?_, v2, v3, v4⟩
  have h2 : (fitValue name C objs log cons d (pointDict ks x) >>= fun r => match r with | some v => Res.ok v | none => Res.ub) = .ok (V x) := v2 x hx
  obtain ⟨r, h3, h4⟩ := Res.bind_eq_ok.1 h2
  cases r with
  | none => cases h4
  | some v => rw [h3, Res.ok.inj h4]

/-- C108 for a fit: fit counts with Gaussian constraints on fitted normalisations, and run a Metropolis chain on the fit statistic, logged and with its sign
flipped, within limits at all points of which every bin has a positive expected rate, with a non-zero width for every parameter. From every starting
point within the limits the distribution of the chain's point converges to the posterior within the limits — the probability of the data times
the densities of the constrained parameters, normalised — with an error of at most `(1 - ε) ^ N` after `N` steps. -/
theorem C108_posterior {name : Nat → String} {C : FitSys σ ℝ} {objs : Nat → σ} {log : List (BinnedED ℝ × NormStatus)} {d : BinnedED ℝ}
    {cs : List (String × ℝ × ℝ)} (hd : (cs.map (·.1)).Nodup) (hw : ∀ q ∈ cs, q.1 ∈ PdfLog.fitted log ∧ 0 < q.2.2) (h : CanFit log d)
    {n : Fin d.hist.nBins → ℕ} (hn : ∀ b, countIn d b.1 = n b) {ks : List String} (hk : NamesSorted ks) (hne : ks ≠ [])
    (hall : ∀ k ∈ PdfLog.fitted log, k ∈ ks) {m : MCMC ℝ} (hlog : m.logged = true) (hflip : m.flip = true) {lo hi : Fin ks.length → ℝ}
    (hl : HasLimits m ks lo hi) (hlt : ∀ i, lo i < hi i) (hpos : ∀ x ∈ limitBox lo hi, ∀ b, b < d.hist.nBins → 0 < rateAt log (pointDict ks x) b)
    {s : MetropolisSampler ℝ} (hs : ∀ i : Fin ks.length, ks[i] ∉ s.fixed ∧ ∃ sg, s.sigmas.find ks[i] = some sg ∧ sg ≠ 0) :
    ∃ cons, setGaussians cs = .ok cons ∧ ∃ V : (Fin ks.length → ℝ) → ℝ,
      (∀ x ∈ limitBox lo hi, fitValue name C objs log cons d (pointDict ks x) = .ok (some (V x))) ∧
      ∃ next : (Fin ks.length → ℝ) → (Fin ks.length → ℝ) → ℝ → (Fin ks.length → ℝ),
      (∀ x z u st, ChainAt m st ks V x → ∃ p r, (s.input (fun k sg => sg * dval (pointDict ks z) k) u).draw st.curStep = .ok p ∧
        st.stepAccepted Real.exp (fitStat name C objs log cons d) p.1 p.2 u = .ok r ∧ ChainAt m r.1 ks V (next x z u)) ∧
      ∃ ε : ℝ, 0 < ε ∧ ε ≤ 1 ∧ ∀ f : (Fin ks.length → ℝ) → ℝ, Measurable f → (∀ x, 0 ≤ f x ∧ f x ≤ 1) → ∀ x ∈ limitBox lo hi, ∀ N : Nat,
        |((afterStep (Measure.pi fun _ => gaussianReal 0 1) next)^[N] (fun x => ENNReal.ofReal (f x)) x).toReal -
          ∫ y, f y ∂(sampledLaw lo hi fun x => posterior log cs n (pointDict ks x))| ≤ (1 - ε) ^ N := by
  obtain ⟨cons, e, V, hVm, h1, h2, h3, h4⟩ := posterior_chain (name := name) (C := C) (objs := objs) hd hw h hn hk hne hall hlog hflip hlt hpos
  obtain ⟨next, a, _, ε, b, c, g⟩ := C108_converges hk hl hlt h2 hVm (Or.inl hlog) h3 hs
  refine ⟨cons, e, V, h1, next, fun x z u st hx => ?_, ε, b, c, ?_⟩
  · obtain ⟨p, r, a1, a2, a3, _⟩ := a x z u st hx
    exact ⟨p, r, a1, a2, a3⟩
  · rw [h4] at g; exact g

/-- … and the histogram that the run saves converges to the posterior: in each bin the mean square of the difference between the fraction of the
recorded steps and the posterior probability of the bin is at most a constant over the number of recorded steps. -/
theorem C108_posterior_histogram {name : Nat → String} {C : FitSys σ ℝ} {objs : Nat → σ} {log : List (BinnedED ℝ × NormStatus)} {d : BinnedED ℝ}
    {cs : List (String × ℝ × ℝ)} (hd : (cs.map (·.1)).Nodup) (hw : ∀ q ∈ cs, q.1 ∈ PdfLog.fitted log ∧ 0 < q.2.2) (h : CanFit log d)
    {n : Fin d.hist.nBins → ℕ} (hn : ∀ b, countIn d b.1 = n b) {ks : List String} (hk : NamesSorted ks) (hne : ks ≠ [])
    (hall : (PdfLog.fitted log).Perm ks) {m : MCMC ℝ} (hlog : m.logged = true) (hflip : m.flip = true) {lo hi : Fin ks.length → ℝ}
    (hl : HasLimits m ks lo hi) (hmin : m.minima.length = ks.length) (hmax : m.maxima.length = ks.length)
    (hlt : ∀ i, lo i < hi i) (hpos : ∀ x ∈ limitBox lo hi, ∀ b, b < d.hist.nBins → 0 < rateAt log (pointDict ks x) b)
    {s : MetropolisSampler ℝ} (hs : ∀ i : Fin ks.length, ks[i] ∉ s.fixed ∧ ∃ sg, s.sigmas.find ks[i] = some sg ∧ sg ≠ 0)
    (hf : m.samples.Fresh) (hfull : m.samples.saveFull = true) (hch : m.samples.saveChain = false) (hq : 0 < m.samples.auto.qLen)
    {as : List (BinAxis ℝ)} (hax : (AxisCollection.empty : AxisCollection ℝ).addAxes as = .ok m.samples.axes) (hasne : as ≠ []) (hc : ∀ a ∈ as, a.Contiguous)
    (hlen : as.length = ks.length) (hnm : ∀ a ∈ as, a.name ∈ ks) :
    ∃ cons, setGaussians cs = .ok cons ∧ ∃ K : ℝ, ∀ x0 ∈ limitBox lo hi, ∀ burnIn thin : Int, thin ≠ 0 → ∀ (N : Nat) (r : String → ℝ), 0 < N →
      ∃ cnt : (Fin N → (Fin ks.length → ℝ) × ℝ) → Nat → ℝ,
        (∀ ω, ∃ m' res, ({ m with trial := pointDict ks x0, maxIter := N, samples := { m.samples with burnIn := burnIn, thin := thin } } : MCMC ℝ).optimise Real.exp
            (fitStat name C objs log cons d) r ((List.ofFn ω).map fun w => s.input (fun k sg => sg * dval (pointDict ks w.1) k) w.2) = .ok (m', res) ∧
          ∀ b, b < m.samples.axes.nBins → m'.samples.hist.getBinContent b = .ok (cnt ω b)) ∧
        ∀ b, b < m.samples.axes.nBins → 0 < recordedCount burnIn thin N →
          Integrable (fun ω => (cnt ω b / recordedCount burnIn thin N -
              (sampledLaw lo hi fun x => posterior log cs n (pointDict ks x)).real (binRegion m.samples.axes as ks b)) ^ 2)
            (Measure.pi fun _ : Fin N => (Measure.pi fun _ : Fin ks.length => gaussianReal 0 1).prod (volume.restrict (Set.Ico (0 : ℝ) 1))) ∧
          ∫ ω, (cnt ω b / recordedCount burnIn thin N -
              (sampledLaw lo hi fun x => posterior log cs n (pointDict ks x)).real (binRegion m.samples.axes as ks b)) ^ 2
            ∂(Measure.pi fun _ : Fin N => (Measure.pi fun _ : Fin ks.length => gaussianReal 0 1).prod (volume.restrict (Set.Ico (0 : ℝ) 1))) ≤ K / recordedCount burnIn thin N := by
  obtain ⟨cons, e, V, hVm, h1, h2, h3, h4⟩ := posterior_chain (name := name) (C := C) (objs := objs) hd hw h hn hk hne (fun _ h => hall.subset h) hlog hflip hlt hpos
  obtain ⟨K, g⟩ := C108_histogram (t := fitStat name C objs log cons d) hk hall.length_eq hl hmin hmax hlt h2 hVm (Or.inl hlog) h3 hs hf hfull hch hq hax hasne hc hlen hnm
  rw [h4] at g
  exact ⟨cons, e, K, g⟩

/-- … so a run is unlikely to be wrong: the probability, over the random numbers of the run, that the fraction of the recorded steps in a bin is off by `δ` or
more from the posterior probability of the bin is at most a constant over the number of recorded steps times `δ` squared. -/
theorem C108_posterior_likely {name : Nat → String} {C : FitSys σ ℝ} {objs : Nat → σ} {log : List (BinnedED ℝ × NormStatus)} {d : BinnedED ℝ}
    {cs : List (String × ℝ × ℝ)} (hd : (cs.map (·.1)).Nodup) (hw : ∀ q ∈ cs, q.1 ∈ PdfLog.fitted log ∧ 0 < q.2.2) (h : CanFit log d)
    {n : Fin d.hist.nBins → ℕ} (hn : ∀ b, countIn d b.1 = n b) {ks : List String} (hk : NamesSorted ks) (hne : ks ≠ [])
    (hall : (PdfLog.fitted log).Perm ks) {m : MCMC ℝ} (hlog : m.logged = true) (hflip : m.flip = true) {lo hi : Fin ks.length → ℝ}
    (hl : HasLimits m ks lo hi) (hmin : m.minima.length = ks.length) (hmax : m.maxima.length = ks.length)
    (hlt : ∀ i, lo i < hi i) (hpos : ∀ x ∈ limitBox lo hi, ∀ b, b < d.hist.nBins → 0 < rateAt log (pointDict ks x) b)
    {s : MetropolisSampler ℝ} (hs : ∀ i : Fin ks.length, ks[i] ∉ s.fixed ∧ ∃ sg, s.sigmas.find ks[i] = some sg ∧ sg ≠ 0)
    (hf : m.samples.Fresh) (hfull : m.samples.saveFull = true) (hch : m.samples.saveChain = false) (hq : 0 < m.samples.auto.qLen)
    {as : List (BinAxis ℝ)} (hax : (AxisCollection.empty : AxisCollection ℝ).addAxes as = .ok m.samples.axes) (hasne : as ≠ []) (hc : ∀ a ∈ as, a.Contiguous)
    (hlen : as.length = ks.length) (hnm : ∀ a ∈ as, a.name ∈ ks) :
    ∃ cons, setGaussians cs = .ok cons ∧ ∃ K : ℝ, ∀ x0 ∈ limitBox lo hi, ∀ burnIn thin : Int, thin ≠ 0 → ∀ (N : Nat) (r : String → ℝ), 0 < N →
      ∃ cnt : (Fin N → (Fin ks.length → ℝ) × ℝ) → Nat → ℝ,
        (∀ ω, ∃ m' res, ({ m with trial := pointDict ks x0, maxIter := N, samples := { m.samples with burnIn := burnIn, thin := thin } } : MCMC ℝ).optimise Real.exp
            (fitStat name C objs log cons d) r ((List.ofFn ω).map fun w => s.input (fun k sg => sg * dval (pointDict ks w.1) k) w.2) = .ok (m', res) ∧
          ∀ b, b < m.samples.axes.nBins → m'.samples.hist.getBinContent b = .ok (cnt ω b)) ∧
        ∀ b, b < m.samples.axes.nBins → 0 < recordedCount burnIn thin N → ∀ δ : ℝ, 0 < δ →
          (Measure.pi fun _ : Fin N => (Measure.pi fun _ : Fin ks.length => gaussianReal 0 1).prod (volume.restrict (Set.Ico (0 : ℝ) 1))).real
            {ω | δ ≤ |cnt ω b / recordedCount burnIn thin N -
              (sampledLaw lo hi fun x => posterior log cs n (pointDict ks x)).real (binRegion m.samples.axes as ks b)|} ≤ K / (recordedCount burnIn thin N * δ ^ 2) := by
  obtain ⟨cons, e, K, g⟩ := C108_posterior_histogram (name := name) (C := C) (objs := objs) hd hw h hn hk hne hall hlog hflip hl hmin hmax hlt hpos hs hf hfull hch hq hax hasne hc hlen hnm
  refine ⟨cons, e, K, fun x0 hx0 burnIn thin hth N r hN => ?_⟩
  obtain ⟨cnt, h1, h2⟩ := g x0 hx0 burnIn thin hth N r hN
  refine ⟨cnt, h1, fun b hb hrec δ hδ => ?_⟩
  obtain ⟨h3, h4⟩ := h2 b hb hrec
  have := Ergodic.unlikely h3 h4 hδ
  rwa [div_div] at this

/-! ### Concrete cases -/

theorem exWalk_widths : ∀ i : Fin 2, (["b", "s"] : List String)[i] ∉ exWalk.fixed ∧ ∃ sg, exWalk.sigmas.find (["b", "s"] : List String)[i] = some sg ∧ sg ≠ 0 := by
  intro i
  fin_cases i
  · exact ⟨by simp [exWalk], 1/2, by simp [exWalk, SMap.find], by norm_num⟩
  · exact ⟨by simp [exWalk], 2, by simp [exWalk, SMap.find], by norm_num⟩

theorem exTwo_positive : ∀ x ∈ limitBox (fun _ : Fin 2 => (1 : ℝ)) (fun _ => 10), ∀ b, b < (exRealPdf "d" 4 5).hist.nBins → 0 < rateAt exTwo (pointDict ["b", "s"] x) b := by
  intro x hx b hb
  have e : pointDict ["b", "s"] x = [("b", x ⟨0, by decide⟩), ("s", x ⟨1, by decide⟩)] := by simp [pointDict, List.ofFn_succ]
  have a0 := (hx ⟨0, by decide⟩).1
  have a1 := (hx ⟨1, by decide⟩).1
  have : b < 2 := hb
  have : b = 0 ∨ b = 1 := by omega
  rw [e]
  rcases this with rfl | rfl
  · rw [(exTwo_rate _ _).1]; linarith
  · rw [(exTwo_rate _ _).2]; linarith

theorem exTwo_counts : ∀ b : Fin (exRealPdf "d" 4 5).hist.nBins, countIn (exRealPdf "d" 4 5) b.1 = ((![4, 5] : Fin 2 → ℕ) b : ℝ) := by
  intro b
  have hb : b.1 < 2 := b.2
  have : b.1 = 0 ∨ b.1 = 1 := by omega
  obtain ⟨b, hb'⟩ := b
  rcases this with h | h <;> simp only at h <;> subst h <;> simp [countIn, exRealPdf]

/-- Axes for both parameters, with three bins each. -/
theorem exChainAxes : ∃ (a b : BinAxis ℝ) (c : AxisCollection ℝ), BinAxis.mkEqual "b" 1 10 3 = .ok a ∧ BinAxis.mkEqual "s" 1 10 3 = .ok b ∧
    a.name = "b" ∧ b.name = "s" ∧ (AxisCollection.empty : AxisCollection ℝ).addAxes [a, b] = .ok c := by
  obtain ⟨a, ha⟩ := (C01_equalAxis_accepts "b" "" (1 : ℝ) 10 3).1.2 ⟨by norm_num, by norm_num⟩
  obtain ⟨b, hb⟩ := (C01_equalAxis_accepts "s" "" (1 : ℝ) 10 3).1.2 ⟨by norm_num, by norm_num⟩
  have na := (C01_equalAxis_tiles _ _ _ _ _ _ ha).1
  have nb := (C01_equalAxis_tiles _ _ _ _ _ _ hb).1
  obtain ⟨c, hc⟩ := (C04_build [a, b]).1 (by simp [na, nb])
  exact ⟨a, b, c, ha, hb, na, nb, hc⟩

-- two bins with 4 and 5 events, signal and constrained background between 1 and 10: the chain converges to the posterior, and so does the histogram it saves
example (C : FitSys σ ℝ) (objs : Nat → σ) : ∃ (cons : ConstraintManager ℝ) (next : (Fin 2 → ℝ) → (Fin 2 → ℝ) → ℝ → (Fin 2 → ℝ)) (ε : ℝ), setGaussians [("b", 3, 1/2)] = .ok cons ∧
    0 < ε ∧ ∀ f : (Fin 2 → ℝ) → ℝ, Measurable f → (∀ x, 0 ≤ f x ∧ f x ≤ 1) → ∀ x ∈ limitBox (fun _ : Fin 2 => (1 : ℝ)) (fun _ => 10), ∀ N : Nat,
      |((afterStep (Measure.pi fun _ : Fin 2 => gaussianReal 0 1) next)^[N] (fun x => ENNReal.ofReal (f x)) x).toReal -
        ∫ y, f y ∂(sampledLaw (fun _ => 1) (fun _ => 10) fun x => posterior exTwo [("b", 3, 1/2)] ![4, 5] (pointDict ["b", "s"] x))| ≤ (1 - ε) ^ N := by
  obtain ⟨cons, h1, V, h2, next, h3, ε, h4, h5, h6⟩ := C108_posterior (name := exSysName) (C := C) (objs := objs) (cs := [("b", 3, 1/2)]) (by simp) (by
    intro q hq
    rw [List.mem_singleton] at hq
    subst hq
    exact ⟨by show "b" ∈ (["s", "b"] : List String); decide, by norm_num⟩) (exTwo_canFit 4 5) exTwo_counts exNames_sorted (by simp) (by
        intro k hk
        have : k ∈ (["s", "b"] : List String) := hk
        revert this; simp; tauto) (m := exChain) rfl rfl exChain_limits (fun _ => by norm_num) exTwo_positive (s := exWalk) exWalk_widths
  exact ⟨cons, next, ε, h1, h4, h6⟩

example (C : FitSys σ ℝ) (objs : Nat → σ) : ∃ (c : AxisCollection ℝ) (cons : ConstraintManager ℝ) (K : ℝ), setGaussians [("b", 3, 1/2)] = .ok cons ∧
    ∃ cnt : (Fin 5000 → (Fin 2 → ℝ) × ℝ) → Nat → ℝ,
      (∀ ω, ∃ m' res, ({ exChain with samples := { MCMCSamples.new with saveFull := true, axes := c, burnIn := 1000, thin := 2 }, trial := pointDict ["b", "s"] (fun _ => 2), maxIter := 5000 } : MCMC ℝ).optimise
          Real.exp (fitStat exSysName C objs exTwo cons (exRealPdf "d" 4 5)) (fun _ => 0)
          ((List.ofFn ω).map fun w => exWalk.input (fun k sg => sg * dval (pointDict ["b", "s"] w.1) k) w.2) = .ok (m', res) ∧
        ∀ b, b < c.nBins → m'.samples.hist.getBinContent b = .ok (cnt ω b)) := by
  obtain ⟨a, b, c, ha, hb, na, nb, hc⟩ := exChainAxes
  obtain ⟨cons, h1, K, h2⟩ := C108_posterior_histogram (name := exSysName) (C := C) (objs := objs) (cs := [("b", 3, 1/2)]) (by simp) (by
    intro q hq
    rw [List.mem_singleton] at hq
    subst hq
    exact ⟨by show "b" ∈ (["s", "b"] : List String); decide, by norm_num⟩) (exTwo_canFit 4 5) exTwo_counts exNames_sorted (by simp)
      (by show (["s", "b"] : List String).Perm ["b", "s"]; exact List.Perm.swap _ _ _)
      (m := { exChain with samples := { MCMCSamples.new with saveFull := true, axes := c } }) rfl rfl (lo := fun _ => 1) (hi := fun _ => 10)
      ⟨exChain_limits.low, exChain_limits.high⟩ rfl rfl (fun _ => by norm_num) exTwo_positive (s := exWalk) exWalk_widths
      ⟨rfl, rfl, rfl, rfl⟩ rfl rfl (by show 0 < 1000; omega) hc (by simp) (by
        intro q hq
        simp only [List.mem_cons, List.not_mem_nil, or_false] at hq
        rcases hq with rfl | rfl
        · exact BinAxis.mkEqual_contiguous ha
        · exact BinAxis.mkEqual_contiguous hb) rfl (by
        intro q hq
        simp only [List.mem_cons, List.not_mem_nil, or_false] at hq
        rcases hq with rfl | rfl
        · rw [na]; simp
        · rw [nb]; simp)
  obtain ⟨cnt, h3, _⟩ := h2 (fun _ => 2) (fun i => ⟨by norm_num, by norm_num⟩) 1000 2 (by decide) 5000 (fun _ => 0) (by omega)
  exact ⟨c, cons, K, h1, cnt, h3⟩

end Oxsx
