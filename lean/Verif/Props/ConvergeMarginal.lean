import Verif.Props.ConvergeHist
import Verif.Props.StoreProjections
set_option linter.unusedSectionVars false
set_option linter.unusedSimpArgs false
set_option linter.unusedVariables false
/-
C108 with the default storage: a histogram per parameter and per pair of parameters, with axes between the limits.
-/
namespace Oxsx
open MeasureTheory ProbabilityTheory Spec
open scoped ENNReal NNReal

/-- Bin `b` of `n` equal bins between two limits. -/
noncomputable def evenBin (lo hi : ℝ) (n b : Nat) : Set ℝ := Set.Ico (lo + b * ((hi - lo) / n)) (lo + (b + 1) * ((hi - lo) / n))

theorem guess_axes {b : MCMCBounds ℝ} : ∀ (ns : List String) (as : List (BinAxis ℝ)) (c : AxisCollection ℝ),
    List.Forall₂ (fun n a => ∃ lo hi, SMap.find b.minima n = some lo ∧ SMap.find b.maxima n = some hi ∧ lo < hi ∧ BinAxis.mkEqual n lo hi b.nGuess = .ok a) ns as →
    Res.forFold (MCMCSamples.guessAxis b) c ns = c.addAxes as := by
  intro ns as c h
  induction h generalizing c with
  | nil => rfl
  | cons h1 _ ih =>
    rename_i n a ns as _
    obtain ⟨lo, hi, h2, h3, h4, h5⟩ := h1
    have : MCMCSamples.guessAxis b c n = c.addAxis a := by
      unfold MCMCSamples.guessAxis
      rw [h2, h3]
      simp only
      rw [if_neg (ne_of_gt h4), h5]; rfl
    unfold AxisCollection.addAxes Res.forFold
    rw [this]
    cases c.addAxis a with
    | ok c' => exact ih c'
    | throw e => rfl
    | ub => rfl

theorem evenBin_iff {nm : String} {lo hi : ℝ} {n : Nat} {a : BinAxis ℝ} (h : BinAxis.mkEqual nm lo hi n = .ok a) {b : Nat} (hb : b < n) {v : ℝ} (h1 : lo ≤ v) (h2 : v < hi) :
    a.findBin v = b ↔ v ∈ evenBin lo hi n b := by
  have hc := BinAxis.mkEqual_contiguous h
  obtain ⟨_, _, ha⟩ := BinAxis.mkEqual_ok_iff.1 h
  obtain ⟨_, k, _, _⟩ := C03_findBin _ hc v
  have hB : a.BinIs b (lo + b * ((hi - lo) / n)) (lo + (b + 1) * ((hi - lo) / n)) := by
    rw [ha]
    constructor
    · unfold BinAxis.getBinLowEdge at_
      simp [hb]
    · unfold BinAxis.getBinHighEdge at_
      simp [hb]
  have e1 : a.min = lo := by rw [ha]
  have e2 : a.max = hi := by rw [ha]
  have := k (e1 ▸ h1) (e2 ▸ h2) b _ _ hB
  unfold evenBin
  rw [Set.mem_Ico, this]
  exact eq_comm

theorem sampledLaw_ae {n : Nat} {lo hi : Fin n → ℝ} {d : (Fin n → ℝ) → ℝ} : ∀ᵐ x ∂(sampledLaw lo hi d), ∀ i, lo i ≤ x i ∧ x i < hi i := by
  unfold sampledLaw
  refine Measure.ae_smul_measure ?_ _
  unfold targetLaw
  refine (withDensity_absolutelyContinuous _ _).ae_le ?_
  have h1 : ∀ᵐ x ∂(volume.restrict (limitBox lo hi)), x ∈ limitBox lo hi := ae_restrict_mem (measurableSet_limitBox lo hi)
  have h2 : ∀ᵐ x ∂(volume.restrict (limitBox lo hi)), ∀ i, x i ≠ hi i := by
    rw [ae_all_iff]
    intro i
    refine ae_restrict_of_ae ?_
    rw [volume_pi]
    rw [ae_iff]
    simpa using Measure.pi_hyperplane (fun _ : Fin n => (volume : Measure ℝ)) i (hi i)
  filter_upwards [h1, h2] with x a b i
  exact ⟨(a i).1, lt_of_le_of_ne (a i).2 (b i)⟩

theorem evenBin_measurable {n : Nat} {nm : String} {lo hi : ℝ} {g : Nat} {a : BinAxis ℝ} (h : BinAxis.mkEqual nm lo hi g = .ok a) (i : Fin n) (b : Nat) :
    MeasurableSet {x : Fin n → ℝ | a.findBin (x i) = b} := by
  have hc := BinAxis.mkEqual_contiguous h
  have hmono : Monotone a.findBin := fun v w hvw => C03_findBin_mono a hc v w hvw
  exact (hmono.measurable.comp (measurable_pi_apply i)) (measurableSet_singleton b)

theorem findBin_one {a : BinAxis ℝ} {e : Histogram ℝ} (he : e.Valid [a]) (v : ℝ) : e.findBin [v] = .ok (a.findBin v) := by
  unfold Histogram.findBin
  rw [he.axes.findBin (by simp) (by simp)]
  simp [rowMajor, AxisCollection.shape]

theorem findBin_two {a a' : BinAxis ℝ} {e : Histogram ℝ} (he : e.Valid [a, a']) (v v' : ℝ) : e.findBin [v, v'] = .ok (a.findBin v * a'.nBins + a'.findBin v') := by
  unfold Histogram.findBin
  rw [he.axes.findBin (by simp) (by simp)]
  simp [rowMajor, AxisCollection.shape]

/-- The default histograms of a run, for any set of starting points from which the chain converges. -/
theorem marginals_of_chain {m : MCMC ℝ} {t : TestStat ℝ} {ks : List String} (hk : NamesSorted ks) (hne : ks ≠ []) (hnames : t.names.length = ks.length) {lo hi : Fin ks.length → ℝ}
    (hl : HasLimits m ks lo hi) (hmin : m.minima.keys = ks) (hmax : m.maxima.length = ks.length)
    (hlt : ∀ i, lo i < hi i) {V : (Fin ks.length → ℝ) → ℝ} (hV : ∀ x ∈ limitBox lo hi, t.eval (pointDict ks x) = .ok (V x))
    {s : MetropolisSampler ℝ} (hsome : ∀ i : Fin ks.length, ks[i] ∉ s.fixed → (s.sigmas.find ks[i]).isSome)
    {B : Set (Fin ks.length → ℝ)} (hB : B ⊆ limitBox lo hi) {π : Measure (Fin ks.length → ℝ)} [IsProbabilityMeasure π] {ε : ℝ}
    (hε : Ergodic.Chain (metroStep m lo hi V (stepWidth s ks)) (stepLaw ks.length) B π ε) (hae : ∀ᵐ x ∂π, ∀ i, lo i ≤ x i ∧ x i < hi i)
    (hf : m.samples.Fresh) (hfull : m.samples.saveFull = false) (hch : m.samples.saveChain = false) (hq : 0 < m.samples.auto.qLen) (hax : m.samples.axes.nDims = 0) (hg : 0 < m.nGuess) :
    ∃ K : ℝ, ∀ x0 ∈ B, ∀ burnIn thin : Int, thin ≠ 0 → ∀ (N : Nat) (r : String → ℝ), 0 < N →
      ∃ (one : Fin ks.length → (Fin N → (Fin ks.length → ℝ) × ℝ) → Nat → ℝ) (two : Fin ks.length → Fin ks.length → (Fin N → (Fin ks.length → ℝ) × ℝ) → Nat → Nat → ℝ),
        (∀ ω, ∃ m' res, ({ m with trial := pointDict ks x0, maxIter := N, samples := { m.samples with burnIn := burnIn, thin := thin } } : MCMC ℝ).optimise Real.exp t r
            ((List.ofFn ω).map fun w => s.input (fun k sg => sg * dval (pointDict ks w.1) k) w.2) = .ok (m', res) ∧
          (∀ i, ∃ p, m'.samples.proj1.find ks[i] = some p ∧ p.nBins = m.nGuess ∧ ∀ b, b < m.nGuess → p.getBinContent b = .ok (one i ω b)) ∧
          ((∀ q ∈ Combinations.allCombsNoDiag ks, ∀ r ∈ Combinations.allCombsNoDiag ks, q.1 ++ "_" ++ q.2 = r.1 ++ "_" ++ r.2 → q = r) →
            ∀ i j, j < i → ∃ p, m'.samples.proj2.find (ks[i] ++ "_" ++ ks[j]) = some p ∧ p.nBins = m.nGuess * m.nGuess ∧
              ∀ b c, b < m.nGuess → c < m.nGuess → p.getBinContent (b * m.nGuess + c) = .ok (two i j ω b c))) ∧
        (0 < recordedCount burnIn thin N →
          (∀ i b, b < m.nGuess →
            Integrable (fun ω => (one i ω b / recordedCount burnIn thin N - π.real {x | x i ∈ evenBin (lo i) (hi i) m.nGuess b}) ^ 2)
              (Measure.pi fun _ : Fin N => (Measure.pi fun _ : Fin ks.length => gaussianReal 0 1).prod (volume.restrict (Set.Ico (0 : ℝ) 1))) ∧
            ∫ ω, (one i ω b / recordedCount burnIn thin N - π.real {x | x i ∈ evenBin (lo i) (hi i) m.nGuess b}) ^ 2
              ∂(Measure.pi fun _ : Fin N => (Measure.pi fun _ : Fin ks.length => gaussianReal 0 1).prod (volume.restrict (Set.Ico (0 : ℝ) 1))) ≤ K / recordedCount burnIn thin N) ∧
          ∀ i j b c, b < m.nGuess → c < m.nGuess →
            Integrable (fun ω => (two i j ω b c / recordedCount burnIn thin N -
                π.real {x | x i ∈ evenBin (lo i) (hi i) m.nGuess b ∧ x j ∈ evenBin (lo j) (hi j) m.nGuess c}) ^ 2)
              (Measure.pi fun _ : Fin N => (Measure.pi fun _ : Fin ks.length => gaussianReal 0 1).prod (volume.restrict (Set.Ico (0 : ℝ) 1))) ∧
            ∫ ω, (two i j ω b c / recordedCount burnIn thin N -
                π.real {x | x i ∈ evenBin (lo i) (hi i) m.nGuess b ∧ x j ∈ evenBin (lo j) (hi j) m.nGuess c}) ^ 2
              ∂(Measure.pi fun _ : Fin N => (Measure.pi fun _ : Fin ks.length => gaussianReal 0 1).prod (volume.restrict (Set.Ico (0 : ℝ) 1))) ≤ K / recordedCount burnIn thin N) := by
  refine ⟨1 + 2 / ε, fun x0 hx0 burnIn thin hthin N r hN => ?_⟩
  have hA : ∀ i : Fin ks.length, ∃ a, BinAxis.mkEqual ks[i] (lo i) (hi i) m.nGuess = .ok a := fun i => (C01_equalAxis_accepts ks[i] "" (lo i) (hi i) m.nGuess).1.2 ⟨hlt i, hg⟩
  choose A hA using hA
  have hAn : ∀ i, (A i).name = ks[i] := fun i => (C01_equalAxis_tiles _ _ _ _ _ _ (hA i)).1
  have hAb : ∀ i, (A i).nBins = m.nGuess := fun i => (C01_equalAxis_tiles _ _ _ _ _ _ (hA i)).2.2.2.1
  have hAc : ∀ i, (A i).Contiguous := fun i => BinAxis.mkEqual_contiguous (hA i)
  have hnm : (List.ofFn A).map (·.name) = ks := by
    rw [List.map_ofFn]
    have : ((fun a : BinAxis ℝ => a.name) ∘ A) = fun i : Fin ks.length => ks[i] := by funext i; exact hAn i
    rw [this]; exact List.ofFn_getElem (xs := ks)
  have hnd : ks.Nodup := hk.imp (fun h => ne_of_lt h)
  obtain ⟨ax, hax1⟩ := (C04_build (List.ofFn A)).1 (by rw [hnm]; exact hnd)
  have hhist : ({ m.samples with burnIn := burnIn, thin := thin } : MCMCSamples ℝ).histAxes m.bounds = .ok ax := by
    unfold MCMCSamples.histAxes
    rw [if_neg (by show ¬ m.samples.axes.nDims ≠ 0; simp [hax])]
    show Res.forFold (MCMCSamples.guessAxis m.bounds) .empty m.minima.keys = _
    rw [hmin, guess_axes ks (List.ofFn A) _ ?_, hax1]
    rw [List.forall₂_iff_get]
    refine ⟨by simp, fun i h1 h2 => ?_⟩
    refine ⟨lo ⟨i, h1⟩, hi ⟨i, h1⟩, hl.low ⟨i, h1⟩, hl.high ⟨i, h1⟩, hlt _, ?_⟩
    have := hA ⟨i, h1⟩
    rw [List.get_eq_getElem, List.get_eq_getElem, List.getElem_ofFn]
    exact this
  have hAe : ∀ a ∈ List.ofFn A, ∀ i : Fin ks.length, a.name = ks[i] → a = A i := by
    intro a ha i e
    obtain ⟨j, rfl⟩ := (List.mem_ofFn' A a).1 ha
    rw [hAn] at e
    have : j = i := by
      have := List.nodup_iff_injective_get.1 hnd (a₁ := j) (a₂ := i) (by simpa using e)
      exact this
    rw [this]
  have hco : ∀ (x : Fin ks.length → ℝ) i, dval (pointDict ks x) (A i).name = x i := fun x i => by rw [hAn]; exact pointDict_dval hk x i
  refine ⟨fun i ω b => recordedIn burnIn thin (Ergodic.points (metroStep m lo hi V (stepWidth s ks)) x0 (List.ofFn ω)) {x | (A i).findBin (x i) = b},
    fun i j ω b c => recordedIn burnIn thin (Ergodic.points (metroStep m lo hi V (stepWidth s ks)) x0 (List.ofFn ω)) {x | (A i).findBin (x i) = b ∧ (A j).findBin (x j) = c},
    fun ω => ?_, fun hrec => ⟨fun i b hbn => ?_, fun i j b c hbn hcn => ?_⟩⟩
  · obtain ⟨h, hhne, e1, hrun⟩ := chain_run hk hne hnames hl (by rw [← hmin]; simp [SMap.keys]) hmax hV hsome (hB hx0) ({ m.samples with burnIn := burnIn, thin := thin } : MCMCSamples ℝ) hN r ω
    have hfresh : ({ m.samples with burnIn := burnIn, thin := thin } : MCMCSamples ℝ).Fresh := ⟨hf.accepted, hf.total, hf.initialised, hf.auto⟩
    have hmk : m.bounds.minima.keys = ks := hmin
    obtain ⟨s', f1, f2, f3⟩ := C54_projections_total (b := m.bounds) hfresh hfull hch hthin hq hhist hax1 (by
        intro a ha
        obtain ⟨j, rfl⟩ := (List.mem_ofFn' A a).1 ha
        exact hAc j) (by
        show SMap.Sorted m.minima
        unfold SMap.Sorted
        have : m.minima.keys.Pairwise (· < ·) := by rw [hmin]; exact hk
        simpa [SMap.keys, List.pairwise_map] using this) (by rw [hnm, hmk]; exact fun _ h => h) hhne (by
        intro y hy a ha
        have : y.params ∈ h.map (·.params) := List.mem_map_of_mem hy
        rw [e1] at this
        obtain ⟨x, _, e⟩ := List.mem_map.1 this
        obtain ⟨j, rfl⟩ := (List.mem_ofFn' A a).1 ha
        rw [← e, SMap.lookup_eq_find, hAn, pointDict_find hk]; rfl)
    obtain ⟨m', res, g1, g2⟩ := hrun s' f1
    rw [hmk] at f2 f3
    refine ⟨m', res, g1, fun i => ?_, fun hinj i j hij => ?_⟩
    · obtain ⟨e, a, p, k1, k2, k3, k4, k5, _⟩ := f2 ks[i] (List.getElem_mem _)
      obtain rfl := hAe a k1 i k2
      have hnb : e.nBins = m.nGuess := by rw [k3.1.nb]; simp [AxisCollection.shape, hAb]
      obtain ⟨p', r1, r2, _⟩ := fillSteps_total k3.1 (by simpa using hAc i) (recorded burnIn thin h) (by
        intro y hy a ha
        have : y.params ∈ h.map (·.params) := List.mem_map_of_mem (recorded_subset hy)
        rw [e1] at this
        obtain ⟨x, _, e⟩ := List.mem_map.1 this
        rw [List.mem_singleton.1 ha, ← e, SMap.lookup_eq_find, hAn, pointDict_find hk]; rfl)
      rw [k5] at r1; cases r1
      refine ⟨p, by rw [g2]; exact k4, by rw [r2.nb]; simp [AxisCollection.shape, hAb], fun b hbn => ?_⟩
      rw [filled_content k3 (by simpa using hAc i) hk (by simp [hAn]) e1 k5 (by rw [hnb]; exact hbn)]
      congr 2
      ext x
      show e.findBin (axisCoords [A i] ks x) = .ok b ↔ (A i).findBin (x i) = b
      unfold axisCoords
      rw [List.map_cons, List.map_nil, findBin_one k3.1, hco]
      exact ⟨fun h => Res.ok.inj h, fun h => by rw [h]⟩
    · have hpair : (ks[i], ks[j]) ∈ Combinations.allCombsNoDiag ks := ((C62_pairs ks hnd).2.1 _ _).2 ⟨i.1, j.1, hij, by simp, by simp⟩
      obtain ⟨e, a, a', p, k1, k1', k2, k2', k3, k4, k5, _⟩ := f3 ks[i] ks[j] hpair hinj
      obtain rfl := hAe a k1 i k2
      obtain rfl := hAe a' k1' j k2'
      have hcc : ∀ a ∈ [A i, A j], a.Contiguous := by
        intro a ha
        simp only [List.mem_cons, List.not_mem_nil, or_false] at ha
        rcases ha with rfl | rfl
        · exact hAc i
        · exact hAc j
      have hnb : e.nBins = m.nGuess * m.nGuess := by rw [k3.1.nb]; simp [AxisCollection.shape, hAb]
      obtain ⟨p', r1, r2, _⟩ := fillSteps_total k3.1 hcc (recorded burnIn thin h) (by
        intro y hy a ha
        have : y.params ∈ h.map (·.params) := List.mem_map_of_mem (recorded_subset hy)
        rw [e1] at this
        obtain ⟨x, _, e⟩ := List.mem_map.1 this
        simp only [List.mem_cons, List.not_mem_nil, or_false] at ha
        rcases ha with rfl | rfl <;> (rw [← e, SMap.lookup_eq_find, hAn, pointDict_find hk]; rfl))
      rw [k5] at r1; cases r1
      refine ⟨p, by rw [g2]; exact k4, by rw [r2.nb]; simp [AxisCollection.shape, hAb], fun b c hbn hcn => ?_⟩
      rw [filled_content k3 hcc hk (by
        intro a ha
        simp only [List.mem_cons, List.not_mem_nil, or_false] at ha
        rcases ha with rfl | rfl <;> (rw [hAn]; exact List.getElem_mem _)) e1 k5 (by
        rw [hnb]
        calc b * m.nGuess + c < b * m.nGuess + m.nGuess := by omega
          _ = (b + 1) * m.nGuess := by ring
          _ ≤ m.nGuess * m.nGuess := Nat.mul_le_mul_right _ hbn)]
      congr 2
      ext x
      show e.findBin (axisCoords [A i, A j] ks x) = .ok (b * m.nGuess + c) ↔ (A i).findBin (x i) = b ∧ (A j).findBin (x j) = c
      unfold axisCoords
      rw [List.map_cons, List.map_cons, List.map_nil, findBin_two k3.1, hco, hco, hAb]
      have h2 : (A j).findBin (x j) < m.nGuess := by rw [← hAb j]; exact (C03_findBin _ (hAc j) _).1
      constructor
      · intro h
        have h := Res.ok.inj h
        have q2 := congrArg (· % m.nGuess) h
        simp only [Nat.add_mod, Nat.mul_mod_left, Nat.zero_add, Nat.mod_mod, Nat.mod_eq_of_lt h2, Nat.mod_eq_of_lt hcn] at q2
        rw [q2] at h
        exact ⟨Nat.eq_of_mul_eq_mul_right hg (by omega), q2⟩
      · rintro ⟨h1, h2⟩; rw [h1, h2]
  · have := fraction_close hε (evenBin_measurable (n := ks.length) (hA i) i b) burnIn thin N hrec hx0
    have e : π.real {x | (A i).findBin (x i) = b} = π.real {x | x i ∈ evenBin (lo i) (hi i) m.nGuess b} := by
      refine measureReal_congr ?_
      filter_upwards [hae] with x hx
      exact propext (evenBin_iff (hA i) hbn (hx i).1 (hx i).2)
    rw [e] at this
    exact this
  · have := fraction_close hε ((evenBin_measurable (n := ks.length) (hA i) i b).inter (evenBin_measurable (n := ks.length) (hA j) j c)) burnIn thin N hrec hx0
    have e : π.real ({x | (A i).findBin (x i) = b} ∩ {x | (A j).findBin (x j) = c}) =
        π.real {x | x i ∈ evenBin (lo i) (hi i) m.nGuess b ∧ x j ∈ evenBin (lo j) (hi j) m.nGuess c} := by
      refine measureReal_congr ?_
      filter_upwards [hae] with x hx
      exact propext (and_congr (evenBin_iff (hA i) hbn (hx i).1 (hx i).2) (evenBin_iff (hA j) hcn (hx j).1 (hx j).2))
    rw [e] at this
    exact this

/-- C108 with the default storage: set the chain up as in `C108_converges`, start it at a point within the limits, and let it save a histogram for each parameter and each pair of
parameters, with the default axes of `nGuess` bins between the limits. The run succeeds; in every bin of every parameter's histogram the mean square of the difference between the
fraction of the recorded steps and the probability, under the sampled density, that the parameter is in the bin is at most a constant over the number of recorded
steps; and so in every bin of the histogram of every pair of parameters, if no two pairs have the same joined name, for the probability that both are in theirs. -/
theorem C108_marginals {m : MCMC ℝ} {t : TestStat ℝ} {ks : List String} (hk : NamesSorted ks) (hne : ks ≠ []) (hnames : t.names.length = ks.length) {lo hi : Fin ks.length → ℝ}
    (hl : HasLimits m ks lo hi) (hmin : m.minima.keys = ks) (hmax : m.maxima.length = ks.length)
    (hlt : ∀ i, lo i < hi i) {V : (Fin ks.length → ℝ) → ℝ} (hV : ∀ x ∈ limitBox lo hi, t.eval (pointDict ks x) = .ok (V x)) (hm : Measurable V)
    (hd : m.logged = true ∨ ∀ x, 0 < chainValue m V x) (hb : Bounded lo hi (chainDensity m V))
    {s : MetropolisSampler ℝ} (hs : ∀ i : Fin ks.length, ks[i] ∉ s.fixed ∧ ∃ sg, s.sigmas.find ks[i] = some sg ∧ sg ≠ 0)
    (hf : m.samples.Fresh) (hfull : m.samples.saveFull = false) (hch : m.samples.saveChain = false) (hq : 0 < m.samples.auto.qLen) (hax : m.samples.axes.nDims = 0) (hg : 0 < m.nGuess) :
    ∃ K : ℝ, ∀ x0 ∈ limitBox lo hi, ∀ burnIn thin : Int, thin ≠ 0 → ∀ (N : Nat) (r : String → ℝ), 0 < N →
      ∃ (one : Fin ks.length → (Fin N → (Fin ks.length → ℝ) × ℝ) → Nat → ℝ) (two : Fin ks.length → Fin ks.length → (Fin N → (Fin ks.length → ℝ) × ℝ) → Nat → Nat → ℝ),
        (∀ ω, ∃ m' res, ({ m with trial := pointDict ks x0, maxIter := N, samples := { m.samples with burnIn := burnIn, thin := thin } } : MCMC ℝ).optimise Real.exp t r
            ((List.ofFn ω).map fun w => s.input (fun k sg => sg * dval (pointDict ks w.1) k) w.2) = .ok (m', res) ∧
          (∀ i, ∃ p, m'.samples.proj1.find ks[i] = some p ∧ p.nBins = m.nGuess ∧ ∀ b, b < m.nGuess → p.getBinContent b = .ok (one i ω b)) ∧
          ((∀ q ∈ Combinations.allCombsNoDiag ks, ∀ r ∈ Combinations.allCombsNoDiag ks, q.1 ++ "_" ++ q.2 = r.1 ++ "_" ++ r.2 → q = r) →
            ∀ i j, j < i → ∃ p, m'.samples.proj2.find (ks[i] ++ "_" ++ ks[j]) = some p ∧ p.nBins = m.nGuess * m.nGuess ∧
              ∀ b c, b < m.nGuess → c < m.nGuess → p.getBinContent (b * m.nGuess + c) = .ok (two i j ω b c))) ∧
        (0 < recordedCount burnIn thin N →
          (∀ i b, b < m.nGuess →
            Integrable (fun ω => (one i ω b / recordedCount burnIn thin N - (sampledLaw lo hi (chainDensity m V)).real {x | x i ∈ evenBin (lo i) (hi i) m.nGuess b}) ^ 2)
              (Measure.pi fun _ : Fin N => (Measure.pi fun _ : Fin ks.length => gaussianReal 0 1).prod (volume.restrict (Set.Ico (0 : ℝ) 1))) ∧
            ∫ ω, (one i ω b / recordedCount burnIn thin N - (sampledLaw lo hi (chainDensity m V)).real {x | x i ∈ evenBin (lo i) (hi i) m.nGuess b}) ^ 2
              ∂(Measure.pi fun _ : Fin N => (Measure.pi fun _ : Fin ks.length => gaussianReal 0 1).prod (volume.restrict (Set.Ico (0 : ℝ) 1))) ≤ K / recordedCount burnIn thin N) ∧
          ∀ i j b c, b < m.nGuess → c < m.nGuess →
            Integrable (fun ω => (two i j ω b c / recordedCount burnIn thin N -
                (sampledLaw lo hi (chainDensity m V)).real {x | x i ∈ evenBin (lo i) (hi i) m.nGuess b ∧ x j ∈ evenBin (lo j) (hi j) m.nGuess c}) ^ 2)
              (Measure.pi fun _ : Fin N => (Measure.pi fun _ : Fin ks.length => gaussianReal 0 1).prod (volume.restrict (Set.Ico (0 : ℝ) 1))) ∧
            ∫ ω, (two i j ω b c / recordedCount burnIn thin N -
                (sampledLaw lo hi (chainDensity m V)).real {x | x i ∈ evenBin (lo i) (hi i) m.nGuess b ∧ x j ∈ evenBin (lo j) (hi j) m.nGuess c}) ^ 2
              ∂(Measure.pi fun _ : Fin N => (Measure.pi fun _ : Fin ks.length => gaussianReal 0 1).prod (volume.restrict (Set.Ico (0 : ℝ) 1))) ≤ K / recordedCount burnIn thin N) := by
  have hp := sampledLaw_prob hlt hb
  obtain ⟨ε, hε⟩ := metropolis_ergodic hlt hm hd hb hs
  exact marginals_of_chain hk hne hnames hl hmin hmax hlt hV (fun i _ => by obtain ⟨_, sg, h, _⟩ := hs i; rw [h]; rfl) (fun _ h => h) hε sampledLaw_ae hf hfull hch hq hax hg

/-- … and for a fit of counts with Gaussian constraints, with the chain on the fit statistic, logged and with its sign flipped, within limits where every bin has a positive expected
rate: the histograms of the parameters and pairs of parameters converge to the marginal posterior probabilities. -/
theorem C108_posterior_marginals {name : Nat → String} {C : FitSys σ ℝ} {objs : Nat → σ} {log : List (BinnedED ℝ × NormStatus)} {d : BinnedED ℝ}
    {cs : List (String × ℝ × ℝ)} (hd : (cs.map (·.1)).Nodup) (hw : ∀ q ∈ cs, q.1 ∈ PdfLog.fitted log ∧ 0 < q.2.2) (h : CanFit log d)
    {n : Fin d.hist.nBins → ℕ} (hn : ∀ b, countIn d b.1 = n b) {ks : List String} (hk : NamesSorted ks) (hne : ks ≠ [])
    (hall : (PdfLog.fitted log).Perm ks) {m : MCMC ℝ} (hlog : m.logged = true) (hflip : m.flip = true) {lo hi : Fin ks.length → ℝ}
    (hl : HasLimits m ks lo hi) (hmin : m.minima.keys = ks) (hmax : m.maxima.length = ks.length)
    (hlt : ∀ i, lo i < hi i) (hpos : ∀ x ∈ limitBox lo hi, ∀ b, b < d.hist.nBins → 0 < rateAt log (pointDict ks x) b)
    {s : MetropolisSampler ℝ} (hs : ∀ i : Fin ks.length, ks[i] ∉ s.fixed ∧ ∃ sg, s.sigmas.find ks[i] = some sg ∧ sg ≠ 0)
    (hf : m.samples.Fresh) (hfull : m.samples.saveFull = false) (hch : m.samples.saveChain = false) (hq : 0 < m.samples.auto.qLen) (hax : m.samples.axes.nDims = 0) (hg : 0 < m.nGuess) :
    ∃ cons, setGaussians cs = .ok cons ∧ ∃ K : ℝ, ∀ x0 ∈ limitBox lo hi, ∀ burnIn thin : Int, thin ≠ 0 → ∀ (N : Nat) (r : String → ℝ), 0 < N →
      ∃ (one : Fin ks.length → (Fin N → (Fin ks.length → ℝ) × ℝ) → Nat → ℝ) (two : Fin ks.length → Fin ks.length → (Fin N → (Fin ks.length → ℝ) × ℝ) → Nat → Nat → ℝ),
        (∀ ω, ∃ m' res, ({ m with trial := pointDict ks x0, maxIter := N, samples := { m.samples with burnIn := burnIn, thin := thin } } : MCMC ℝ).optimise Real.exp (fitStat name C objs log cons d) r
            ((List.ofFn ω).map fun w => s.input (fun k sg => sg * dval (pointDict ks w.1) k) w.2) = .ok (m', res) ∧
          (∀ i, ∃ p, m'.samples.proj1.find ks[i] = some p ∧ p.nBins = m.nGuess ∧ ∀ b, b < m.nGuess → p.getBinContent b = .ok (one i ω b)) ∧
          ((∀ q ∈ Combinations.allCombsNoDiag ks, ∀ r ∈ Combinations.allCombsNoDiag ks, q.1 ++ "_" ++ q.2 = r.1 ++ "_" ++ r.2 → q = r) →
            ∀ i j, j < i → ∃ p, m'.samples.proj2.find (ks[i] ++ "_" ++ ks[j]) = some p ∧ p.nBins = m.nGuess * m.nGuess ∧
              ∀ b c, b < m.nGuess → c < m.nGuess → p.getBinContent (b * m.nGuess + c) = .ok (two i j ω b c))) ∧
        (0 < recordedCount burnIn thin N →
          (∀ i b, b < m.nGuess →
            Integrable (fun ω => (one i ω b / recordedCount burnIn thin N - (sampledLaw lo hi fun x => posterior log cs n (pointDict ks x)).real {x | x i ∈ evenBin (lo i) (hi i) m.nGuess b}) ^ 2)
              (Measure.pi fun _ : Fin N => (Measure.pi fun _ : Fin ks.length => gaussianReal 0 1).prod (volume.restrict (Set.Ico (0 : ℝ) 1))) ∧
            ∫ ω, (one i ω b / recordedCount burnIn thin N - (sampledLaw lo hi fun x => posterior log cs n (pointDict ks x)).real {x | x i ∈ evenBin (lo i) (hi i) m.nGuess b}) ^ 2
              ∂(Measure.pi fun _ : Fin N => (Measure.pi fun _ : Fin ks.length => gaussianReal 0 1).prod (volume.restrict (Set.Ico (0 : ℝ) 1))) ≤ K / recordedCount burnIn thin N) ∧
          ∀ i j b c, b < m.nGuess → c < m.nGuess →
            Integrable (fun ω => (two i j ω b c / recordedCount burnIn thin N -
                (sampledLaw lo hi fun x => posterior log cs n (pointDict ks x)).real {x | x i ∈ evenBin (lo i) (hi i) m.nGuess b ∧ x j ∈ evenBin (lo j) (hi j) m.nGuess c}) ^ 2)
              (Measure.pi fun _ : Fin N => (Measure.pi fun _ : Fin ks.length => gaussianReal 0 1).prod (volume.restrict (Set.Ico (0 : ℝ) 1))) ∧
            ∫ ω, (two i j ω b c / recordedCount burnIn thin N -
                (sampledLaw lo hi fun x => posterior log cs n (pointDict ks x)).real {x | x i ∈ evenBin (lo i) (hi i) m.nGuess b ∧ x j ∈ evenBin (lo j) (hi j) m.nGuess c}) ^ 2
              ∂(Measure.pi fun _ : Fin N => (Measure.pi fun _ : Fin ks.length => gaussianReal 0 1).prod (volume.restrict (Set.Ico (0 : ℝ) 1))) ≤ K / recordedCount burnIn thin N) := by
  obtain ⟨cons, e, V, hVm, h1, h2, h3, h4⟩ := posterior_chain (name := name) (C := C) (objs := objs) hd hw h hn hk hne (fun _ h => hall.subset h) hlog hflip hlt hpos
  obtain ⟨K, g⟩ := C108_marginals (t := fitStat name C objs log cons d) hk hne hall.length_eq hl hmin hmax hlt h2 hVm (Or.inl hlog) h3 hs hf hfull hch hq hax hg
  rw [h4] at g
  exact ⟨cons, e, K, g⟩

/-! ### A concrete case -/

-- signal and constrained background between 1 and 10, ten bins each
example (C : FitSys σ ℝ) (objs : Nat → σ) : ∃ (cons : ConstraintManager ℝ), setGaussians [("b", 3, 1/2)] = .ok cons ∧
    ∀ ω : Fin 5000 → (Fin 2 → ℝ) × ℝ, ∃ m' res, ({ exChain with nGuess := 10, samples := { MCMCSamples.new with burnIn := 1000, thin := 2 }, trial := pointDict ["b", "s"] (fun _ => 2), maxIter := 5000 } : MCMC ℝ).optimise
          Real.exp (fitStat exSysName C objs exTwo cons (exRealPdf "d" 4 5)) (fun _ => 0)
          ((List.ofFn ω).map fun w => exWalk.input (fun k sg => sg * dval (pointDict ["b", "s"] w.1) k) w.2) = .ok (m', res) ∧
        (∃ p, m'.samples.proj1.find "b" = some p ∧ p.nBins = 10) ∧ (∃ p, m'.samples.proj2.find "s_b" = some p ∧ p.nBins = 100) := by
  obtain ⟨cons, h1, K, h2⟩ := C108_posterior_marginals (name := exSysName) (C := C) (objs := objs) (cs := [("b", 3, 1/2)]) (by simp) (by
    intro q hq
    rw [List.mem_singleton] at hq
    subst hq
    exact ⟨by show "b" ∈ (["s", "b"] : List String); decide, by norm_num⟩) (exTwo_canFit 4 5) exTwo_counts exNames_sorted (by simp)
      (by show (["s", "b"] : List String).Perm ["b", "s"]; exact List.Perm.swap _ _ _)
      (m := { exChain with nGuess := 10, samples := MCMCSamples.new }) rfl rfl (lo := fun _ => 1) (hi := fun _ => 10)
      ⟨exChain_limits.low, exChain_limits.high⟩ rfl rfl (fun _ => by norm_num) exTwo_positive (s := exWalk) exWalk_widths
      ⟨rfl, rfl, rfl, rfl⟩ rfl rfl (by show 0 < 1000; omega) rfl (by show 0 < 10; omega)
  obtain ⟨one, two, h3, _⟩ := h2 (fun _ => 2) (fun i => ⟨by norm_num, by norm_num⟩) 1000 2 (by decide) 5000 (fun _ => 0) (by omega)
  refine ⟨cons, h1, fun ω => ?_⟩
  obtain ⟨m', res, r1, r2, r3⟩ := h3 ω
  refine ⟨m', res, r1, ?_, ?_⟩
  · obtain ⟨p, p1, p2, _⟩ := r2 ⟨0, by decide⟩
    exact ⟨p, p1, p2⟩
  · obtain ⟨p, p1, p2, _⟩ := r3 (by decide) ⟨1, by decide⟩ ⟨0, by decide⟩ (by decide)
    exact ⟨p, p1, p2⟩

end Oxsx
