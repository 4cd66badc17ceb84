import Verif.Props.StationaryHmc
import Verif.Props.Poisson
set_option linter.unusedSectionVars false
set_option linter.unusedSimpArgs false
set_option linter.unusedVariables false
/-
C105 with C97: a Metropolis chain on the fit statistic leaves the posterior as it is. Also examples for C105.
-/
namespace Oxsx
open MeasureTheory ProbabilityTheory LeapFrog
open scoped ENNReal Nat

variable {σ : Type}

/-- The fit statistic as the chain sees it (an infinite value is not a number the chain's comparisons are modelled for). -/
noncomputable def fitStat (name : Nat → String) (C : FitSys σ ℝ) (objs : Nat → σ) (log : List (BinnedED ℝ × NormStatus)) (cons : ConstraintManager ℝ)
    (d : BinnedED ℝ) : TestStat ℝ :=
  ⟨PdfLog.fitted log, fun ps => fitValue name C objs log cons d ps >>= fun r => match r with | some v => .ok v | none => .ub⟩

theorem pointDict_coord_measurable (ks : List String) (hk : NamesSorted ks) (k : String) :
    Measurable fun x : Fin ks.length → ℝ => ((pointDict ks x).find k).getD 0 := by
  by_cases h : k ∈ ks
  · obtain ⟨i, rfl⟩ := names_get h
    simp only [pointDict_find hk, Option.getD_some]
    exact measurable_pi_apply i
  · have : ∀ x : Fin ks.length → ℝ, (pointDict ks x).find k = none := fun x => (SMap.find_none_iff _ k).2 (by rw [pointDict_keys]; exact h)
    simp only [this, Option.getD_none]
    exact measurable_const

theorem list_sum_measurable {X ι : Type} [MeasurableSpace X] (l : List ι) (f : X → ι → ℝ) (h : ∀ i ∈ l, Measurable fun x => f x i) :
    Measurable fun x => (l.map (f x)).sum := by
  induction l with
  | nil => simp
  | cons a l ih =>
    simp only [List.map_cons, List.sum_cons]
    exact (h a (by simp)).add (ih fun i hi => h i (by simp [hi]))

theorem list_prod_measurable {X ι : Type} [MeasurableSpace X] (l : List ι) (f : X → ι → ℝ) (h : ∀ i ∈ l, Measurable fun x => f x i) :
    Measurable fun x => (l.map (f x)).prod := by
  induction l with
  | nil => simp
  | cons a l ih =>
    simp only [List.map_cons, List.prod_cons]
    exact (h a (by simp)).mul (ih fun i hi => h i (by simp [hi]))

theorem posterior_measurable {ks : List String} (hk : NamesSorted ks) (log : List (BinnedED ℝ × NormStatus)) (cs : List (String × ℝ × ℝ)) {k : Nat}
    (n : Fin k → ℕ) : Measurable fun x : Fin ks.length → ℝ => posterior log cs n (pointDict ks x) := by
  unfold posterior
  refine Measurable.mul ?_ ?_
  · simp only [dataLaw_singleton, poissonMeasure_real_singleton]
    refine Finset.measurable_prod _ fun b _ => ?_
    have hr : Measurable fun x : Fin ks.length → ℝ => (((rateAt log (pointDict ks x) b).toNNReal : NNReal) : ℝ) := by
      refine (measurable_coe_nnreal_real).comp (measurable_real_toNNReal.comp ?_)
      unfold rateAt expectedRate
      refine list_sum_measurable _ (fun x (q : (BinnedED ℝ × NormStatus) × BinnedED ℝ) =>
        normOf (fun n => (SMap.find (pointDict ks x) n).getD 0) q.1 * q.2.hist.contents.getD b 0) fun q _ => ?_
      refine Measurable.mul_const ?_ _
      unfold normOf
      split
      · exact pointDict_coord_measurable ks hk _
      · exact measurable_const
    exact ((Real.measurable_exp.comp hr.neg).mul (hr.pow_const _)).div_const _
  · exact list_prod_measurable cs (fun x q => gaussianPDFReal q.2.1 (q.2.2 ^ 2).toNNReal ((SMap.find (pointDict ks x) q.1).getD 0)) fun q _ =>
      (measurable_gaussianPDFReal _ _).comp (pointDict_coord_measurable ks hk _)

/-- C105 for a fit: fit counts with Gaussian constraints (distinct names, positive widths) on fitted normalisations, and run a chain on the fit
statistic, logged and with its sign flipped, within limits at all points of which every bin has a positive expected rate. If the chain's point
is distributed as the posterior within the limits — the probability of the data at the point times the densities of the constrained parameters —
then so is its point after any number of Metropolis steps. -/
theorem C105_posterior {name : Nat → String} {C : FitSys σ ℝ} {objs : Nat → σ} {log : List (BinnedED ℝ × NormStatus)} {d : BinnedED ℝ}
    {cs : List (String × ℝ × ℝ)} (hd : (cs.map (·.1)).Nodup) (hw : ∀ q ∈ cs, q.1 ∈ PdfLog.fitted log ∧ 0 < q.2.2) (h : CanFit log d)
    {n : Fin d.hist.nBins → ℕ} (hn : ∀ b, countIn d b.1 = n b) {ks : List String} (hk : NamesSorted ks) (hne : ks ≠ [])
    (hall : ∀ k ∈ PdfLog.fitted log, k ∈ ks) {m : MCMC ℝ} (hlog : m.logged = true) (hflip : m.flip = true) {lo hi : Fin ks.length → ℝ}
    (hl : HasLimits m ks lo hi) (hpos : ∀ x ∈ limitBox lo hi, ∀ b, b < d.hist.nBins → 0 < rateAt log (pointDict ks x) b)
    {s : MetropolisSampler ℝ} (hs : ∀ i : Fin ks.length, ks[i] ∉ s.fixed → (s.sigmas.find ks[i]).isSome) :
    ∃ cons, setGaussians cs = .ok cons ∧ ∃ V : (Fin ks.length → ℝ) → ℝ,
      (∀ x ∈ limitBox lo hi, fitValue name C objs log cons d (pointDict ks x) = .ok (some (V x))) ∧
      ∃ next : (Fin ks.length → ℝ) → (Fin ks.length → ℝ) → ℝ → (Fin ks.length → ℝ),
      (∀ x z u st, ChainAt m st ks V x → ∃ p r, (s.input (fun k sg => sg * dval (pointDict ks z) k) u).draw st.curStep = .ok p ∧
        st.stepAccepted Real.exp (fitStat name C objs log cons d) p.1 p.2 u = .ok r ∧ ChainAt m r.1 ks V (next x z u)) ∧
      ∀ f : (Fin ks.length → ℝ) → ℝ≥0∞, Measurable f → ∀ N : Nat,
        ∫⁻ x, (afterStep (Measure.pi fun _ => gaussianReal 0 1) next)^[N] f x ∂(targetLaw lo hi fun x => posterior log cs n (pointDict ks x)) =
          ∫⁻ x, f x ∂(targetLaw lo hi fun x => posterior log cs n (pointDict ks x)) := by
  obtain ⟨cons, K, e, hK, H⟩ := C97_posterior (name := name) (C := C) (objs := objs) hd hw h hn
  refine ⟨cons, e, fun x => - Real.log (K * posterior log cs n (pointDict ks x)), ?_⟩
  set V : (Fin ks.length → ℝ) → ℝ := fun x => - Real.log (K * posterior log cs n (pointDict ks x)) with hVdef
  have hpd : ∀ x ∈ limitBox lo hi, fitValue name C objs log cons d (pointDict ks x) = .ok (some (V x)) ∧ 0 < K * posterior log cs n (pointDict ks x) := by
    intro x hx
    obtain ⟨v, h1, h2⟩ := H (pointDict ks x) (fun hh => hne (by rw [← pointDict_keys ks x, hh]; rfl)) (pointDict_sorted hk x) (by
      intro k hkf
      obtain ⟨i, rfl⟩ := names_get (hall k hkf)
      rw [pointDict_find hk]; rfl) (hpos x hx)
    have h3 : Real.exp (-v) = K * posterior log cs n (pointDict ks x) := h2
    refine ⟨?_, by rw [← h3]; exact Real.exp_pos _⟩
    rw [h1, hVdef]
    simp only
    rw [← h3, Real.log_exp, neg_neg]
  have hpost := posterior_measurable hk log cs n
  have hVm : Measurable V := (Real.measurable_log.comp (measurable_const.mul hpost)).neg
  have hev : ∀ x ∈ limitBox lo hi, (fitStat name C objs log cons d).eval (pointDict ks x) = .ok (V x) := by
    intro x hx
    show (fitValue name C objs log cons d (pointDict ks x) >>= _) = _
    rw [(hpd x hx).1]; rfl
  obtain ⟨next, h1, h2⟩ := C105_metropolis hk hl hev hVm (Or.inl hlog) hs
  refine ⟨fun x hx => (hpd x hx).1, next, ?_, ?_⟩
  · intro x z u st hx
    obtain ⟨p, r, a, b, c, _⟩ := h1 x z u st hx
    exact ⟨p, r, a, b, c⟩
  have hlaw : targetLaw lo hi (chainDensity m V) = ENNReal.ofReal K • targetLaw lo hi fun x => posterior log cs n (pointDict ks x) := by
    unfold targetLaw
    have hsm := withDensity_smul (μ := (volume : Measure (Fin ks.length → ℝ)).restrict (limitBox lo hi)) (ENNReal.ofReal K)
      (ENNReal.measurable_ofReal.comp hpost)
    refine Eq.trans ?_ hsm
    refine withDensity_congr_ae ?_
    refine (ae_restrict_iff' (measurableSet_limitBox lo hi)).2 (Filter.Eventually.of_forall fun x hx => ?_)
    unfold chainDensity chainValue
    simp only [hlog, hflip, if_true, hVdef, neg_neg, Pi.smul_apply, smul_eq_mul, Function.comp]
    rw [Real.exp_log (hpd x hx).2, ENNReal.ofReal_mul hK.le]
  intro f hf N
  have := h2 f hf N
  rw [hlaw, lintegral_smul_measure, lintegral_smul_measure, smul_eq_mul, smul_eq_mul] at this
  exact (ENNReal.mul_right_inj (by simpa using hK) ENNReal.ofReal_ne_top).1 this

/-! ### Concrete cases -/

theorem exNames_sorted : NamesSorted ["b", "s"] := by
  show List.Pairwise _ _
  simp only [List.pairwise_cons, List.mem_singleton, forall_eq, List.not_mem_nil, false_implies, implies_true, List.Pairwise.nil, and_true]
  decide +kernel

/-- A logged chain with its sign flipped, between 1 and 10 in both parameters. -/
noncomputable def exChain : MCMC ℝ :=
  { (MCMC.new : MCMC ℝ) with logged := true, flip := true, minima := [("b", 1), ("s", 1)], maxima := [("b", 10), ("s", 10)] }

theorem exChain_limits : HasLimits exChain ["b", "s"] (fun _ => 1) (fun _ => 10) :=
  ⟨by intro i; fin_cases i <;> simp [exChain, SMap.find], by intro i; fin_cases i <;> simp [exChain, SMap.find]⟩

/-- Widths 1/2 and 2. -/
noncomputable def exWalk : MetropolisSampler ℝ := { sigmas := [("b", 1/2), ("s", 2)], fixed := [] }

-- two bins with 4 and 5 events, signal and constrained background between 1 and 10
example (C : FitSys σ ℝ) (objs : Nat → σ) : ∃ (cons : ConstraintManager ℝ) (V : (Fin 2 → ℝ) → ℝ) (next : (Fin 2 → ℝ) → (Fin 2 → ℝ) → ℝ → (Fin 2 → ℝ)), setGaussians [("b", 3, 1/2)] = .ok cons ∧
    (∀ x ∈ limitBox (fun _ => 1) (fun _ => 10), fitValue exSysName C objs exTwo cons (exRealPdf "d" 4 5) (pointDict ["b", "s"] x) = .ok (some (V x))) ∧
    ∀ f : (Fin 2 → ℝ) → ℝ≥0∞, Measurable f → ∀ N : Nat,
      ∫⁻ x, (afterStep (Measure.pi fun _ : Fin 2 => gaussianReal 0 1) next)^[N] f x
          ∂(targetLaw (fun _ => 1) (fun _ => 10) fun x => posterior exTwo [("b", 3, 1/2)] ![4, 5] (pointDict ["b", "s"] x)) =
        ∫⁻ x, f x ∂(targetLaw (fun _ => 1) (fun _ => 10) fun x => posterior exTwo [("b", 3, 1/2)] ![4, 5] (pointDict ["b", "s"] x)) := by
  obtain ⟨cons, h1, V, h2, next, h3, h4⟩ := C105_posterior (name := exSysName) (C := C) (objs := objs) (cs := [("b", 3, 1/2)]) (by simp) (by
    intro q hq
    rw [List.mem_singleton] at hq
    subst hq
    exact ⟨by show "b" ∈ (["s", "b"] : List String); decide, by norm_num⟩) (exTwo_canFit 4 5) (n := ![4, 5]) (by
      intro b
      have hb : b.1 < 2 := b.2
      have : b.1 = 0 ∨ b.1 = 1 := by omega
      obtain ⟨b, hb'⟩ := b
      rcases this with h | h <;> simp only at h <;> subst h <;> simp [countIn, exRealPdf]) exNames_sorted (by simp) (by
        intro k hk
        have : k ∈ (["s", "b"] : List String) := hk
        revert this; simp; tauto) (m := exChain) rfl rfl exChain_limits (by
          intro x hx b hb
          have e : pointDict ["b", "s"] x = [("b", x ⟨0, by decide⟩), ("s", x ⟨1, by decide⟩)] := by simp [pointDict, List.ofFn_succ]
          have a0 := (hx ⟨0, by decide⟩).1
          have a1 := (hx ⟨1, by decide⟩).1
          have : b < 2 := hb
          have : b = 0 ∨ b = 1 := by omega
          rw [e]
          rcases this with rfl | rfl
          · rw [(exTwo_rate _ _).1]; linarith
          · rw [(exTwo_rate _ _).2]; linarith) (s := exWalk) (by
            intro i _; fin_cases i <;> simp [exWalk, SMap.find])
  exact ⟨cons, V, next, h1, h2, h4⟩

/-- A statistic: the sum of the squares. -/
noncomputable def exSquares : TestStat ℝ := ⟨["b", "s"], fun ps => .ok ((ps.map (fun p => p.2 ^ 2)).sum)⟩

theorem exSquares_eval (x : Fin 2 → ℝ) : exSquares.eval (pointDict ["b", "s"] x) = .ok (x 0 ^ 2 + x 1 ^ 2) := by
  simp [exSquares, pointDict, List.ofFn_succ]

theorem exFree : FreeSampler (HamiltonianSampler.new exSquares (1/10) 7) ["b", "s"] (fun _ => 1) (fun x => x 0 ^ 2 + x 1 ^ 2) where
  free := Or.inl rfl
  steps := by show 0 < 7; omega
  sorted := by
    show SMap.Sorted (SMap.insert "s" (1 : ℝ) (SMap.insert "b" (1 : ℝ) []))
    exact SMap.sorted_insert (SMap.sorted_insert SMap.sorted_nil _ _) _ _
  masses := by intro i; fin_cases i <;> simp [HamiltonianSampler.new, exSquares, SMap.find_insert, SMap.find]
  positive := fun _ => one_pos
  stat := exSquares_eval

-- Hamiltonian steps on the sum of the squares
example : ∃ next : (Fin 2 → ℝ) → (Fin 2 → ℝ) → ℝ → (Fin 2 → ℝ), ∀ f : (Fin 2 → ℝ) → ℝ≥0∞, Measurable f → ∀ N : Nat,
    ∫⁻ x, (afterStep (Measure.pi fun _ : Fin 2 => gaussianReal 0 1) next)^[N] f x
        ∂(targetLaw (fun _ => 1) (fun _ => 10) (chainDensity exChain fun x => x 0 ^ 2 + x 1 ^ 2)) =
      ∫⁻ x, f x ∂(targetLaw (fun _ => 1) (fun _ => 10) (chainDensity exChain fun x => x 0 ^ 2 + x 1 ^ 2)) := by
  have hm : Measurable fun x : Fin 2 → ℝ => x 0 ^ 2 + x 1 ^ 2 := ((measurable_pi_apply 0).pow_const 2).add ((measurable_pi_apply 1).pow_const 2)
  obtain ⟨next, _, h⟩ := C105_hamiltonian exNames_sorted (m := exChain) (t := exSquares) exChain_limits (fun x _ => exSquares_eval x) hm rfl exFree hm 0
  exact ⟨next, h⟩

-- … and a chain that is at a point
example : ∃ st, ChainAt exChain st ["b", "s"] (fun x => x 0 ^ 2 + x 1 ^ 2) (fun _ => 2) :=
  ⟨{ exChain with curStep := pointDict ["b", "s"] (fun _ => 2), curVal := -8 }, rfl, by simp [chainValue, exChain]; norm_num, rfl, rfl, rfl, rfl⟩

end Oxsx
