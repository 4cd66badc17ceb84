import Verif.Spec.ObjectFits
import Verif.Props.OptimiserRuns
import Verif.Props.SysStatistics
import Verif.Props.JointFit
import Verif.Props.Consistency
set_option linter.unusedSectionVars false
set_option linter.unusedSimpArgs false
set_option linter.unusedVariables false
/-
C112 for the likelihoods of the code: objects with systematics, and sums of likelihoods, in grid searches and Markov chains.
-/
namespace Oxsx
open MeasureTheory ProbabilityTheory Spec
open scoped ENNReal Nat

variable {σ : Type} {k : Nat}

/-! ### Objects that answer like a function -/

theorem NLLH.object_scan (name : Nat → String) (C : FitSys σ ℝ) (M : CMath ℝ) : ∀ (pss : List (ParamDict ℝ)) (L : NLLH σ ℝ), (NLLH.object name C M).scan L pss = NLLH.scan C M L pss := by
  intro pss
  induction pss with
  | nil => intro L; rfl
  | cons p pss ih =>
    intro L
    unfold FitObject.scan NLLH.scan
    simp only [NLLH.object] at ih ⊢
    simp only [ih]

theorem StatSum.object_scan {ι : Type} [DecidableEq ι] (name : Nat → String) (s : StatSum (ι → NLLH σ ℝ) ℝ) (ps : List ι) : ∀ (pss : List (ParamDict ℝ)) (h : ι → NLLH σ ℝ),
    (s.object name ps).scan h pss = s.scan h pss := by
  intro pss
  induction pss with
  | nil => intro L; rfl
  | cons p pss ih =>
    intro L
    unfold FitObject.scan StatSum.scan
    simp only [StatSum.object, StatSum.toStatistic] at ih ⊢
    simp only [ih]

/-- The function that a likelihood with systematics is, at its points. -/
noncomputable def sysStat (C : FitSys σ ℝ) (calls : List ManagerCall) (log : List (BinnedED ℝ × NormStatus)) (cons : ConstraintManager ℝ) (objs : Nat → σ) (ks : List String)
    {m : Nat} (n : Fin m → ℕ) : TestStat ℝ :=
  ⟨ks, fun p => open Classical in if h : ∃ q : (Fin m → ℝ) × ℝ, SysPoint C calls log cons objs ks p q.1 q.2 then .ok (∑ b, poissonTerm (n b) (h.choose.1 b) + h.choose.2) else .ub⟩

section
variable {ks : List String} {name : Nat → String} {C : FitSys σ ℝ} {calls : List ManagerCall} {log : List (BinnedED ℝ × NormStatus)} {L : NLLH σ ℝ} {d : BinnedED ℝ}

theorem sysStat_eval (hC : C.Refreshing) (h : SysSetup name C calls log L d) (n : Fin d.hist.nBins → ℕ) {p : ParamDict ℝ} {μ : Fin d.hist.nBins → ℝ} {c : ℝ}
    (hp : SysPoint C calls log L.constraints L.objs ks p μ c) : (sysStat C calls log L.constraints L.objs ks n).eval p = .ok (∑ b, poissonTerm (n b) (μ b) + c) := by
  have hex : ∃ q : (Fin d.hist.nBins → ℝ) × ℝ, SysPoint C calls log L.constraints L.objs ks p q.1 q.2 := ⟨(μ, c), hp⟩
  refine (dif_pos hex).trans ?_
  have e1 := C111_value hC h [(p, μ, c)] (by simpa using hp) n
  have e2 := C111_value hC h [(p, hex.choose.1, hex.choose.2)] (by simpa using hex.choose_spec) n
  have e := Res.ok.inj (e2.symm.trans e1)
  simp only [List.map_cons, List.map_nil, List.cons.injEq, Option.some.injEq, and_true] at e
  exact congrArg Res.ok e

/-- C112, likelihoods with systematics: the object answers like a function at all its points. -/
theorem sys_answers (hC : C.Refreshing) (h : SysSetup name C calls log L d) (n : Fin d.hist.nBins → ℕ) :
    (NLLH.object name C CMath.real).AnswersLike ((NLLH.object name C CMath.real).register (L.setDataDist (withCounts d n))) (sysStat C calls log L.constraints L.objs ks n) := by
  intro pss hpss
  rw [NLLH.object_scan]
  have hex : ∀ p ∈ pss, ∃ q : (Fin d.hist.nBins → ℝ) × ℝ, SysPoint C calls log L.constraints L.objs ks p q.1 q.2 := by
    intro p hp
    obtain ⟨v, hv⟩ := hpss p hp
    by_contra hne
    have : (sysStat C calls log L.constraints L.objs ks n).eval p = .ub := dif_neg hne
    rw [this] at hv; simp at hv
  classical
  let f : ParamDict ℝ → (Fin d.hist.nBins → ℝ) × ℝ := fun p => if h : ∃ q : (Fin d.hist.nBins → ℝ) × ℝ, SysPoint C calls log L.constraints L.objs ks p q.1 q.2 then h.choose else (0, 0)
  have hf : ∀ p ∈ pss, SysPoint C calls log L.constraints L.objs ks p (f p).1 (f p).2 := by
    intro p hp
    have := (hex p hp).choose_spec
    simp only [f, dif_pos (hex p hp)]
    exact this
  have e := C111_value (ks := ks) hC h (pss.map fun p => (p, f p)) (by
    intro q hq
    obtain ⟨p, hp, rfl⟩ := List.mem_map.1 hq
    exact hf p hp) n
  simp only [List.map_map, Function.comp_def, List.map_id'] at e
  refine e.trans (congrArg Res.ok (List.map_congr_left fun p hp => ?_))
  rw [sysStat_eval hC h n (hf p hp)]
  rfl
end

/-! ### Densities on a box -/

theorem sampledLaw_congr {n : Nat} {lo hi : Fin n → ℝ} {P Q : (Fin n → ℝ) → ℝ} (h : ∀ x ∈ limitBox lo hi, P x = Q x) : sampledLaw lo hi P = sampledLaw lo hi Q := by
  have : targetLaw lo hi P = targetLaw lo hi Q := by
    unfold targetLaw
    refine withDensity_congr_ae ?_
    exact (ae_restrict_iff' (measurableSet_limitBox lo hi)).2 (Filter.Eventually.of_forall fun x hx => by simp only [h x hx])
  unfold sampledLaw
  rw [this]

/-- The nearest point between the limits. -/
noncomputable def clampTo {n : Nat} (lo hi x : Fin n → ℝ) : Fin n → ℝ := fun i => max (lo i) (min (hi i) (x i))

theorem clampTo_continuous {n : Nat} (lo hi : Fin n → ℝ) : Continuous (clampTo lo hi) := by
  unfold clampTo
  fun_prop

theorem clampTo_mem {n : Nat} {lo hi : Fin n → ℝ} (hlt : ∀ i, lo i < hi i) (x : Fin n → ℝ) : clampTo lo hi x ∈ limitBox lo hi :=
  fun i => ⟨le_max_left _ _, max_le (hlt i).le (min_le_left _ _)⟩

theorem clampTo_eq {n : Nat} {lo hi x : Fin n → ℝ} (hx : x ∈ limitBox lo hi) : clampTo lo hi x = x := by
  funext i
  unfold clampTo
  rw [min_eq_right (hx i).2, max_eq_right (hx i).1]

theorem ratesLaw_continuous {X : Type} [TopologicalSpace X] {m : Nat} {M : X → Fin m → ℝ} (hM : Continuous M) (n : Fin m → ℕ) : Continuous fun x => (ratesLaw (M x)).real {n} := by
  simp only [ratesLaw_singleton, poissonMeasure_real_singleton]
  refine continuous_finsetProd _ fun b _ => ?_
  have hr : Continuous fun x => (((M x b).toNNReal : NNReal) : ℝ) := NNReal.continuous_coe.comp (continuous_real_toNNReal.comp ((continuous_apply b).comp hM))
  exact ((Real.continuous_exp.comp hr.neg).mul (hr.pow _)).div_const _

/-- A density that a function is minus the logarithm of, continuous between the limits. -/
theorem density_chain_on {t : TestStat ℝ} {ks : List String} {lo hi : Fin ks.length → ℝ} {P : (Fin ks.length → ℝ) → ℝ} (hP : ContinuousOn P (limitBox lo hi)) {K : ℝ} (hK : 0 < K)
    {m : MCMC ℝ} (hlog : m.logged = true) (hflip : m.flip = true) (hlt : ∀ i, lo i < hi i)
    (H : ∀ x ∈ limitBox lo hi, ∃ v, t.eval (pointDict ks x) = .ok v ∧ Real.exp (-v) = K * P x) :
    ∃ V : (Fin ks.length → ℝ) → ℝ, Measurable V ∧ (∀ x ∈ limitBox lo hi, t.eval (pointDict ks x) = .ok (V x)) ∧
      Bounded lo hi (chainDensity m V) ∧ sampledLaw lo hi (chainDensity m V) = sampledLaw lo hi P := by
  have hc : Continuous fun x => P (clampTo lo hi x) := hP.comp_continuous (clampTo_continuous lo hi) (clampTo_mem hlt)
  obtain ⟨V, a, b, c, e⟩ := density_chain (t := t) hc hK hlog hflip hlt (fun x hx => by
    obtain ⟨v, h1, h2⟩ := H x hx
    exact ⟨v, h1, by rw [clampTo_eq hx]; exact h2⟩)
  exact ⟨V, a, b, c, e.trans (sampledLaw_congr fun x hx => by rw [clampTo_eq hx])⟩

/-! ### Chains on objects -/

section
variable {W : Type} {O : FitObject W ℝ} {w : W} {t : TestStat ℝ} {ks : List String} {lo hi : Fin ks.length → ℝ} {m : MCMC ℝ} {s : MetropolisSampler ℝ} {P : (Fin ks.length → ℝ) → ℝ}

/-- C112, full histogram: a Metropolis chain, logged and with its sign flipped, on an object that answers like the function `t`, which is minus the logarithm of a density `P`, up to a constant
factor, continuous between the limits. -/
theorem C112_histogram (hO : O.AnswersLike (O.register w) t) {ps : ParamDict ℝ} (hn : O.getParameters (O.register w) = .ok ps) (hpk : ps.keys = t.names) (htk : t.names = ks)
    (hk : NamesSorted ks) (hl : HasLimits m ks lo hi) (hmin : m.minima.length = ks.length) (hmax : m.maxima.length = ks.length) (hlt : ∀ i, lo i < hi i)
    (hP : ContinuousOn P (limitBox lo hi)) {K : ℝ} (hK : 0 < K) (hlog : m.logged = true) (hflip : m.flip = true)
    (H : ∀ x ∈ limitBox lo hi, ∃ v, t.eval (pointDict ks x) = .ok v ∧ Real.exp (-v) = K * P x)
    (hs : ∀ i : Fin ks.length, ks[i] ∉ s.fixed ∧ ∃ sg, s.sigmas.find ks[i] = some sg ∧ sg ≠ 0)
    (hf : m.samples.Fresh) (hfull : m.samples.saveFull = true) (hch : m.samples.saveChain = false) (hq : 0 < m.samples.auto.qLen)
    {as : List (BinAxis ℝ)} (hax : (AxisCollection.empty : AxisCollection ℝ).addAxes as = .ok m.samples.axes) (hne : as ≠ []) (hc : ∀ a ∈ as, a.Contiguous)
    (hlen : as.length = ks.length) (hnm : ∀ a ∈ as, a.name ∈ ks) :
    HistogramConverges ks lo hi m s as P fun m r ins m' => ∃ res w', m.optimiseOn Real.exp O w r ins = .ok ((m', res), w') := by
  obtain ⟨V, v1, v2, v3, v4⟩ := density_chain_on hP hK hlog hflip hlt H
  obtain ⟨B, g⟩ := C108_histogram hk (by rw [htk]) hl hmin hmax hlt v2 v1 (Or.inl hlog) v3 hs hf hfull hch hq hax hne hc hlen hnm
  rw [v4] at g
  refine ⟨B, fun x0 hx0 burnIn thin hth N r hN => ?_⟩
  obtain ⟨cnt, c1, c2⟩ := g x0 hx0 burnIn thin hth N r hN
  refine ⟨cnt, fun ω => ?_, c2⟩
  obtain ⟨m', res, e1, e2⟩ := c1 ω
  obtain ⟨w', e3, _⟩ := C112_chain hO hn hpk e1
  exact ⟨m', ⟨res, w', e3⟩, e2⟩

/-- C112, default histograms. -/
theorem C112_marginals (hO : O.AnswersLike (O.register w) t) {ps : ParamDict ℝ} (hn : O.getParameters (O.register w) = .ok ps) (hpk : ps.keys = t.names) (htk : t.names = ks)
    (hk : NamesSorted ks) (hne : ks ≠ []) (hl : HasLimits m ks lo hi) (hmin : m.minima.keys = ks) (hmax : m.maxima.length = ks.length) (hlt : ∀ i, lo i < hi i)
    (hP : ContinuousOn P (limitBox lo hi)) {K : ℝ} (hK : 0 < K) (hlog : m.logged = true) (hflip : m.flip = true)
    (H : ∀ x ∈ limitBox lo hi, ∃ v, t.eval (pointDict ks x) = .ok v ∧ Real.exp (-v) = K * P x)
    (hs : ∀ i : Fin ks.length, ks[i] ∉ s.fixed ∧ ∃ sg, s.sigmas.find ks[i] = some sg ∧ sg ≠ 0)
    (hf : m.samples.Fresh) (hfull : m.samples.saveFull = false) (hch : m.samples.saveChain = false) (hq : 0 < m.samples.auto.qLen) (hax : m.samples.axes.nDims = 0) (hg : 0 < m.nGuess) :
    MarginalsConverge ks lo hi m s P fun m r ins m' => ∃ res w', m.optimiseOn Real.exp O w r ins = .ok ((m', res), w') := by
  obtain ⟨V, v1, v2, v3, v4⟩ := density_chain_on hP hK hlog hflip hlt H
  obtain ⟨B, g⟩ := C108_marginals hk hne (by rw [htk]) hl hmin hmax hlt v2 v1 (Or.inl hlog) v3 hs hf hfull hch hq hax hg
  rw [v4] at g
  refine ⟨B, fun x0 hx0 burnIn thin hth N r hN => ?_⟩
  obtain ⟨one, two, c1, c2⟩ := g x0 hx0 burnIn thin hth N r hN
  refine ⟨one, fun ω => ?_, fun hr => (c2 hr).1⟩
  obtain ⟨m', res, e1, e2, _⟩ := c1 ω
  obtain ⟨w', e3, _⟩ := C112_chain hO hn hpk e1
  exact ⟨m', ⟨res, w', e3⟩, e2⟩
end

/-! ### Likelihoods with systematics -/

section
variable {ks : List String} {name : Nat → String} {C : FitSys σ ℝ} {calls : List ManagerCall} {log : List (BinnedED ℝ × NormStatus)} {L : NLLH σ ℝ} {d : BinnedED ℝ}

/-- C112, a chain on a likelihood with systematics: its object is called once for every step, and the systematics are set and constructed again each time. Still the histogram converges to
the posterior probabilities of systematic parameters and normalisations: the probability of the counts at the distorted rates times the exponential of minus the constraint term. -/
theorem C112_systematics_histogram (hC : C.Refreshing) (h : SysSetup name C calls log L d) (n : Fin d.hist.nBins → ℕ) {ps : ParamDict ℝ}
    (hn : ((L.setDataDist (withCounts d n)).registerFitComponents name).getParameters C = .ok ps) (hpk : ps.keys = ks) (hk : NamesSorted ks)
    {lo hi : Fin ks.length → ℝ} (hlt : ∀ i, lo i < hi i) {M : (Fin ks.length → ℝ) → Fin d.hist.nBins → ℝ} {c : (Fin ks.length → ℝ) → ℝ}
    (hpt : ∀ x ∈ limitBox lo hi, SysPoint C calls log L.constraints L.objs ks (pointDict ks x) (M x) (c x)) (hM : ContinuousOn M (limitBox lo hi)) (hcc : ContinuousOn c (limitBox lo hi))
    {m : MCMC ℝ} (hl : HasLimits m ks lo hi) (hmin : m.minima.length = ks.length) (hmax : m.maxima.length = ks.length) (hlog : m.logged = true) (hflip : m.flip = true)
    {s : MetropolisSampler ℝ} (hs : ∀ i : Fin ks.length, ks[i] ∉ s.fixed ∧ ∃ sg, s.sigmas.find ks[i] = some sg ∧ sg ≠ 0)
    (hf : m.samples.Fresh) (hfull : m.samples.saveFull = true) (hch : m.samples.saveChain = false) (hq : 0 < m.samples.auto.qLen)
    {as : List (BinAxis ℝ)} (hax : (AxisCollection.empty : AxisCollection ℝ).addAxes as = .ok m.samples.axes) (hne : as ≠ []) (hcont : ∀ a ∈ as, a.Contiguous)
    (hlen : as.length = ks.length) (hnm : ∀ a ∈ as, a.name ∈ ks) :
    HistogramConverges ks lo hi m s as (fun x => (ratesLaw (M x)).real {n} * Real.exp (-(c x)))
      fun m r ins m' => ∃ res L', m.optimiseOn Real.exp (NLLH.object name C CMath.real) (L.setDataDist (withCounts d n)) r ins = .ok ((m', res), L') := by
  refine C112_histogram (sys_answers (ks := ks) hC h n) hn hpk rfl hk hl hmin hmax hlt ?_ (K := ∏ b, ((n b)! : ℝ)) ?_ hlog hflip ?_ hs hf hfull hch hq hax hne hcont hlen hnm
  · have h1 : Continuous fun y : Fin d.hist.nBins → ℝ => (ratesLaw y).real {n} := ratesLaw_continuous continuous_id n
    exact (h1.comp_continuousOn hM).mul (Real.continuous_exp.comp_continuousOn hcc.neg)
  · exact Finset.prod_pos fun b _ => by exact_mod_cast Nat.factorial_pos _
  · intro x hx
    refine ⟨_, sysStat_eval hC h n (hpt x hx), ?_⟩
    rw [ratesLaw_singleton, neg_add, Real.exp_add, ← mul_assoc, ← Finset.prod_mul_distrib, ← Finset.sum_neg_distrib, Real.exp_sum]
    exact congrArg (· * _) (Finset.prod_congr rfl fun b _ => poisson_exp ((hpt x hx).positive b) _)

/-- … and so do the histograms kept by default. -/
theorem C112_systematics_marginals (hC : C.Refreshing) (h : SysSetup name C calls log L d) (n : Fin d.hist.nBins → ℕ) {ps : ParamDict ℝ}
    (hn : ((L.setDataDist (withCounts d n)).registerFitComponents name).getParameters C = .ok ps) (hpk : ps.keys = ks) (hk : NamesSorted ks) (hne : ks ≠ [])
    {lo hi : Fin ks.length → ℝ} (hlt : ∀ i, lo i < hi i) {M : (Fin ks.length → ℝ) → Fin d.hist.nBins → ℝ} {c : (Fin ks.length → ℝ) → ℝ}
    (hpt : ∀ x ∈ limitBox lo hi, SysPoint C calls log L.constraints L.objs ks (pointDict ks x) (M x) (c x)) (hM : ContinuousOn M (limitBox lo hi)) (hcc : ContinuousOn c (limitBox lo hi))
    {m : MCMC ℝ} (hl : HasLimits m ks lo hi) (hmin : m.minima.keys = ks) (hmax : m.maxima.length = ks.length) (hlog : m.logged = true) (hflip : m.flip = true)
    {s : MetropolisSampler ℝ} (hs : ∀ i : Fin ks.length, ks[i] ∉ s.fixed ∧ ∃ sg, s.sigmas.find ks[i] = some sg ∧ sg ≠ 0)
    (hf : m.samples.Fresh) (hfull : m.samples.saveFull = false) (hch : m.samples.saveChain = false) (hq : 0 < m.samples.auto.qLen) (hax : m.samples.axes.nDims = 0) (hg : 0 < m.nGuess) :
    MarginalsConverge ks lo hi m s (fun x => (ratesLaw (M x)).real {n} * Real.exp (-(c x)))
      fun m r ins m' => ∃ res L', m.optimiseOn Real.exp (NLLH.object name C CMath.real) (L.setDataDist (withCounts d n)) r ins = .ok ((m', res), L') := by
  refine C112_marginals (sys_answers (ks := ks) hC h n) hn hpk rfl hk hne hl hmin hmax hlt ?_ (K := ∏ b, ((n b)! : ℝ)) ?_ hlog hflip ?_ hs hf hfull hch hq hax hg
  · have h1 : Continuous fun y : Fin d.hist.nBins → ℝ => (ratesLaw y).real {n} := ratesLaw_continuous continuous_id n
    exact (h1.comp_continuousOn hM).mul (Real.continuous_exp.comp_continuousOn hcc.neg)
  · exact Finset.prod_pos fun b _ => by exact_mod_cast Nat.factorial_pos _
  · intro x hx
    refine ⟨_, sysStat_eval hC h n (hpt x hx), ?_⟩
    rw [ratesLaw_singleton, neg_add, Real.exp_add, ← mul_assoc, ← Finset.prod_mul_distrib, ← Finset.sum_neg_distrib, Real.exp_sum]
    exact congrArg (· * _) (Finset.prod_congr rfl fun b _ => poisson_exp ((hpt x hx).positive b) _)

/-- C112, a grid search of two parameters on a likelihood with systematics, with `ps₀` on the grid (not at its very first point, which is not tried: C52): for data at which no point of the
grid has the value zero (C52), it returns a point of the grid that fits the data at least as well as `ps₀`; so the bounds of C111 hold of it. -/
theorem C112_systematics_grid (hC : C.Refreshing) (h : SysSetup name C calls log L d) (n : Fin d.hist.nBins → ℕ) {ps : ParamDict ℝ}
    (hn : ((L.setDataDist (withCounts d n)).registerFitComponents name).getParameters C = .ok ps) {g : GridSearch ℝ} (hg : g.Sensible) (hmin : g.maximising = false) (hN : g.steps.keys.length = 2)
    {M : ParamDict ℝ → Fin d.hist.nBins → ℝ} {c : ParamDict ℝ → ℝ} (hgrid : ∀ p, g.OnGrid p → SysPoint C calls log L.constraints L.objs ks p (M p) (c p) ∧ 0 ≤ c p)
    {ps₀ : ParamDict ℝ} (h₀ : g.OnGrid ps₀) (h₀' : ps₀ ≠ g.minima) (hz : ∀ p, g.OnGrid p → ∑ b, poissonTerm (n b) (M p b) + c p ≠ 0) :
    ∃ n₀ r visited, (∀ fuel, n₀ ≤ fuel → ∃ L', g.optimiseOn (NLLH.object name C CMath.real) (L.setDataDist (withCounts d n)) fuel = some (.ok ((r, visited), L'))) ∧
      g.OnGrid r.bestFit ∧ SysAsGood name C calls log L d ks ps₀ 0 n r.bestFit (M r.bestFit) := by
  obtain ⟨n₀, r, vis, r1, r2, r3, r4⟩ := C52_two_partial hg (t := sysStat C calls log L.constraints L.objs ks n) (fun p hp => ⟨_, sysStat_eval hC h n (hgrid p hp).1⟩) hN
  have hmem : ps₀ ∈ vis := (r3 ps₀).2 ⟨h₀, h₀'⟩
  obtain ⟨a1, a2, a3⟩ := r4 (List.ne_nil_of_mem hmem) (fun p hp hev => by
    have hpg := ((r3 p).1 hp).1
    rw [sysStat_eval hC h n (hgrid p hpg).1] at hev
    exact hz p hpg (Res.ok.inj hev))
  have hbest := ((r3 _).1 a1).1
  refine ⟨n₀, r, vis, fun fuel hfuel => ?_, hbest, c r.bestFit, _, _, (hgrid _ hbest).1, (hgrid _ hbest).2,
    C111_value (ks := ks) hC h [(ps₀, M ps₀, c ps₀), (r.bestFit, M r.bestFit, c r.bestFit)] (by intro q hq; simp only [List.mem_cons, List.not_mem_nil, or_false] at hq; rcases hq with rfl | rfl; exacts [(hgrid _ h₀).1, (hgrid _ hbest).1]) n, ?_⟩
  · obtain ⟨L', e1, _⟩ := C112_grid (sys_answers (ks := ks) hC h n) hn g (r1 fuel hfuel)
    exact ⟨L', e1⟩
  · have b1 := a3 ps₀ h₀ h₀' _ (sysStat_eval hC h n (hgrid _ h₀).1)
    rw [sysStat_eval hC h n (hgrid _ hbest).1] at a2
    simp only [hmin, Bool.false_eq_true, if_false] at a2 b1
    have a2 := Res.ok.inj a2
    linarith
end

/-! ### Joint fits -/

theorem NLLH.Simple.register {name : Nat → String} {log : List (BinnedED ℝ × NormStatus)} {cons : ConstraintManager ℝ} {d : BinnedED ℝ} {L : NLLH σ ℝ} (h : L.Simple log cons d) :
    L.registerFitComponents name = L := by
  have h0 : L.sys.groups.flatMap (·.2) = [] := by
    have := h.sys
    unfold SysManager.countSystematics at this
    rw [List.flatMap_eq_nil_iff]
    intro g hg
    have h1 := List.sum_eq_zero_iff.1 this _ (List.mem_map_of_mem hg)
    exact List.length_eq_zero_iff.1 h1
  unfold NLLH.registerFitComponents
  rw [h0]
  simp only [List.foldl_nil, List.map_nil]
  rw [← h.comp]

/-- The function that a joint fit is, at its points. -/
noncomputable def jointStat (log : Fin k → List (BinnedED ℝ × NormStatus)) (cons : Fin k → ConstraintManager ℝ) (K : ConstraintManager ℝ) (d : Fin k → BinnedED ℝ) (ks : List String) : TestStat ℝ :=
  ⟨ks, fun D => open Classical in if h : ∃ c, JointPoint log cons K d D c then .ok (∑ p, nllAt (log p) (d p) D + h.choose) else .ub⟩

section
variable {ks : List String} {name : Nat → String} {C : FitSys σ ℝ} {objs : Fin k → Nat → σ} {log : Fin k → List (BinnedED ℝ × NormStatus)} {cons : Fin k → ConstraintManager ℝ}
  {K : ConstraintManager ℝ} {d : Fin k → BinnedED ℝ} {init : Fin k → ParamDict ℝ}

theorem joint_answers (hfit : ∀ p, CanFit (log p) (d p)) (hinit : ∀ p, init p ≠ [] ∧ ∀ n ∈ PdfLog.fitted (log p), (SMap.find (init p) n).isSome) {h : Fin k → NLLH σ ℝ}
    (hcfg : ∀ p, NLLH.configured name C (objs p) (log p) (cons p) (init p) (d p) = .ok (h p)) :
    ((jointSum k C K).object name (List.finRange k)).register h = h ∧
    ((jointSum k C K).object name (List.finRange k)).AnswersLike h (jointStat log cons K d ks) ∧
    ∀ D c, JointPoint log cons K d D c → (jointStat log cons K d ks).eval D = .ok (∑ p, nllAt (log p) (d p) D + c) := by
  obtain ⟨h', h1, h2⟩ := C109_value (name := name) (C := C) (objs := objs) (cons := cons) (K := K) hfit hinit
  have hh : h' = h := funext fun p => Res.ok.inj ((h1 p).symm.trans (hcfg p))
  subst hh
  refine ⟨?_, ?_, ?_⟩
  · show (List.finRange k).foldl (fun h p => Function.update h p ((h p).registerFitComponents name)) h' = h'
    have : ∀ l : List (Fin k), l.foldl (fun (h : Fin k → NLLH σ ℝ) p => Function.update h p ((h p).registerFitComponents name)) h' = h' := by
      intro l
      induction l with
      | nil => rfl
      | cons p l ih =>
        obtain ⟨L, g1, g2, _⟩ := NLLH.configured_simple (name := name) (C := C) (objs := objs p) (cons := cons p) (d := d p) (hfit p).distinct (hinit p).1 (hinit p).2
        have e := Res.ok.inj (g1.symm.trans (h1 p))
        subst e
        rw [List.foldl_cons, g2.register, Function.update_eq_self]
        exact ih
    exact this _
  · intro pss hpss
    rw [StatSum.object_scan]
    have hex : ∀ p ∈ pss, ∃ c, JointPoint log cons K d p c := by
      intro p hp
      obtain ⟨v, hv⟩ := hpss p hp
      by_contra hne
      have : (jointStat log cons K d ks).eval p = .ub := dif_neg hne
      rw [this] at hv; simp at hv
    classical
    let f : ParamDict ℝ → ℝ := fun p => if h : ∃ c, JointPoint log cons K d p c then h.choose else 0
    have e := h2 (pss.map fun p => (p, f p)) (by
      intro q hq
      obtain ⟨p, hp, rfl⟩ := List.mem_map.1 hq
      have := (hex p hp).choose_spec
      simp only [f, dif_pos (hex p hp)]
      exact this)
    simp only [List.map_map, Function.comp_def, List.map_id'] at e
    refine e.trans (congrArg Res.ok (List.map_congr_left fun p hp => ?_))
    have : (jointStat log cons K d ks).eval p = .ok (∑ q, nllAt (log q) (d q) p + (hex p hp).choose) := dif_pos (hex p hp)
    rw [this]
    simp only [f, dif_pos (hex p hp)]
    rfl
  · intro D c hD
    have hex : ∃ c, JointPoint log cons K d D c := ⟨c, hD⟩
    have : (jointStat log cons K d ks).eval D = .ok (∑ q, nllAt (log q) (d q) D + hex.choose) := dif_pos hex
    rw [this]
    have e1 := h2 [(D, c)] (by simpa using hD)
    have e2 := h2 [(D, hex.choose)] (by simpa using hex.choose_spec)
    have e := Res.ok.inj (e2.symm.trans e1)
    simp only [List.map_cons, List.map_nil, List.cons.injEq, Option.some.injEq, and_true] at e
    exact congrArg Res.ok e
end

/-- C112, a chain on a sum of likelihoods: `k` channels, each an object of its own, set and evaluated in turn at every step. The histograms kept by default converge to the joint posterior probabilities. -/
theorem C112_joint_marginals {name : Nat → String} {C : FitSys σ ℝ} {objs : Fin k → Nat → σ} {log : Fin k → List (BinnedED ℝ × NormStatus)} {d : Fin k → BinnedED ℝ} (hfit : ∀ p, CanFit (log p) (d p))
    {cs : Fin k → List (String × ℝ × ℝ)} {cs₀ : List (String × ℝ × ℝ)}
    (hcs : ∀ p, GoodGaussians (cs p) ∧ ∀ q ∈ cs p, q.1 ∈ PdfLog.fitted (log p)) (hcs₀ : GoodGaussians cs₀ ∧ ∀ q ∈ cs₀, ∃ p, q.1 ∈ PdfLog.fitted (log p))
    {n : ∀ p, Fin (d p).hist.nBins → ℕ} (hn : ∀ p b, countIn (d p) b.1 = n p b) {init : Fin k → ParamDict ℝ}
    (hinit : ∀ p, init p ≠ [] ∧ SMap.Sorted (init p) ∧ ∀ n ∈ PdfLog.fitted (log p), (SMap.find (init p) n).isSome)
    {ks : List String} (hk : NamesSorted ks) (hne : ks ≠ []) (hall : ∀ x, x ∈ ks ↔ ∃ p, x ∈ PdfLog.fitted (log p))
    {m : MCMC ℝ} (hlog : m.logged = true) (hflip : m.flip = true) {lo hi : Fin ks.length → ℝ} (hl : HasLimits m ks lo hi) (hmin : m.minima.keys = ks) (hmax : m.maxima.length = ks.length)
    (hlt : ∀ i, lo i < hi i) (hpos : ∀ x ∈ limitBox lo hi, ∀ p b, b < (d p).hist.nBins → 0 < rateAt (log p) (pointDict ks x) b)
    {s : MetropolisSampler ℝ} (hs : ∀ i : Fin ks.length, ks[i] ∉ s.fixed ∧ ∃ sg, s.sigmas.find ks[i] = some sg ∧ sg ≠ 0)
    (hf : m.samples.Fresh) (hfull : m.samples.saveFull = false) (hch : m.samples.saveChain = false) (hq : 0 < m.samples.auto.qLen) (hax : m.samples.axes.nDims = 0) (hg : 0 < m.nGuess) :
    ∃ (cons : Fin k → ConstraintManager ℝ) (K : ConstraintManager ℝ) (h : Fin k → NLLH σ ℝ),
      (∀ p, setGaussians (cs p) = .ok (cons p)) ∧ setGaussians cs₀ = .ok K ∧
      (∀ p, NLLH.configured name C (objs p) (log p) (cons p) (init p) (d p) = .ok (h p)) ∧
      MarginalsConverge ks lo hi m s (fun x => jointPosterior log cs cs₀ n (pointDict ks x))
        fun m r ins m' => ∃ res h', m.optimiseOn Real.exp ((jointSum k C K).object name (List.finRange k)) h r ins = .ok ((m', res), h') := by
  obtain ⟨cons, K, F, e1, e2, hF, H⟩ := joint_constraints hfit hcs hcs₀ hn
  have hex : ∀ p, ∃ L, NLLH.configured name C (objs p) (log p) (cons p) (init p) (d p) = .ok L := by
    intro p
    obtain ⟨L, h1, _⟩ := NLLH.configured_simple (name := name) (C := C) (objs := objs p) (cons := cons p) (d := d p) (hfit p).distinct (hinit p).1 (hinit p).2.2
    exact ⟨L, h1⟩
  choose h h1 using hex
  refine ⟨cons, K, h, e1, e2, h1, ?_⟩
  obtain ⟨a1, a2, a3⟩ := joint_answers (ks := ks) (K := K) hfit (fun p => ⟨(hinit p).1, (hinit p).2.2⟩) h1
  obtain ⟨ns, n1, n2, n3⟩ := joint_names (K := K) hfit hinit h1
  unfold StatSum.getParameterNames at n1
  obtain ⟨ps, p1, n1⟩ := Res.bind_eq_ok.1 n1
  have hkeys : ps.keys = ks := (Res.ok.inj n1).trans (n2.eq_of_mem_iff hk fun x => (n3 x).trans (hall x).symm)
  refine C112_marginals (t := jointStat log cons K d ks) (by rw [a1]; exact a2) (ps := ps) (by rw [a1]; exact p1) hkeys rfl hk hne hl hmin hmax hlt
    (jointPosterior_continuous hk log cs cs₀ n).continuousOn hF hlog hflip (fun x hx => ?_) hs hf hfull hch hq hax hg
  obtain ⟨c, hc, hv⟩ := H (pointDict ks x) ⟨fun hh => hne (by rw [← pointDict_keys ks x, hh]; rfl), pointDict_sorted hk x, fun p y hy => by
    obtain ⟨i, rfl⟩ := names_get ((hall y).2 ⟨p, hy⟩)
    rw [pointDict_find hk]; rfl, hpos x hx⟩
  exact ⟨_, a3 _ c hc, hv⟩

/-! ### Concrete cases -/

/-- A statistic that counts how often it has been evaluated. -/
noncomputable def exCounter : FitObject Nat ℝ where
  evaluate w := .ok (some 2, w + 1)
  setParameters w d := (w, .ok ())
  getParameters w := .ok [("a", 1), ("b", 1)]
  register w := w

theorem exCounter_scan (w : Nat) (pss : List (ParamDict ℝ)) : exCounter.scan w pss = .ok (pss.map fun _ => some 2) := by
  induction pss generalizing w with
  | nil => rfl
  | cons p pss ih =>
    unfold FitObject.scan
    show (exCounter.scan (w + 1) pss >>= fun vs => Res.ok (some 2 :: vs)) = _
    rw [ih]; rfl

-- it answers like a constant function, whatever the count
example (w : Nat) : exCounter.AnswersLike w ⟨["a", "b"], fun _ => .ok 2⟩ := fun pss _ => exCounter_scan w pss

-- one whose value is the count does not answer like any function with two points
example (w : Nat) : ¬ ∃ t : TestStat ℝ, (∃ v, t.eval [("a", 1)] = .ok v) ∧ ({ exCounter with evaluate := fun w => .ok (some (w : ℝ), w + 1) } : FitObject Nat ℝ).AnswersLike w t := by
  rintro ⟨t, ⟨v, hv⟩, h⟩
  have := h [[("a", 1)], [("a", 1)]] (by simp [hv])
  have e : (Res.ok [some (w : ℝ), some ((w + 1 : ℕ) : ℝ)] : Res (List (Fl ℝ))) = .ok ([[("a", 1)], [("a", 1)]].map fun p => (t.eval p).toOption) := this
  simp only [List.map_cons, List.map_nil, hv, Res.toOption] at e
  have e := Res.ok.inj e
  simp only [List.cons.injEq, Option.some.injEq, and_true] at e
  have : ((w + 1 : ℕ) : ℝ) = w := e.2.trans e.1.symm
  push_cast at this
  linarith

theorem exGainNames_sorted : NamesSorted ["g", "s"] := by
  show List.Pairwise _ _
  simp only [List.pairwise_cons, List.mem_singleton, forall_eq, List.not_mem_nil, false_implies, implies_true, List.Pairwise.nil, and_true]
  decide +kernel

/-- A logged chain with its sign flipped, between 1 and 10 in gain and normalisation. -/
noncomputable def exGainChain : MCMC ℝ :=
  { (MCMC.new : MCMC ℝ) with logged := true, flip := true, minima := [("g", 1), ("s", 1)], maxima := [("g", 10), ("s", 10)], nGuess := 10 }

theorem exGain_parameters (n : Fin 2 → ℕ) :
    ∃ ps, ((exGainBase.setDataDist (withCounts (exRealPdf "d" 0 0) n)).registerFitComponents exSysName).getParameters exGain = .ok ps ∧ ps.keys = ["g", "s"] := by
  refine ⟨_, rfl, ?_⟩
  show SMap.keys (SMap.insertAll (SMap.insertAll [] (SMap.insert "s" (0 : ℝ) [])) [("g", (1 : ℝ))]) = _
  have h : ("g" : String) < "s" := by decide +kernel
  have h' : ¬ ("s" : String) < "g" := by decide +kernel
  simp [SMap.insertAll, SMap.insert, SMap.insertNew, SMap.keys, SMap.find, h, h']

theorem exGain_pointDict (x : Fin 2 → ℝ) : pointDict ["g", "s"] x = [("g", x 0), ("s", x 1)] := by
  simp [pointDict, List.ofFn_succ]

-- gain and normalisation, with counts 4 and 5: the histograms kept by default converge
example : MarginalsConverge ["g", "s"] (fun _ => 1) (fun _ => 10) exGainChain ⟨[("g", 1/2), ("s", 2)], []⟩
    (fun x => (ratesLaw (![x 1 * (x 0 / 2), x 1 * (1 / 2)] : Fin 2 → ℝ)).real {![4, 5]} * Real.exp (-0))
    fun m r ins m' => ∃ res L', m.optimiseOn Real.exp (NLLH.object exSysName exGain CMath.real) (exGainBase.setDataDist (withCounts (exRealPdf "d" 0 0) ![4, 5])) r ins = .ok ((m', res), L') := by
  obtain ⟨ps, h1, h2⟩ := exGain_parameters ![4, 5]
  exact C112_systematics_marginals (ks := ["g", "s"]) (d := exRealPdf "d" 0 0) (M := fun x : Fin 2 → ℝ => (![x 1 * (x 0 / 2), x 1 * (1 / 2)] : Fin 2 → ℝ)) (c := fun _ => 0) exGain_refreshing exGainBase_setup ![4, 5]
    h1 h2 exGainNames_sorted (by simp) (fun _ => by norm_num) (by
      intro x hx
      rw [exGain_pointDict x]
      have a0 := (hx 0).1
      have a1 := (hx 1).1
      exact exGain_point (by linarith) (by linarith)) (by
      refine Continuous.continuousOn (continuous_pi fun b => ?_)
      fin_cases b
      · show Continuous fun x : Fin 2 → ℝ => x 1 * (x 0 / 2); fun_prop
      · show Continuous fun x : Fin 2 → ℝ => x 1 * (1 / 2); fun_prop) continuousOn_const
    ⟨by intro i; fin_cases i <;> simp [exGainChain, SMap.find], by intro i; fin_cases i <;> simp [exGainChain, SMap.find]⟩ rfl rfl rfl rfl (by
      intro i
      fin_cases i
      · exact ⟨by simp, 1/2, by simp [SMap.find], by norm_num⟩
      · exact ⟨by simp, 2, by simp [SMap.find], by norm_num⟩)
    ⟨rfl, rfl, rfl, rfl⟩ rfl rfl (by show 0 < 1000; omega) rfl (by show 0 < 10; omega)

/-- Ten by ten points. -/
noncomputable def exGainGrid : GridSearch ℝ := ⟨[("g", 1), ("s", 1)], [("g", 10), ("s", 10)], [("g", 1), ("s", 1)], false⟩

theorem exGain_dict (g s : ℝ) : SMap.Sorted ([("g", g), ("s", s)] : ParamDict ℝ) := by
  show List.Pairwise _ _
  simp only [List.pairwise_cons, List.mem_singleton, forall_eq, List.not_mem_nil, false_implies, implies_true, List.Pairwise.nil, and_true]
  decide +kernel

theorem exGainGrid_sensible : exGainGrid.Sensible where
  mins := exGain_dict _ _
  maxs := exGain_dict _ _
  sts := exGain_dict _ _
  same1 := rfl
  same2 := rfl
  axes := by
    intro n lo hi st h1 h2 h3
    have hn : n = "g" ∨ n = "s" := by
      by_contra hno
      push Not at hno
      simp [exGainGrid, SMap.find, hno.1.symm, hno.2.symm] at h1
    rcases hn with rfl | rfl
    · simp [exGainGrid, SMap.find] at h1 h2 h3
      subst h1; subst h2; subst h3; norm_num
    · simp [exGainGrid, SMap.find] at h1 h2 h3
      subst h1; subst h2; subst h3; norm_num
  differ := by simp [exGainGrid]

theorem exGainGrid_on {p : ParamDict ℝ} (hp : exGainGrid.OnGrid p) : ∃ g s : ℝ, 1 ≤ g ∧ 1 ≤ s ∧ p = [("g", g), ("s", s)] := by
  obtain ⟨h1, h2, h3⟩ := hp
  have hk : p.keys = ["g", "s"] := h2
  have : ∃ b s : ℝ, p = [("g", b), ("s", s)] := by
    rcases p with _ | ⟨⟨k1, v1⟩, _ | ⟨⟨k2, v2⟩, _ | ⟨q, p⟩⟩⟩
    · simp [SMap.keys] at hk
    · simp [SMap.keys] at hk
    · simp only [SMap.keys, List.map_cons, List.map_nil, List.cons.injEq, and_true] at hk
      obtain ⟨rfl, rfl⟩ := hk
      exact ⟨v1, v2, rfl⟩
    · simp [SMap.keys] at hk
  obtain ⟨b, s, rfl⟩ := this
  have a := h3 "g" 1 10 1 (by simp [exGainGrid, SMap.find]) (by simp [exGainGrid, SMap.find]) (by simp [exGainGrid, SMap.find])
  have c := h3 "s" 1 10 1 (by simp [exGainGrid, SMap.find]) (by simp [exGainGrid, SMap.find]) (by simp [exGainGrid, SMap.find])
  simp [SMap.find] at a c
  obtain ⟨i, hi, _⟩ := a
  obtain ⟨j, hj, _⟩ := c
  have hi0 : (0 : ℝ) ≤ i := Nat.cast_nonneg i
  have hj0 : (0 : ℝ) ≤ j := Nat.cast_nonneg j
  exact ⟨b, s, by linarith, by linarith, rfl⟩

-- no events at all: the search returns a point with rates no larger in sum
example : ∃ n₀ r visited, (∀ fuel, n₀ ≤ fuel → ∃ L', exGainGrid.optimiseOn (NLLH.object exSysName exGain CMath.real) (exGainBase.setDataDist (withCounts (exRealPdf "d" 0 0) ![0, 0])) fuel =
      some (.ok ((r, visited), L'))) ∧ exGainGrid.OnGrid r.bestFit := by
  obtain ⟨ps, h1, _⟩ := exGain_parameters ![0, 0]
  obtain ⟨n₀, r, vis, g1, g2, _⟩ := C112_systematics_grid (ks := ["g", "s"]) (d := exRealPdf "d" 0 0) exGain_refreshing exGainBase_setup ![0, 0] h1 exGainGrid_sensible rfl rfl
    (M := fun p => (![((SMap.find p "s").getD 0) * (((SMap.find p "g").getD 0) / 2), ((SMap.find p "s").getD 0) * (1 / 2)] : Fin 2 → ℝ)) (c := fun _ => 0) (by
      intro p hp
      obtain ⟨g, s, hg, hs, rfl⟩ := exGainGrid_on hp
      refine ⟨?_, le_rfl⟩
      exact exGain_point (g := g) (s := s) (by linarith) (by linarith)) (ps₀ := [("g", 3), ("s", 2)]) (by
    refine ⟨exGain_dict _ _, rfl, fun n lo hi st h1 h2 h3 => ?_⟩
    have hn : n = "g" ∨ n = "s" := by
      by_contra hno
      push Not at hno
      simp [exGainGrid, SMap.find, hno.1.symm, hno.2.symm] at h1
    rcases hn with rfl | rfl
    · simp [exGainGrid, SMap.find] at h1 h2 h3
      subst h1; subst h2; subst h3
      simp [SMap.find]
      exact ⟨2, by norm_num, by norm_num⟩
    · simp [exGainGrid, SMap.find] at h1 h2 h3
      subst h1; subst h2; subst h3
      simp [SMap.find]
      exact ⟨1, by norm_num, by norm_num⟩) (by simp [exGainGrid]) (by
    intro p hp
    obtain ⟨g, s, hg, hs, rfl⟩ := exGainGrid_on hp
    have e := Fin.sum_univ_two (f := fun b : Fin 2 => poissonTerm (((![0, 0] : Fin 2 → ℕ) b : ℕ) : ℝ) ((![s * (g / 2), s * (1 / 2)] : Fin 2 → ℝ) b))
    have e' : ∑ b : Fin 2, poissonTerm (((![0, 0] : Fin 2 → ℕ) b : ℕ) : ℝ) ((![s * (g / 2), s * (1 / 2)] : Fin 2 → ℝ) b) + 0 = s * (g / 2) + s * (1 / 2) := by
      rw [e]; simp [poissonTerm]
    have hne : s * (g / 2) + s * (1 / 2) ≠ 0 := by positivity
    intro hz
    exact hne (e'.symm.trans hz))
  exact ⟨n₀, r, vis, g1, g2⟩

-- the joint fit of both channels
example (C : FitSys σ ℝ) (objs : Nat → σ) : ∃ (K : ConstraintManager ℝ) (h : Fin 2 → NLLH σ ℝ), setGaussians [("b", 3, 1/2)] = .ok K ∧
    MarginalsConverge ["b", "s"] (fun _ => 1) (fun _ => 10) { exChain with nGuess := 10, samples := MCMCSamples.new } exWalk
      (fun x => jointPosterior exJoint (fun _ => []) [("b", 3, 1/2)] (fun _ : Fin 2 => (![4, 5] : Fin 2 → ℕ)) (pointDict ["b", "s"] x))
      fun m r ins m' => ∃ res h', m.optimiseOn Real.exp ((jointSum 2 C K).object exSysName (List.finRange 2)) h r ins = .ok ((m', res), h') := by
  obtain ⟨cons, K, h, _, h1, _, h2⟩ := C112_joint_marginals (name := exSysName) (C := C) (objs := fun _ => objs) (log := exJoint) (d := fun _ => exRealPdf "d" 4 5) (exJoint_canFit 4 5)
    (cs := fun _ => []) (cs₀ := [("b", 3, 1/2)]) (fun p => ⟨⟨by simp, by simp⟩, by simp⟩) ⟨exJoint_gaussian, by
      intro q hq
      rw [List.mem_singleton] at hq
      subst hq
      exact (exJoint_fitted "b").1 (by simp)⟩ (n := fun _ => ![4, 5]) (fun _ => exTwo_counts) (init := fun _ => [("b", 1), ("s", 1)])
    (exJoint_init 1 1) exNames_sorted (by simp) exJoint_fitted
      (m := { exChain with nGuess := 10, samples := MCMCSamples.new }) rfl rfl (lo := fun _ => 1) (hi := fun _ => 10)
      ⟨exChain_limits.low, exChain_limits.high⟩ rfl rfl (fun _ => by norm_num) (by
        intro x hx p b hb
        have e : pointDict ["b", "s"] x = [("b", x ⟨0, by decide⟩), ("s", x ⟨1, by decide⟩)] := by simp [pointDict, List.ofFn_succ]
        have a0 := (hx ⟨0, by decide⟩).1
        have a1 := (hx ⟨1, by decide⟩).1
        rw [e]
        exact exJoint_positive 4 5 (by linarith) (by linarith) p b hb) (s := exWalk) exWalk_widths
      ⟨rfl, rfl, rfl, rfl⟩ rfl rfl (by show 0 < 1000; omega) rfl (by show 0 < 10; omega)
  exact ⟨K, h, h1, h2⟩

end Oxsx
