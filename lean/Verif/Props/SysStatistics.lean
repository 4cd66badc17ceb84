import Verif.Spec.SysFit
import Verif.Props.LikelihoodSet
import Verif.Props.Consistency
import Verif.Model.FitSystematics
set_option linter.unusedSectionVars false
set_option linter.unusedSimpArgs false
set_option linter.unusedVariables false
/-
C111: the statistical meaning of fits with systematics.
-/
namespace Oxsx
open MeasureTheory ProbabilityTheory NLLH
open scoped ENNReal Nat

variable {σ : Type} {m : Nat}

theorem FitSys.sets_append (C : FitSys σ ℝ) (s : σ) (ds es : List (ParamDict ℝ)) : C.sets s (ds ++ es) = C.sets (C.sets s ds) es := by
  unfold FitSys.sets; rw [List.foldl_append]

/-! ### One point of a fit -/

/-- What a fit that keeps setting parameters and evaluating leaves alone. -/
structure SysTrace (name : Nat → String) (C : FitSys σ ℝ) (calls : List ManagerCall) (log : List (BinnedED ℝ × NormStatus)) (cons : ConstraintManager ℝ) (objs : Nat → σ)
    (ks : List String) (d : BinnedED ℝ) (L : NLLH σ ℝ) : Prop where
  setup : SysSetup name C calls log L d
  registered : L.registerFitComponents name = L
  data : L.dataDist = d
  calculated : L.calculated = true
  constraints : L.constraints = cons
  objects : ∀ p ∈ SysLog.added calls, ∃ ds : List (ParamDict ℝ), (∀ d ∈ ds, SMap.keys d = ks) ∧ C.Equiv (L.objs p) (C.sets (objs p) ds)

theorem SMap.find_filter_pred {β : Type} (P : String → Prop) [DecidablePred P] {m : SMap β} (hs : SMap.Sorted m) (k : String) :
    SMap.find (m.filter fun q => decide (P q.1)) k = if P k then SMap.find m k else none := by
  induction m with
  | nil => simp [SMap.find]
  | cons q m ih =>
    have hm : SMap.Sorted m := by
      unfold SMap.Sorted at hs ⊢
      exact (List.pairwise_cons.1 hs).2
    by_cases hq : P q.1
    · rw [List.filter_cons_of_pos (by simpa using hq)]
      by_cases hk : q.1 = k
      · subst hk
        simp [SMap.find, hq]
      · have := ih hm
        simp only [SMap.find, if_neg hk] at this ⊢
        exact this
    · rw [List.filter_cons_of_neg (by simpa using hq), ih hm]
      by_cases hk : q.1 = k
      · subst hk; simp [hq]
      · simp [SMap.find, hk]

theorem NLLH.getParameters_sorted {C : FitSys σ ℝ} {L : NLLH σ ℝ} {g : ParamDict ℝ} (h : L.getParameters C = .ok g) : SMap.Sorted g := by
  unfold NLLH.getParameters at h
  have gen : ∀ (cs : List NllhComponent) (pd g : ParamDict ℝ), SMap.Sorted pd → Res.forFold (fun (pd : ParamDict ℝ) c => do
      let d ← L.componentParameters C c
      pure (pd.insertAll d)) pd cs = .ok g → SMap.Sorted g := by
    intro cs
    induction cs with
    | nil => intro pd g hp h; cases h; exact hp
    | cons c cs ih =>
      intro pd g hp h
      obtain ⟨s, h1, h2⟩ := Res.forFold_cons_eq_ok.1 h
      obtain ⟨d', h3, h4⟩ := Res.bind_eq_ok.1 h1
      cases h4
      exact ih _ g (SMap.sorted_insertAll hp d') h2
  exact gen _ _ g SMap.sorted_nil h

theorem SysTrace.step {ks : List String} {name : Nat → String} {C : FitSys σ ℝ} (hC : C.Refreshing) {calls : List ManagerCall} {log : List (BinnedED ℝ × NormStatus)} {cons : ConstraintManager ℝ} {objs : Nat → σ}
    {d : BinnedED ℝ} {L : NLLH σ ℝ} (h : SysTrace name C calls log cons objs ks d L) (hdata : d.hist.contents.length = d.hist.nBins) {ps : ParamDict ℝ} {μ : Fin d.hist.nBins → ℝ} {c : ℝ}
    (hp : SysPoint C calls log cons objs ks ps μ c) :
    (L.setParameters C ps).2 = .ok () ∧ ∃ L', (L.setParameters C ps).1.evaluate C CMath.real = .ok (some (∑ b : Fin d.hist.nBins, poissonTerm (countIn d b) (μ b) + c), L') ∧
      SysTrace name C calls log cons objs ks d L' := by
  classical
  obtain ⟨hs, hreg, hdat, hcal, hcons, hobj⟩ := h
  obtain ⟨R, cs, r1, r2, r3, r4, r5⟩ := hp.rates
  obtain ⟨own, o1, o2⟩ := hp.constraint
  have hacc : ∀ p ∈ SysLog.added calls, (C.setParameters (L.objs p) ps).2 = .ok () := by
    intro p hpa
    obtain ⟨ds, hds, e⟩ := hobj p hpa
    rw [e.outcome ps]
    exact hp.accepted p hpa ds hds
  obtain ⟨L1, s1, s2, s3, s4⟩ := C89_reaches_partial hs.recorded hs.names hs.distinct hp.nonempty hp.all hacc
  have hobj1 : ∀ p ∈ SysLog.added calls, ∃ ds : List (ParamDict ℝ), (∀ d ∈ ds, SMap.keys d = ks) ∧ C.Equiv (L1.objs p) (C.sets (objs p) (ds ++ [ps])) := by
    intro p hpa
    obtain ⟨ds, hds, e⟩ := hobj p hpa
    refine ⟨ds, hds, ?_⟩
    rw [s3 p hpa, FitSys.sets_append]
    exact e.set ps
  obtain ⟨g, g1, g2⟩ := C89_read_back_partial hs.recorded hs.names hs.distinct hp.nonempty hp.all hacc own (by
    intro p hpa
    obtain ⟨ds, hds, e⟩ := hobj1 p hpa
    rw [← s3 p hpa, e.params]
    exact o1 p hpa ds hds) s1
  have hg : g = ps.filter fun q => q.1 ∈ PdfLog.fitted log ∨ ∃ p ∈ SysLog.added calls, (SMap.find (own p) q.1).isSome := by
    refine SMap.ext (NLLH.getParameters_sorted g1) (hp.sorted.filter _) (fun k => ?_)
    rw [g2 k, SMap.find_filter_pred (fun k => k ∈ PdfLog.fitted log ∨ ∃ p ∈ SysLog.added calls, (SMap.find (own p) k).isSome) hp.sorted]
  have hset : L.setParameters C ps = (L1, .ok ()) := by rw [← s1, hreg]
  -- what setting leaves alone
  obtain ⟨psl, _, _, _, hfull⟩ := NLLH.set_reaches hs.recorded hs.names hs.distinct hp.nonempty hp.all hacc
  rw [s1] at hfull
  have hL1 := (Prod.mk.inj hfull).1
  have hrec1 : Recorded name C CMath.real calls log L1 := by
    have := hs.recorded.setParameters ps
    rwa [hset] at this
  have f1 : L1.useBB = false := by rw [hL1]; exact hs.noBB
  have f2 : L1.shrinker.buffers = [] := by rw [hL1]; exact hs.noBuffers
  have f3 : L1.calculated = true := by rw [hL1]; exact hcal
  have f4 : L1.dataDist = d := by rw [hL1]; exact hdat
  have f5 : L1.constraints = cons := by rw [hL1]; exact hcons
  have f6 : L1.components = L.components := by
    rw [hL1]
    show (L.registerFitComponents name).components = _
    rw [hreg]
  have f7 : L1.sys = L.sys := by rw [hL1]; rfl
  obtain ⟨R', cs', k1, k2, k3, _, k5⟩ := C87_outcome_partial hC hrec1 hs.systematics f1 f2 f3 hs.distinct hs.order (by rw [f4]; exact hdata) d.hist.nBins (by rw [f4])
    (by rw [f4]; exact hs.binning) (by
      intro p hpa
      obtain ⟨ds, hds, e⟩ := hobj1 p hpa
      obtain ⟨s, t1, t2⟩ := r1 p hpa ds hds
      exact ⟨s, by rw [e.construct]; exact t1, by rw [t2]; exact r2 p hpa⟩)
    (fun n => (SMap.find ps n).getD 0) (by
      intro n hn
      obtain ⟨v, hv⟩ := Option.isSome_iff_exists.1 (hp.all n hn)
      rw [hv]
      exact s2 n hn v hv) g1 (c := some c) (by rw [f5, hg]; exact o2)
  -- the responses and rates are those of the point
  have hR : ∀ p ∈ SysLog.added calls, R' p = R p := by
    intro p hpa
    obtain ⟨s, t1, t2⟩ := k1 p hpa
    obtain ⟨ds, hds, e⟩ := hobj1 p hpa
    obtain ⟨s', u1, u2⟩ := r1 p hpa ds hds
    rw [e.construct, u1] at t1
    cases t1
    rw [← t2, u2]
  have hact : ∀ gs, (SysLog.acting calls gs).map R' = (SysLog.acting calls gs).map R := by
    intro gs
    refine List.map_congr_left fun p hpm => hR p ?_
    unfold SysLog.acting at hpm
    rcases List.mem_append.1 hpm with hpm | hpm
    · split at hpm
      · cases hpm
      · exact SysManager.members_added hpm
    · obtain ⟨g, _, hpm⟩ := List.mem_flatMap.1 hpm
      exact SysManager.members_added hpm
  have hcs : cs' = cs := by
    refine List.ext_getElem? fun j => ?_
    cases hj : log[j]? with
    | none =>
      have hl := List.getElem?_eq_none_iff.1 hj
      rw [List.getElem?_eq_none (by omega), List.getElem?_eq_none (by omega)]
    | some p =>
      obtain ⟨gs, v, a1, a2, a3⟩ := r4 j p hj
      obtain ⟨gs', v', b1, b2, b3⟩ := k3 j p hj
      rw [a1] at b1
      cases b1
      unfold Distorts at a3 b3
      rw [hact, a3] at b3
      cases b3
      rw [a2, b2]
  subst hcs
  have hpos : ∀ b, b < d.hist.nBins → 0 < distortedRate (fun n => (SMap.find ps n).getD 0) log cs' b := by
    intro b hb
    rw [← r5 ⟨b, hb⟩]
    exact hp.positive ⟨b, hb⟩
  rw [f4] at k5
  obtain ⟨L', hev⟩ := k5 (fun b hb => (hpos b hb).ne')
  rw [if_pos hpos] at hev
  have hval : ((List.range d.hist.nBins).map (fun b => poissonTerm (d.hist.contents.getD b 0) (distortedRate (fun n => (SMap.find ps n).getD 0) log cs' b))).sum =
      ∑ b : Fin d.hist.nBins, poissonTerm (countIn d b) (μ b) := by
    rw [sum_range_fin]
    exact Finset.sum_congr rfl fun b _ => by rw [r5 b]; rfl
  rw [hval] at hev
  have hrec' := hrec1.evaluate hev
  obtain ⟨sm, ob, m0, m1, m2, v1, m3, ps', c', _, hcon, _, _, _, _, _, _, hL'⟩ := evaluate_parts f3 f2 hev
  have hgroups : sm.groups = L1.sys.groups := (SysManager.construct_responses C.toSysClass _ sm _ ob hrec1.facts.2.1.sorted hcon).1
  rw [hset]
  refine ⟨rfl, L', hev, ⟨hrec', hs.systematics, hs.names, by rw [hL']; exact f1, by rw [hL']; exact f2, hs.distinct, hs.order, hs.binning⟩, ?_, by rw [hL']; exact f4, by rw [hL']; rfl,
    by rw [hL']; exact f5, ?_⟩
  · rw [hL']
    have hc2 : L.components = (L.registerFitComponents name).components := by rw [hreg]
    unfold NLLH.registerFitComponents NLLH.after
    simp only [hgroups, f7, f6]
    congr 1
    rw [hc2]
    rfl
  · intro p hpa
    obtain ⟨ds, hds, e⟩ := hobj1 p hpa
    refine ⟨ds ++ [ps], by simpa [or_imp, forall_and] using ⟨hds, hp.names⟩, ?_⟩
    rw [hL']
    exact (SysManager.construct_equiv hC hcon p).trans e

/-! ### The values of a fit -/

theorem SysTrace.scan {ks : List String} {name : Nat → String} {C : FitSys σ ℝ} (hC : C.Refreshing) {calls : List ManagerCall} {log : List (BinnedED ℝ × NormStatus)} {cons : ConstraintManager ℝ} {objs : Nat → σ}
    {d : BinnedED ℝ} (hdata : d.hist.contents.length = d.hist.nBins) (pts : List (ParamDict ℝ × (Fin d.hist.nBins → ℝ) × ℝ)) (hpts : ∀ q ∈ pts, SysPoint C calls log cons objs ks q.1 q.2.1 q.2.2)
    {L : NLLH σ ℝ} (h : SysTrace name C calls log cons objs ks d L) :
    NLLH.scan C CMath.real L (pts.map (·.1)) = .ok (pts.map fun q => some (∑ b : Fin d.hist.nBins, poissonTerm (countIn d b) (q.2.1 b) + q.2.2)) := by
  induction pts generalizing L with
  | nil => rfl
  | cons q pts ih =>
    obtain ⟨h1, L', h2, h3⟩ := h.step hC hdata (hpts q List.mem_cons_self)
    have h4 := ih (fun q hq => hpts q (List.mem_cons_of_mem _ hq)) h3
    simp only [List.map_cons, NLLH.scan]
    rw [h1]
    simp only [Res.ok_bind]
    rw [h2]
    simp only [Res.ok_bind]
    rw [h4]
    rfl

theorem sysTrace_start (ks : List String) {name : Nat → String} {C : FitSys σ ℝ} {calls : List ManagerCall} {log : List (BinnedED ℝ × NormStatus)} {L : NLLH σ ℝ} {d : BinnedED ℝ}
    (h : SysSetup name C calls log L d) (n : Fin d.hist.nBins → ℕ) :
    SysTrace name C calls log L.constraints L.objs ks (withCounts d n) ((L.setDataDist (withCounts d n)).registerFitComponents name) where
  setup := ⟨(h.recorded.setDataDist _).registerFitComponents, h.systematics, h.names, h.noBB, h.noBuffers, h.distinct, h.order, h.binning⟩
  registered := rfl
  data := rfl
  calculated := rfl
  constraints := rfl
  objects := fun p _ => ⟨[], by simp, .refl C _⟩

/-- C111, the value: the likelihood is given data with the counts `n`, its components are registered, and any points are tried one after the other. At every point it sees
the sum over the bins of `μ - n log μ` plus the constraint term, with the rates of that point: neither the order of the points nor anything before matters. -/
theorem C111_value {ks : List String} {name : Nat → String} {C : FitSys σ ℝ} (hC : C.Refreshing) {calls : List ManagerCall} {log : List (BinnedED ℝ × NormStatus)} {L : NLLH σ ℝ} {d : BinnedED ℝ}
    (h : SysSetup name C calls log L d) (pts : List (ParamDict ℝ × (Fin d.hist.nBins → ℝ) × ℝ)) (hpts : ∀ q ∈ pts, SysPoint C calls log L.constraints L.objs ks q.1 q.2.1 q.2.2)
    (n : Fin d.hist.nBins → ℕ) :
    NLLH.scan C CMath.real ((L.setDataDist (withCounts d n)).registerFitComponents name) (pts.map (·.1)) =
      .ok (pts.map fun q => some (∑ b, poissonTerm (n b) (q.2.1 b) + q.2.2)) := by
  have hlen : (withCounts d n).hist.contents.length = (withCounts d n).hist.nBins := by
    show (List.ofFn fun b => (n b : ℝ)).length = d.hist.nBins
    exact List.length_ofFn
  have := (sysTrace_start ks h n).scan hC hlen pts hpts
  refine this.trans (congrArg Res.ok (List.map_congr_left fun q _ => ?_))
  refine congrArg some (congrArg (· + q.2.2) ?_)
  exact Finset.sum_congr rfl fun b _ => congrArg (poissonTerm · (q.2.1 b)) (withCounts_countIn d n b)

/-! ### The law of the data -/

instance (μ : Fin m → ℝ) : IsProbabilityMeasure (ratesLaw μ) := by unfold ratesLaw; infer_instance

theorem ratesLaw_singleton (μ : Fin m → ℝ) (n : Fin m → ℕ) : (ratesLaw μ).real {n} = ∏ b, (poissonMeasure (μ b).toNNReal).real {n b} := by
  unfold ratesLaw
  rw [measureReal_def, Measure.pi_singleton, ENNReal.toReal_prod]
  rfl

/-- C111, probability: the exponential of minus the value, without the constraint term, is the probability of exactly those counts at the rates of the point, times the product
of their factorials. -/
theorem C111_probability {ks : List String} {name : Nat → String} {C : FitSys σ ℝ} (hC : C.Refreshing) {calls : List ManagerCall} {log : List (BinnedED ℝ × NormStatus)} {L : NLLH σ ℝ} {d : BinnedED ℝ}
    (h : SysSetup name C calls log L d) {ps : ParamDict ℝ} {μ : Fin d.hist.nBins → ℝ} {c : ℝ} (hp : SysPoint C calls log L.constraints L.objs ks ps μ c) (n : Fin d.hist.nBins → ℕ) :
    ∃ v, NLLH.scan C CMath.real ((L.setDataDist (withCounts d n)).registerFitComponents name) [ps] = .ok [some v] ∧
      Real.exp (-(v - c)) = (∏ b, ((n b)! : ℝ)) * (ratesLaw μ).real {n} := by
  refine ⟨_, C111_value hC h [(ps, μ, c)] (by simpa using hp) n, ?_⟩
  simp only [add_sub_cancel_right]
  rw [ratesLaw_singleton, ← Finset.prod_mul_distrib, ← Finset.sum_neg_distrib, Real.exp_sum]
  exact Finset.prod_congr rfl fun b _ => poisson_exp (hp.positive b) _

theorem ratesLaw_mean {μ₀ : Fin m → ℝ} (h0 : ∀ b, 0 < μ₀ b) (μ : Fin m → ℝ) (c : ℝ) :
    Integrable (fun n : Fin m → ℕ => ∑ b, poissonTerm (n b) (μ b) + c) (ratesLaw μ₀) ∧
      ∫ n, (∑ b, poissonTerm (n b) (μ b) + c) ∂(ratesLaw μ₀) = ∑ b, poissonTerm (μ₀ b) (μ b) + c := by
  have hi : ∀ b, Integrable (fun n : Fin m → ℕ => (n b : ℝ)) (ratesLaw μ₀) := fun b =>
    integrable_comp_eval (μ := fun b : Fin m => poissonMeasure (μ₀ b).toNNReal) (i := b) (f := fun k : ℕ => (k : ℝ)) (poisson_mean _).1
  have hm : ∀ b, ∫ n, (n b : ℝ) ∂(ratesLaw μ₀) = μ₀ b := by
    intro b
    have := integral_comp_eval (μ := fun b : Fin m => poissonMeasure (μ₀ b).toNNReal) (i := b) (f := fun k : ℕ => (k : ℝ)) (by exact (poisson_mean _).1.aestronglyMeasurable)
    unfold ratesLaw
    rw [this, (poisson_mean _).2, Real.coe_toNNReal _ (h0 b).le]
  unfold poissonTerm
  have hterm : ∀ b, Integrable (fun n : Fin m → ℕ => μ b - (n b : ℝ) * Real.log (μ b)) (ratesLaw μ₀) := fun b => (integrable_const _).sub ((hi b).mul_const _)
  have hsum : Integrable (fun n : Fin m → ℕ => ∑ b, (μ b - (n b : ℝ) * Real.log (μ b))) (ratesLaw μ₀) := integrable_finsetSum Finset.univ (fun b _ => hterm b)
  refine ⟨hsum.add (integrable_const c), ?_⟩
  rw [integral_add hsum (integrable_const c), integral_finsetSum _ (fun b _ => hterm b)]
  congr 1
  · refine Finset.sum_congr rfl fun b _ => ?_
    rw [integral_sub (integrable_const _) ((hi b).mul_const _), integral_mul_const, hm b]
    simp
  · simp

theorem ratesLaw_pearson {μ₀ : Fin m → ℝ} (h0 : ∀ b, 0 < μ₀ b) :
    Integrable (fun n : Fin m → ℕ => pearson (fun b => (n b : ℝ)) μ₀) (ratesLaw μ₀) ∧ ∫ n, pearson (fun b => (n b : ℝ)) μ₀ ∂(ratesLaw μ₀) = m := by
  have hv := fun b : Fin m => poisson_variance (μ₀ b).toNNReal
  have hc : ∀ b : Fin m, ((μ₀ b).toNNReal : ℝ) = μ₀ b := fun b => Real.coe_toNNReal _ (h0 b).le
  simp only [hc] at hv
  have hi : ∀ b : Fin m, Integrable (fun n : Fin m → ℕ => ((n b : ℝ) - μ₀ b) ^ 2 / μ₀ b) (ratesLaw μ₀) := fun b =>
    (integrable_comp_eval (μ := fun b : Fin m => poissonMeasure (μ₀ b).toNNReal) (i := b) (f := fun k : ℕ => ((k : ℝ) - μ₀ b) ^ 2) (hv b).1).div_const _
  unfold pearson
  refine ⟨integrable_finsetSum _ fun b _ => hi b, ?_⟩
  rw [integral_finsetSum _ fun b _ => hi b]
  have : ∀ b : Fin m, ∫ n, ((n b : ℝ) - μ₀ b) ^ 2 / μ₀ b ∂(ratesLaw μ₀) = 1 := by
    intro b
    rw [integral_div]
    have e := integral_comp_eval (μ := fun b : Fin m => poissonMeasure (μ₀ b).toNNReal) (i := b) (f := fun k : ℕ => ((k : ℝ) - μ₀ b) ^ 2) (hv b).1.aestronglyMeasurable
    have e' : ∫ n, ((n b : ℝ) - μ₀ b) ^ 2 ∂(ratesLaw μ₀) = μ₀ b := e.trans (hv b).2
    rw [e', div_self (h0 b).ne']
  rw [Finset.sum_congr rfl fun b _ => this b]
  simp

/-! ### Average and consistency -/

/-- C111, average: data sets drawn from the rates at `ps₀`. Every one of them has a value at `ps₀` and, tried next, at `ps`; the average of the value, without the constraint term, is
least at `ps₀`, and as small at `ps` only if the rates there are the same in every bin. -/
theorem C111_average {ks : List String} {name : Nat → String} {C : FitSys σ ℝ} (hC : C.Refreshing) {calls : List ManagerCall} {log : List (BinnedED ℝ × NormStatus)} {L : NLLH σ ℝ} {d : BinnedED ℝ}
    (h : SysSetup name C calls log L d) {ps₀ ps : ParamDict ℝ} {μ₀ μ : Fin d.hist.nBins → ℝ} {c₀ c : ℝ} (h₀ : SysPoint C calls log L.constraints L.objs ks ps₀ μ₀ c₀)
    (hp : SysPoint C calls log L.constraints L.objs ks ps μ c) :
    ∃ V₀ V : (Fin d.hist.nBins → ℕ) → ℝ,
      (∀ n, NLLH.scan C CMath.real ((L.setDataDist (withCounts d n)).registerFitComponents name) [ps₀, ps] = .ok [some (V₀ n), some (V n)]) ∧
      Integrable V₀ (ratesLaw μ₀) ∧ Integrable V (ratesLaw μ₀) ∧
      (∫ n, V₀ n ∂(ratesLaw μ₀)) - c₀ ≤ (∫ n, V n ∂(ratesLaw μ₀)) - c ∧
      ((∫ n, V₀ n ∂(ratesLaw μ₀)) - c₀ = (∫ n, V n ∂(ratesLaw μ₀)) - c ↔ μ = μ₀) := by
  obtain ⟨i0, m0⟩ := ratesLaw_mean h₀.positive μ₀ c₀
  obtain ⟨i1, m1⟩ := ratesLaw_mean h₀.positive μ c
  refine ⟨_, _, fun n => C111_value (ks := ks) hC h [(ps₀, μ₀, c₀), (ps, μ, c)] (by intro q hq; simp only [List.mem_cons, List.not_mem_nil, or_false] at hq; rcases hq with rfl | rfl; exacts [h₀, hp]) n, i0, i1, ?_, ?_⟩ <;> simp only [m0, m1, add_sub_cancel_right]
  · exact Finset.sum_le_sum fun b _ => (poissonTerm_min (h₀.positive b) (hp.positive b)).1
  · rw [Finset.sum_eq_sum_iff_of_le fun b _ => (poissonTerm_min (h₀.positive b) (hp.positive b)).1]
    constructor
    · intro hh
      funext b
      exact ((poissonTerm_min (h₀.positive b) (hp.positive b)).2.1 (hh b (Finset.mem_univ b)))
    · rintro rfl b _; rfl

/-- `ps`, with the rates `μ`, is a possible answer of a fit for these data: a fit that tries `ps₀` and `ps` sees as small a value at `ps`, or one larger by at most `s`. -/
def SysAsGood (name : Nat → String) (C : FitSys σ ℝ) (calls : List ManagerCall) (log : List (BinnedED ℝ × NormStatus)) (L : NLLH σ ℝ) (d : BinnedED ℝ) (ks : List String) (ps₀ : ParamDict ℝ) (s : ℝ)
    (n : Fin d.hist.nBins → ℕ) (ps : ParamDict ℝ) (μ : Fin d.hist.nBins → ℝ) : Prop :=
  ∃ c v₀ v, SysPoint C calls log L.constraints L.objs ks ps μ c ∧ 0 ≤ c ∧
    NLLH.scan C CMath.real ((L.setDataDist (withCounts d n)).registerFitComponents name) [ps₀, ps] = .ok [some v₀, some v] ∧ v ≤ v₀ + s

/-- C111, consistency: data are drawn from the rates at `ps₀`. The probability that any point at all fits them as well as `ps₀` does (or worse by at most `s`), while the sum over the
bins of the squared differences of the square roots of its rates and the true ones is `t` or more, is at most `(4 bins + 2 (c₀ + s)) / t`. -/
theorem C111_likely {ks : List String} {name : Nat → String} {C : FitSys σ ℝ} (hC : C.Refreshing) {calls : List ManagerCall} {log : List (BinnedED ℝ × NormStatus)} {L : NLLH σ ℝ} {d : BinnedED ℝ}
    (h : SysSetup name C calls log L d) {ps₀ : ParamDict ℝ} {μ₀ : Fin d.hist.nBins → ℝ} {c₀ : ℝ} (h₀ : SysPoint C calls log L.constraints L.objs ks ps₀ μ₀ c₀) (hc₀ : 0 ≤ c₀)
    {s t : ℝ} (hs : 0 ≤ s) (ht : 0 < t) :
    (ratesLaw μ₀).real {n | ∃ ps μ, SysAsGood name C calls log L d ks ps₀ s n ps μ ∧ t ≤ ∑ b, (Real.sqrt (μ b) - Real.sqrt (μ₀ b)) ^ 2} ≤ (4 * d.hist.nBins + 2 * (c₀ + s)) / t := by
  obtain ⟨x2, x3⟩ := ratesLaw_pearson h₀.positive
  have x1 : ∀ n : Fin d.hist.nBins → ℕ, 0 ≤ pearson (fun b => (n b : ℝ)) μ₀ := fun n => Finset.sum_nonneg fun b _ => div_nonneg (sq_nonneg _) (h₀.positive b).le
  have hi : Integrable (fun n : Fin d.hist.nBins → ℕ => 4 * pearson (fun b => (n b : ℝ)) μ₀ + 2 * (c₀ + s)) (ratesLaw μ₀) := (x2.const_mul 4).add (integrable_const _)
  have hm := mul_meas_ge_le_integral_of_nonneg (μ := ratesLaw μ₀) (f := fun n : Fin d.hist.nBins → ℕ => 4 * pearson (fun b => (n b : ℝ)) μ₀ + 2 * (c₀ + s))
    (Filter.Eventually.of_forall fun n => by have := x1 n; show (0 : ℝ) ≤ _; positivity) hi t
  rw [integral_add (x2.const_mul 4) (integrable_const _), integral_const_mul, x3] at hm
  simp only [integral_const, probReal_univ, smul_eq_mul, one_mul] at hm
  rw [le_div_iff₀ ht, mul_comm]
  refine le_trans (mul_le_mul_of_nonneg_left (measureReal_mono ?_) ht.le) hm
  rintro n ⟨ps, μ, ⟨c, v₀, v, g1, g2, g3, g4⟩, h2⟩
  have e := C111_value (ks := ks) hC h [(ps₀, μ₀, c₀), (ps, μ, c)] (by intro q hq; simp only [List.mem_cons, List.not_mem_nil, or_false] at hq; rcases hq with rfl | rfl; exacts [h₀, g1]) n
  have e' := g3.symm.trans e
  have e2 := Res.ok.inj e'
  simp only [List.map_cons, List.map_nil, List.cons.injEq, Option.some.injEq, and_true] at e2
  obtain ⟨rfl, rfl⟩ := e2
  refine h2.trans (near_of_le (n := fun b => (n b : ℝ)) (fun b => Nat.cast_nonneg _) h₀.positive g1.positive ?_)
  linarith

/-! ### The systematics of the code decide on their parameters -/

theorem AnySys.scale_sets (s : ScaleSys ℝ) (ds : List (ParamDict ℝ)) : ∃ x, (AnySys.fit (α := ℝ)).sets (.scale s) ds = .scale { s with param := ⟨s.param.name, x⟩ } := by
  induction ds generalizing s with
  | nil => exact ⟨s.param.val, rfl⟩
  | cons d ds ih =>
    show ∃ x, (AnySys.fit (α := ℝ)).sets (AnySys.setParameters (.scale s) d).1 ds = _
    unfold AnySys.setParameters OneParam.setParameters
    cases h : SMap.find d s.param.name with
    | none => simp only [h]; exact ih s
    | some v => simp only [h]; exact ih { s with param := { s.param with val := v } }

theorem AnySys.shift_sets (s : ShiftSys ℝ) (ds : List (ParamDict ℝ)) : ∃ x, (AnySys.fit (α := ℝ)).sets (.shift s) ds = .shift { s with param := ⟨s.param.name, x⟩ } := by
  induction ds generalizing s with
  | nil => exact ⟨s.param.val, rfl⟩
  | cons d ds ih =>
    show ∃ x, (AnySys.fit (α := ℝ)).sets (AnySys.setParameters (.shift s) d).1 ds = _
    unfold AnySys.setParameters OneParam.setParameters
    cases h : SMap.find d s.param.name with
    | none => simp only [h]; exact ih s
    | some v => simp only [h]; exact ih { s with param := { s.param with val := v } }

/-- A scale is decided by every dictionary with a value for its parameter, whatever it was given before. -/
theorem AnySys.scale_decided (s : ScaleSys ℝ) {ps : ParamDict ℝ} {v : ℝ} (h : SMap.find ps s.param.name = some v) (ds : List (ParamDict ℝ)) :
    ((AnySys.fit (α := ℝ)).setParameters ((AnySys.fit (α := ℝ)).sets (.scale s) ds) ps).2 = .ok () ∧
      (AnySys.fit (α := ℝ)).sets (.scale s) (ds ++ [ps]) = .scale { s with param := ⟨s.param.name, v⟩ } := by
  obtain ⟨x, hx⟩ := AnySys.scale_sets s ds
  have key : (AnySys.fit (α := ℝ)).setParameters (.scale { s with param := ⟨s.param.name, x⟩ }) ps = (.scale { s with param := ⟨s.param.name, v⟩ }, .ok ()) := by
    show AnySys.setParameters (.scale { s with param := ⟨s.param.name, x⟩ }) ps = _
    unfold AnySys.setParameters OneParam.setParameters
    simp only [h]
  rw [FitSys.sets_append, hx]
  refine ⟨by rw [key], ?_⟩
  show ((AnySys.fit (α := ℝ)).setParameters (.scale { s with param := ⟨s.param.name, x⟩ }) ps).1 = _
  rw [key]

/-- A shift, too. -/
theorem AnySys.shift_decided (s : ShiftSys ℝ) {ps : ParamDict ℝ} {v : ℝ} (h : SMap.find ps s.param.name = some v) (ds : List (ParamDict ℝ)) :
    ((AnySys.fit (α := ℝ)).setParameters ((AnySys.fit (α := ℝ)).sets (.shift s) ds) ps).2 = .ok () ∧
      (AnySys.fit (α := ℝ)).sets (.shift s) (ds ++ [ps]) = .shift { s with param := ⟨s.param.name, v⟩ } := by
  obtain ⟨x, hx⟩ := AnySys.shift_sets s ds
  have key : (AnySys.fit (α := ℝ)).setParameters (.shift { s with param := ⟨s.param.name, x⟩ }) ps = (.shift { s with param := ⟨s.param.name, v⟩ }, .ok ()) := by
    show AnySys.setParameters (.shift { s with param := ⟨s.param.name, x⟩ }) ps = _
    unfold AnySys.setParameters OneParam.setParameters
    simp only [h]
  rw [FitSys.sets_append, hx]
  refine ⟨by rw [key], ?_⟩
  show ((AnySys.fit (α := ℝ)).setParameters (.shift { s with param := ⟨s.param.name, x⟩ }) ps).1 = _
  rw [key]

/-! ### Concrete cases -/

/-- A likelihood with a gain on the first of two bins and one distribution. -/
noncomputable def exGainBase : NLLH ℝ ℝ :=
  match (do let L ← (NLLH.new (fun _ => 1) : NLLH ℝ ℝ).addSystematic exSysName 0 none
            L.addPdf exSysName (exRealPdf "s" (1/2) (1/2)) none none .direct : Res (NLLH ℝ ℝ)) with
  | .ok L => L
  | _ => NLLH.new (fun _ => 1)

theorem exGainBase_setup : SysSetup exSysName exGain [.add 0, .addDist "s" [""]] [(exRealPdf "s" (1/2) (1/2), .direct)] exGainBase (exRealPdf "d" 0 0) where
  recorded := .addPdf (exRealPdf "s" (1/2) (1/2)) none none .direct (.addSystematic 0 none (.new (fun _ => 1)) rfl) rfl
  systematics := by simp [SysLog.added, ManagerCall.added?]
  names := by
    intro p hp q hq _
    simp [SysLog.added, ManagerCall.added?] at hp hq
    rw [hp, hq]
  noBB := rfl
  noBuffers := rfl
  distinct := by show (["s"] : List String).Nodup; decide
  order := by show ([NormStatus.direct]).Pairwise _; decide
  binning := by
    intro p hp
    simp only [List.mem_cons, List.not_mem_nil, or_false] at hp
    subst hp; exact ⟨rfl, rfl, rfl⟩

theorem exGain_sets (o g s : ℝ) (ds : List (ParamDict ℝ)) : exGain.sets o (ds ++ [[("g", g), ("s", s)]]) = g := by
  rw [FitSys.sets_append]
  show ((SMap.find [("g", g), ("s", s)] "g").getD (exGain.sets o ds)) = g
  simp [SMap.find]

theorem exGain_point {g s : ℝ} (hg : 0 < g) (hs : 0 < s) :
    SysPoint exGain [.add 0, .addDist "s" [""]] [(exRealPdf "s" (1/2) (1/2), .direct)] exGainBase.constraints exGainBase.objs ["g", "s"] [("g", g), ("s", s)] ![s * (g / 2), s * (1 / 2)] 0 where
  names := rfl
  nonempty := by simp
  sorted := by
    show List.Pairwise _ _
    simp only [List.pairwise_cons, List.mem_singleton, forall_eq, List.not_mem_nil, false_implies, implies_true, List.Pairwise.nil, and_true]
    decide +kernel
  all := by
    intro n hn
    have : n ∈ (["s"] : List String) := hn
    rw [List.mem_singleton] at this
    subst this; simp [SMap.find]
  accepted := fun p _ ds _ => rfl
  rates := by
    refine ⟨fun _ => exGain.response g, [[g / 2, 1 / 2]], ?_, fun p _ => ⟨rfl, rfl⟩, rfl, ?_, ?_⟩
    · intro p _ ds _
      exact ⟨g, by rw [exGain_sets]; rfl, rfl⟩
    · intro j p hj
      match j, hj with
      | 0, hj =>
        cases hj
        refine ⟨[""], [g / 2, 1 / 2], by decide +kernel, rfl, ?_⟩
        unfold Distorts applyInOrder
        have hact : SysLog.acting [.add 0, .addDist "s" [""]] [""] = [0] := by decide +kernel
        rw [hact]
        simp only [List.map_cons, List.map_nil, Res.forFold]
        have he : (exGain.response g).apply (exRealPdf "s" (1/2) (1/2)).hist.contents = .ok [g / 2, 1/2] := by
          unfold Matrix'.apply ArmaMat.mulVec
          simp [exGain, exRealPdf, List.range_succ]
          ring_nf
          rfl
        rw [he]
    · intro b
      fin_cases b
      · simp [distortedRate, normOf, NormStatus.fittable, SMap.find, exRealPdf]
      · simp [distortedRate, normOf, NormStatus.fittable, SMap.find, exRealPdf]
  positive := by
    intro b
    fin_cases b
    · show 0 < s * (g / 2); positivity
    · show 0 < s * (1 / 2); positivity
  constraint := by
    refine ⟨fun _ => [("g", g)], ?_, rfl⟩
    intro p _ ds _
    rw [exGain_sets]
    refine ⟨rfl, fun k v hk => ?_⟩
    by_cases h : "g" = k
    · subst h; simpa [SMap.find] using hk
    · simp [SMap.find, h] at hk

-- whatever is tried before, the value at gain 2 and normalisation 3 is the sum at the rates 3 and 3/2
example (n : Fin 2 → ℕ) (g s : ℝ) (hg : 0 < g) (hs : 0 < s) :
    ∃ v, NLLH.scan exGain CMath.real ((exGainBase.setDataDist (withCounts (exRealPdf "d" 0 0) n)).registerFitComponents exSysName) [[("g", g), ("s", s)], [("g", 2), ("s", 3)]] =
      .ok [some v, some (poissonTerm (n 0) 3 + poissonTerm (n 1) (3 / 2))] := by
  refine ⟨∑ b : Fin 2, poissonTerm (n b) ((![s * (g / 2), s * (1 / 2)] : Fin 2 → ℝ) b) + 0, (C111_value exGain_refreshing exGainBase_setup [([("g", g), ("s", s)], ![s * (g / 2), s * (1 / 2)], 0), ([("g", 2), ("s", 3)], ![3 * (2 / 2), 3 * (1 / 2)], 0)] (by
    intro q hq
    simp only [List.mem_cons, List.not_mem_nil, or_false] at hq
    rcases hq with rfl | rfl
    · exact exGain_point hg hs
    · exact exGain_point (by norm_num) (by norm_num)) n).trans ?_⟩
  simp only [List.map_cons, List.map_nil]
  congr 3
  have := Fin.sum_univ_two (f := fun b : Fin 2 => poissonTerm (n b) ((![3 * (2 / 2), 3 * (1 / 2)] : Fin 2 → ℝ) b))
  rw [add_zero]
  congr 1
  refine this.trans ?_
  norm_num

-- truth at gain 1 and normalisation 100: an error of 160 or more has probability at most 1/20
example : (ratesLaw (![100 * (1 / 2), 100 * (1 / 2)] : Fin 2 → ℝ)).real {n | ∃ ps μ, SysAsGood exSysName exGain [.add 0, .addDist "s" [""]] [(exRealPdf "s" (1/2) (1/2), .direct)] exGainBase
      (exRealPdf "d" 0 0) ["g", "s"] [("g", 1), ("s", 100)] 0 n ps μ ∧ 160 ≤ ∑ b, (Real.sqrt (μ b) - Real.sqrt ((![100 * (1 / 2), 100 * (1 / 2)] : Fin 2 → ℝ) b)) ^ 2} ≤ 1/20 := by
  have := C111_likely exGain_refreshing exGainBase_setup (exGain_point (g := 1) (s := 100) (by norm_num) (by norm_num)) le_rfl (s := 0) (t := 160) le_rfl (by norm_num)
  refine le_trans this ?_
  simp only [show (exRealPdf "d" 0 0).hist.nBins = 2 from rfl]
  norm_num

end Oxsx
