import Verif.Props.SysCoverage
set_option linter.unusedSectionVars false
set_option linter.unusedSimpArgs false
set_option linter.unusedVariables false
/-
C112 and C117: chains on joint fits that keep their full histogram, and the coverage of regions read off it.
-/
namespace Oxsx
open MeasureTheory ProbabilityTheory Filter
open scoped ENNReal Nat Topology
variable {σ : Type} {k : Nat}

/-- C112, a chain on a sum of likelihoods that keeps its full histogram: `k` channels, each an object of its own, set and evaluated in turn at every step. The histogram converges to the joint posterior. -/
theorem C112_joint_histogram {name : Nat → String} {C : FitSys σ ℝ} {objs : Fin k → Nat → σ} {log : Fin k → List (BinnedED ℝ × NormStatus)} {d : Fin k → BinnedED ℝ} (hfit : ∀ p, CanFit (log p) (d p))
    {cs : Fin k → List (String × ℝ × ℝ)} {cs₀ : List (String × ℝ × ℝ)}
    (hcs : ∀ p, GoodGaussians (cs p) ∧ ∀ q ∈ cs p, q.1 ∈ PdfLog.fitted (log p)) (hcs₀ : GoodGaussians cs₀ ∧ ∀ q ∈ cs₀, ∃ p, q.1 ∈ PdfLog.fitted (log p))
    {n : ∀ p, Fin (d p).hist.nBins → ℕ} (hn : ∀ p b, countIn (d p) b.1 = n p b) {init : Fin k → ParamDict ℝ}
    (hinit : ∀ p, init p ≠ [] ∧ SMap.Sorted (init p) ∧ ∀ n ∈ PdfLog.fitted (log p), (SMap.find (init p) n).isSome)
    {ks : List String} (hk : NamesSorted ks) (hne : ks ≠ []) (hall : ∀ x, x ∈ ks ↔ ∃ p, x ∈ PdfLog.fitted (log p))
    {m : MCMC ℝ} (hlog : m.logged = true) (hflip : m.flip = true) {lo hi : Fin ks.length → ℝ} (hl : HasLimits m ks lo hi) (hmin : m.minima.length = ks.length) (hmax : m.maxima.length = ks.length)
    (hlt : ∀ i, lo i < hi i) (hpos : ∀ x ∈ limitBox lo hi, ∀ p b, b < (d p).hist.nBins → 0 < rateAt (log p) (pointDict ks x) b)
    {s : MetropolisSampler ℝ} (hs : ∀ i : Fin ks.length, ks[i] ∉ s.fixed ∧ ∃ sg, s.sigmas.find ks[i] = some sg ∧ sg ≠ 0)
    (hf : m.samples.Fresh) (hfull : m.samples.saveFull = true) (hch : m.samples.saveChain = false) (hq : 0 < m.samples.auto.qLen)
    {as : List (BinAxis ℝ)} (hax : (AxisCollection.empty : AxisCollection ℝ).addAxes as = .ok m.samples.axes) (hasne : as ≠ []) (hc : ∀ a ∈ as, a.Contiguous)
    (hlen : as.length = ks.length) (hnm : ∀ a ∈ as, a.name ∈ ks) :
    ∃ (cons : Fin k → ConstraintManager ℝ) (K : ConstraintManager ℝ) (h : Fin k → NLLH σ ℝ),
      (∀ p, setGaussians (cs p) = .ok (cons p)) ∧ setGaussians cs₀ = .ok K ∧
      (∀ p, NLLH.configured name C (objs p) (log p) (cons p) (init p) (d p) = .ok (h p)) ∧
      HistogramConverges ks lo hi m s as (fun x => jointPosterior log cs cs₀ n (pointDict ks x))
        fun m r ins m' => ∃ res h', m.optimiseOn Real.exp ((jointSum k C K).object name (List.finRange k)) h r ins = .ok ((m', res), h') := by
  obtain ⟨cons, K, F, e1, e2, hF, H⟩ := joint_constraints hfit hcs hcs₀ hn
  have hex : ∀ p, ∃ L, NLLH.configured name C (objs p) (log p) (cons p) (init p) (d p) = .ok L := by
    intro p
    obtain ⟨L, h1, _⟩ := NLLH.configured_simple (name := name) (C := C) (objs := objs p) (cons := cons p) (d := d p) (hfit p).distinct (hinit p).1 (hinit p).2.2
    exact ⟨L, h1⟩
  choose h h1 using hex
  refine ⟨cons, K, h, e1, e2, h1, ?_⟩
  obtain ⟨a1, a2, a3⟩ := joint_answers (ks := ks) (K := K) hfit (fun p => ⟨(hinit p).1, (hinit p).2.2⟩) h1
  obtain ⟨ns, n1, n2, n3⟩ := joint_names (K := K) hfit hinit h1
  unfold StatSum.getParameterNames at n1
  obtain ⟨ps, p1, n1⟩ := Res.bind_eq_ok.1 n1
  have hkeys : ps.keys = ks := (Res.ok.inj n1).trans (n2.eq_of_mem_iff hk fun x => (n3 x).trans (hall x).symm)
  have hH : ∀ x : Fin ks.length → ℝ, x ∈ limitBox lo hi → ∃ v, (jointStat log cons K d ks).eval (pointDict ks x) = .ok v ∧ Real.exp (-v) = F * jointPosterior log cs cs₀ n (pointDict ks x) := by
    intro x hx
    obtain ⟨c, hc, hv⟩ := H (pointDict ks x) ⟨fun hh => hne (by rw [← pointDict_keys ks x, hh]; rfl), pointDict_sorted hk x, fun p y hy => by
      obtain ⟨i, rfl⟩ := names_get ((hall y).2 ⟨p, hy⟩)
      rw [pointDict_find hk]; rfl, hpos x hx⟩
    exact ⟨_, a3 _ c hc, hv⟩
  exact C112_histogram (t := jointStat log cons K d ks) (by rw [a1]; exact a2) (ps := ps) (by rw [a1]; exact p1) hkeys rfl hk hl hmin hmax hlt
    (jointPosterior_continuous hk log cs cs₀ n).continuousOn hF hlog hflip hH hs hf hfull hch hq hax hasne hc hlen hnm

/-- C117, joint fits, with the chain: the chain is run on the sum of the likelihoods of the channels, given the data of all of them. Bins chosen by any rule in which the chain spent a fraction `q` of its steps
contain the true normalisations in nearly a fraction `q` of the experiments. -/
theorem C117_joint_chain {name : Nat → String} {C : FitSys σ ℝ} {objs : Fin k → Nat → σ} {log : Fin k → List (BinnedED ℝ × NormStatus)} {d : Fin k → BinnedED ℝ} (hfit : ∀ p, CanFit (log p) (d p))
    {cs : Fin k → List (String × ℝ × ℝ)} {cs₀ : List (String × ℝ × ℝ)}
    (hcs : ∀ p, GoodGaussians (cs p) ∧ ∀ q ∈ cs p, q.1 ∈ PdfLog.fitted (log p)) (hcs₀ : GoodGaussians cs₀ ∧ ∀ q ∈ cs₀, ∃ p, q.1 ∈ PdfLog.fitted (log p)) {init : Fin k → ParamDict ℝ}
    (hinit : ∀ p, init p ≠ [] ∧ SMap.Sorted (init p) ∧ ∀ n ∈ PdfLog.fitted (log p), (SMap.find (init p) n).isSome)
    {ks : List String} (hk : NamesSorted ks) (hne : ks ≠ []) (hall : ∀ x, x ∈ ks ↔ ∃ p, x ∈ PdfLog.fitted (log p))
    {m : MCMC ℝ} (hlog : m.logged = true) (hflip : m.flip = true) {lo hi : Fin ks.length → ℝ} (hl : HasLimits m ks lo hi) (hmin : m.minima.length = ks.length) (hmax : m.maxima.length = ks.length)
    (hlt : ∀ i, lo i < hi i) (hpos : ∀ x ∈ limitBox lo hi, ∀ p b, b < (d p).hist.nBins → 0 < rateAt (log p) (pointDict ks x) b)
    {s : MetropolisSampler ℝ} (hs : ∀ i : Fin ks.length, ks[i] ∉ s.fixed ∧ ∃ sg, s.sigmas.find ks[i] = some sg ∧ sg ≠ 0)
    (hf : m.samples.Fresh) (hfull : m.samples.saveFull = true) (hch : m.samples.saveChain = false) (hq : 0 < m.samples.auto.qLen)
    {as : List (BinAxis ℝ)} (hax : (AxisCollection.empty : AxisCollection ℝ).addAxes as = .ok m.samples.axes) (hasne : as ≠ []) (hc : ∀ a ∈ as, a.Contiguous)
    (hlen : as.length = ks.length) (hnm : ∀ a ∈ as, a.name ∈ ks) {x0 : (∀ p, Fin (d p).hist.nBins → ℕ) → (Fin ks.length → ℝ)} (hx0 : ∀ n, x0 n ∈ limitBox lo hi)
    {burnIn thin : Int} (hth : thin ≠ 0) (r : String → ℝ) :
    ∃ (cons : Fin k → ConstraintManager ℝ) (K : ConstraintManager ℝ), (∀ p, setGaussians (cs p) = .ok (cons p)) ∧ setGaussians cs₀ = .ok K ∧
      RegionsCover ks lo hi m s as (fun x => jointPriorAt cs cs₀ (pointDict ks x)) (fun x => jointLaw log (pointDict ks x) fun p => (d p).hist.nBins) x0 burnIn thin r
        fun n m r ins m' => ∃ (h : Fin k → NLLH σ ℝ) (res : _) (h' : _), (∀ p, NLLH.configured name C (objs p) (log p) (cons p) (init p) (withCounts (d p) (n p)) = .ok (h p)) ∧
          m.optimiseOn Real.exp ((jointSum k C K).object name (List.finRange k)) h r ins = .ok ((m', res), h') := by
  have key : ∀ n : ∀ p, Fin (d p).hist.nBins → ℕ, _ := fun n =>
    C112_joint_histogram (name := name) (C := C) (objs := objs) (d := fun p => withCounts (d p) (n p)) (n := n) (fun p => withCounts_canFit (hfit p) (n p)) hcs hcs₀ (fun p b => withCounts_countIn (d p) (n p) b)
      hinit hk hne hall hlog hflip hl hmin hmax hlt hpos hs hf hfull hch hq hax hasne hc hlen hnm
  obtain ⟨cons, K, _, e1, e2, _⟩ := key (fun _ _ => 0)
  refine ⟨cons, K, e1, e2, cover_of_histograms hk hlt (jointPriorAt_continuous hk cs cs₀).continuousOn
    (fun x _ => mul_pos (Finset.prod_pos fun p _ => priorAt_pos (hcs p).1.2 _) (priorAt_pos hcs₀.1.2 _)) (fun _ _ => inferInstance) (fun n => (jointLaw_continuous hk log n).continuousOn)
    (fun x hx n => by rw [jointLaw_singleton]; exact Finset.prod_pos fun p _ => dataLaw_pos (hpos x hx p) (n p)) hax hasne hc (fun n => ?_) hx0 hth r⟩
  obtain ⟨cons', K', h, f1, f2, f3, g⟩ := key n
  have hK : K' = K := Res.ok.inj (f2.symm.trans e2)
  have hcons : cons' = cons := funext fun p => Res.ok.inj ((f1 p).symm.trans (e1 p))
  subst hK; subst hcons
  have e : (fun x => jointPosterior log cs cs₀ n (pointDict ks x)) = fun x => (jointLaw log (pointDict ks x) fun p => (d p).hist.nBins).real {n} * jointPriorAt cs cs₀ (pointDict ks x) :=
    funext fun x => jointPosterior_eq ..
  replace g := (congrArg (fun f => HistogramConverges ks lo hi m s as f
    fun m r ins m' => ∃ res h', m.optimiseOn Real.exp ((jointSum k C K').object name (List.finRange k)) h r ins = .ok ((m', res), h')) e).mp g
  obtain ⟨B, g⟩ := g
  refine ⟨B, fun x1 hx1 burnIn thin hth N r hN => ?_⟩
  obtain ⟨cnt, c1, c2⟩ := g x1 hx1 burnIn thin hth N r hN
  refine ⟨cnt, fun ω => ?_, c2⟩
  obtain ⟨m', ⟨res, h', e⟩, e'⟩ := c1 ω
  exact ⟨m', ⟨h, res, h', f3, e⟩, e'⟩

-- two channels that share a constrained background, three by three bins
example (C : FitSys σ ℝ) (objs : Nat → σ) : ∃ (a b : BinAxis ℝ) (c : AxisCollection ℝ) (cons : Fin 2 → ConstraintManager ℝ) (K : ConstraintManager ℝ),
    BinAxis.mkEqual "b" 1 10 3 = .ok a ∧ BinAxis.mkEqual "s" 1 10 3 = .ok b ∧ setGaussians [("b", 3, 1/2)] = .ok K ∧
    RegionsCover ["b", "s"] (fun _ => 1) (fun _ => 10) { exChain with samples := { MCMCSamples.new with saveFull := true, axes := c } } exWalk [a, b]
      (fun x => jointPriorAt (fun _ : Fin 2 => []) [("b", 3, 1/2)] (pointDict ["b", "s"] x)) (fun x => jointLaw exJoint (pointDict ["b", "s"] x) fun _ => 2) (fun _ => fun _ => 2) 1000 2 (fun _ => 0)
      fun n m r ins m' => ∃ (h : Fin 2 → NLLH σ ℝ) (res : _) (h' : _),
        (∀ p, NLLH.configured exSysName C objs (exJoint p) (cons p) [("b", 1), ("s", 1)] (withCounts (exRealPdf "d" 0 0) (n p)) = .ok (h p)) ∧
        m.optimiseOn Real.exp ((jointSum 2 C K).object exSysName (List.finRange 2)) h r ins = .ok ((m', res), h') := by
  obtain ⟨a, b, c, ha, hb, na, nb, hc⟩ := exChainAxes
  obtain ⟨cons, K, h1, h2, h3⟩ := C117_joint_chain (name := exSysName) (C := C) (objs := fun _ => objs) (log := exJoint) (d := fun _ => exRealPdf "d" 0 0) (exJoint_canFit 0 0)
    (cs := fun _ => []) (cs₀ := [("b", 3, 1/2)]) (fun p => ⟨⟨by simp, by simp⟩, by simp⟩) ⟨exJoint_gaussian, by
      intro q hq
      rw [List.mem_singleton] at hq
      subst hq
      exact (exJoint_fitted "b").1 (by simp)⟩ (init := fun _ => [("b", 1), ("s", 1)])
    (exJoint_init 1 1) exNames_sorted (by simp) exJoint_fitted
      (m := { exChain with samples := { MCMCSamples.new with saveFull := true, axes := c } }) rfl rfl (lo := fun _ => 1) (hi := fun _ => 10)
      ⟨exChain_limits.low, exChain_limits.high⟩ rfl rfl (fun _ => by norm_num) (by
        intro x hx p b hb
        have e : pointDict ["b", "s"] x = [("b", x ⟨0, by decide⟩), ("s", x ⟨1, by decide⟩)] := by simp [pointDict, List.ofFn_succ]
        have a0 := (hx ⟨0, by decide⟩).1
        have a1 := (hx ⟨1, by decide⟩).1
        rw [e]
        exact exJoint_positive 0 0 (by linarith) (by linarith) p b hb) (s := exWalk) exWalk_widths
      ⟨rfl, rfl, rfl, rfl⟩ rfl rfl (by show 0 < 1000; omega) hc (by simp) (by
        intro q hq
        simp only [List.mem_cons, List.not_mem_nil, or_false] at hq
        rcases hq with rfl | rfl
        · exact BinAxis.mkEqual_contiguous ha
        · exact BinAxis.mkEqual_contiguous hb) rfl (by
        intro q hq
        simp only [List.mem_cons, List.not_mem_nil, or_false] at hq
        rcases hq with rfl | rfl
        · rw [na]; simp
        · rw [nb]; simp) (x0 := fun _ => fun _ => 2) (fun n i => ⟨by norm_num, by norm_num⟩) (burnIn := 1000) (thin := 2) (by decide) (fun _ => 0)
  exact ⟨a, b, c, cons, K, ha, hb, h2, h3⟩

-- two channels: a region that always has at least 0.68 of the joint posterior covers at least 0.68 of the time
example {R : (Fin 2 → Fin 2 → ℕ) → Set (Fin 2 → ℝ)} (hR : ∀ n, MeasurableSet (R n))
    (h : ∀ n, 68 / 100 ≤ (sampledLaw (n := 2) (fun _ => 1) (fun _ => 10) fun x => jointPosterior exJoint (fun _ => []) [("b", 3, 1/2)] n (pointDict ["b", "s"] x)).real (R n)) :
    68 / 100 ≤ coverageOf (p := 2) (fun _ => 1) (fun _ => 10) (fun x => jointPriorAt (fun _ : Fin 2 => []) [("b", 3, 1/2)] (pointDict ["b", "s"] x)) (fun x => jointLaw exJoint (pointDict ["b", "s"] x) fun _ => 2) R :=
  (C117_joint_credible (ks := ["b", "s"]) (mb := fun _ => 2) exNames_sorted (fun _ => by norm_num) (by simp) exJoint_gaussian.2 (by
        intro x hx p b hb
        have e : pointDict ["b", "s"] x = [("b", x ⟨0, by decide⟩), ("s", x ⟨1, by decide⟩)] := by simp [pointDict, List.ofFn_succ]
        have a0 := (hx ⟨0, by decide⟩).1
        have a1 := (hx ⟨1, by decide⟩).1
        rw [e]
        exact exJoint_positive 0 0 (by linarith) (by linarith) p b hb) hR _).1 h

end Oxsx
