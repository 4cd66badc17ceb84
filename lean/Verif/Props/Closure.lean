import Verif.Props.Asymptotic
import Verif.Props.ToyLaw
set_option linter.unusedSectionVars false
set_option linter.unusedSimpArgs false
set_option linter.unusedVariables false
/-
C113: closure of toy studies. Fake data are generated at known normalisations, given to the fit as its data, and the fit finds the normalisations again.
-/
namespace Oxsx
open MeasureTheory ProbabilityTheory Filter BinnedEDGenerator AxisCollection GridSearch
open scoped ENNReal Nat Topology
variable {σ : Type}

/-- With the data `out`, the point `ps` fits as well as `ps₀` does, or worse by at most `s`. -/
def FitsDataAsWell (name : Nat → String) (C : FitSys σ ℝ) (objs : Nat → σ) (log : List (BinnedED ℝ × NormStatus)) (cons : ConstraintManager ℝ) (out : BinnedED ℝ) (ps₀ : ParamDict ℝ) (s : ℝ)
    (ps : ParamDict ℝ) : Prop :=
  (∃ c, FitPoint log cons out ps c) ∧ ∃ v₀ v, fitValue name C objs log cons out ps₀ = .ok (some v₀) ∧ fitValue name C objs log cons out ps = .ok (some v) ∧ v ≤ v₀ + s

section
variable {name : Nat → String} {C : FitSys σ ℝ} {objs : Nat → σ} {as : List (BinAxis ℝ)} {log : List (BinnedED ℝ × NormStatus)}

/-- Almost surely a fake distribution is generated, and a fit to it is a fit to the counts `cnt z`, which have the law of the model. -/
theorem toy_fit (hne : log ≠ []) (hp : ∀ p ∈ log, p.1.Usable as) (h : CanFit log (log.head hne).1) {ps₀ : ParamDict ℝ}
    (hn : ∀ p ∈ log, 0 ≤ normOf (fun n => (SMap.find ps₀ n).getD 0) p) (toyName : String) :
    ∃ cnt : (Fin (generatorAt log ps₀).rates.length → ℕ) × (ℕ → ℝ) → (Fin (log.head hne).1.hist.nBins → ℕ), Measurable cnt ∧
      (∀ᵐ z ∂(toyLaw (generatorAt log ps₀).rates), ∃ out, toyOf (generatorAt log ps₀) toyName z = .ok out ∧ CanFit log out ∧ out.hist.nBins = (log.head hne).1.hist.nBins ∧
        ∀ cons qs e, FitPoint log cons (log.head hne).1 qs e → fitValue name C objs log cons out qs = fitValue name C objs log cons (withCounts (log.head hne).1 (cnt z)) qs) ∧
      (toyLaw (generatorAt log ps₀).rates).map cnt = dataLaw log ps₀ (log.head hne).1.hist.nBins := by
  have hm := C107_model hne hp hn toyName
  set d := (log.head hne).1 with hd
  have hdU : d.Usable as := hp _ (List.head_mem hne)
  have hnb : d.hist.nBins = (shape as).prod := hdU.valid.nb
  rw [← hnb] at hm
  obtain ⟨cnt, m1, m2, m3⟩ := hm
  refine ⟨cnt, m1, ?_, m3⟩
  filter_upwards [m2] with z hz
  obtain ⟨out, a1, a2, a3, a4⟩ := hz
  have onb : out.hist.nBins = d.hist.nBins := by rw [a2.nb, hnb]
  have ocan : CanFit log out := by
    refine ⟨h.distinct, h.order, fun p hp' => ?_, by rw [a2.len, a2.nb]⟩
    obtain ⟨o1, o2, o3⟩ := h.obs p hp'
    exact ⟨by rw [o1, a3], by rw [o2, onb], by rw [o3, onb]⟩
  refine ⟨out, a1, ocan, onb, fun cons qs e hq => ?_⟩
  have hn' : nllAt log out qs = nllAt log (withCounts d (cnt z)) qs := by
    unfold nllAt
    rw [show (withCounts d (cnt z)).hist.nBins = out.hist.nBins from onb.symm]
    congr 1
    apply List.map_congr_left
    intro b hb
    have hb' : b < d.hist.nBins := by rw [← onb]; exact List.mem_range.1 hb
    have e1 := (Histogram.getBinContent_ok_iff.1 (a4 ⟨b, hb'⟩)).2
    have : countIn out b = countIn (withCounts d (cnt z)) b := by
      unfold countIn withCounts
      simp only [List.getD_eq_getElem?_getD] at e1 ⊢
      rw [e1, List.getElem?_ofFn, dif_pos hb']
    rw [this]
  have hq' : FitPoint log cons out qs e := ⟨hq.nonempty, hq.sorted, hq.all, by rw [onb]; exact hq.positive, hq.constraint⟩
  rw [fitValue_eq ocan hq', fitValue_eq (withCounts_canFit h (cnt z)) (withCounts_point hq (cnt z)), hn']

/-- Events that fake data almost surely only have when their counts have them are no more likely than in the law of the model. -/
theorem toy_event (hne : log ≠ []) {ps₀ : ParamDict ℝ} {cnt : (Fin (generatorAt log ps₀).rates.length → ℕ) × (ℕ → ℝ) → (Fin (log.head hne).1.hist.nBins → ℕ)} (m1 : Measurable cnt)
    (m3 : (toyLaw (generatorAt log ps₀).rates).map cnt = dataLaw log ps₀ (log.head hne).1.hist.nBins) {S : Set ((Fin (generatorAt log ps₀).rates.length → ℕ) × (ℕ → ℝ))}
    {T : Set (Fin (log.head hne).1.hist.nBins → ℕ)} (hST : ∀ᵐ z ∂(toyLaw (generatorAt log ps₀).rates), z ∈ S → cnt z ∈ T) :
    (toyLaw (generatorAt log ps₀).rates).real S ≤ (dataLaw log ps₀ (log.head hne).1.hist.nBins).real T := by
  rw [← m3, measureReal_def, measureReal_def, Measure.map_apply m1 (MeasurableSet.of_discrete)]
  exact ENNReal.toReal_mono (measure_ne_top _ _) (measure_mono_ae hST)

/-- C113. Fake data are generated with Poisson fluctuations at the normalisations `ps₀` and given to the fit as data, with any constraints. The probability, over the random numbers of the
generator, that any point at all fits them as well as `ps₀` (or worse by at most `s`), while the expected number of events in some bin is wrong by a fraction `δ` or more, is at
most `9 (4 bins + 2 (c₀ + s)) / (δ² r)`, `r` being the smallest number of events expected in a bin. -/
theorem C113_closure (hne : log ≠ []) (hp : ∀ p ∈ log, p.1.Usable as) (h : CanFit log (log.head hne).1) {ps₀ : ParamDict ℝ} {cs : List (ConCall ℝ)} (hcs : ProperCalls cs) {c₀ : ℝ}
    (hn : ∀ p ∈ log, 0 ≤ normOf (fun n => (SMap.find ps₀ n).getD 0) p) (h₀ : FitPoint log (ConstraintManager.runCalls cs) (log.head hne).1 ps₀ c₀) (toyName : String)
    {s δ r : ℝ} (hs : 0 ≤ s) (hδ : 0 < δ) (hδ1 : δ ≤ 1) (hr : 0 < r) (hrb : ∀ b, b < (log.head hne).1.hist.nBins → r ≤ rateAt log ps₀ b) :
    (∀ᵐ z ∂(toyLaw (generatorAt log ps₀).rates), ∃ out v₀, toyOf (generatorAt log ps₀) toyName z = .ok out ∧
      fitValue name C objs log (ConstraintManager.runCalls cs) out ps₀ = .ok (some v₀)) ∧
    (toyLaw (generatorAt log ps₀).rates).real {z | ∃ out ps, toyOf (generatorAt log ps₀) toyName z = .ok out ∧
      FitsDataAsWell name C objs log (ConstraintManager.runCalls cs) out ps₀ s ps ∧ ∃ b, b < (log.head hne).1.hist.nBins ∧ δ * rateAt log ps₀ b ≤ |rateAt log ps b - rateAt log ps₀ b|} ≤
      9 * (4 * (log.head hne).1.hist.nBins + 2 * (c₀ + s)) / (δ ^ 2 * r) := by
  obtain ⟨cnt, m1, m2, m3⟩ := toy_fit (name := name) (C := C) (objs := objs) hne hp h hn toyName
  refine ⟨?_, le_trans (toy_event hne m1 m3 ?_) (C110_constrained (name := name) (C := C) (objs := objs) hcs h h₀ hs hδ hδ1 hr hrb)⟩
  · filter_upwards [m2] with z hz
    obtain ⟨out, a1, a2, a3, a4⟩ := hz
    exact ⟨out, _, a1, (a4 _ _ _ h₀).trans (fitValue_eq (withCounts_canFit h _) (withCounts_point h₀ _))⟩
  · filter_upwards [m2] with z hz
    obtain ⟨out, a1, a2, a3, a4⟩ := hz
    rintro ⟨out', ps, b1, ⟨⟨c, hc⟩, v₀, v, b2, b3, b4⟩, b5⟩
    rw [a1] at b1
    have b1 := Res.ok.inj b1
    subst b1
    have hc' : FitPoint log (ConstraintManager.runCalls cs) (log.head hne).1 ps c := ⟨hc.nonempty, hc.sorted, hc.all, by rw [← a3]; exact hc.positive, hc.constraint⟩
    exact ⟨ps, ⟨⟨c, hc'⟩, v₀, v, by rw [← a4 _ _ _ h₀]; exact b2, by rw [← a4 _ _ _ hc']; exact b3, b4⟩, b5⟩

/-- C113, large toys: if the numbers of events at which the fake data are generated grow without limit in every bin, with bounded constraint terms there, the shapes are linearly independent and no
expected number exceeds a fixed multiple of the normalisation `x`, then the probability that any point at all fits the fake data as well as the normalisations they were generated with (or worse by
at most `s`), while its `x` is wrong by more than a fraction `δ`, goes to zero. -/
theorem C113_consistent (hne : log ≠ []) (hp : ∀ p ∈ log, p.1.Usable as) (h : CanFit log (log.head hne).1) {cs : List (ConCall ℝ)} (hcs : ProperCalls cs)
    (hi : LinearIndependent ℝ (fittedShapes log (log.head hne).1.hist.nBins)) {x : String} (hx : x ∈ PdfLog.fitted log) {truth : ℕ → ParamDict ℝ} {c : ℕ → ℝ}
    (hn : ∀ k, ∀ p ∈ log, 0 ≤ normOf (fun n => (SMap.find (truth k) n).getD 0) p) (hpt : ∀ k, FitPoint log (ConstraintManager.runCalls cs) (log.head hne).1 (truth k) (c k)) {B : ℝ} (hB : ∀ k, c k ≤ B)
    (hr : ∀ b, b < (log.head hne).1.hist.nBins → Tendsto (fun k => rateAt log (truth k) b) atTop atTop) {A : ℝ}
    (hA : ∀ k b, b < (log.head hne).1.hist.nBins → rateAt log (truth k) b ≤ A * |(SMap.find (truth k) x).getD 0|) (toyName : String) {s δ : ℝ} (hs : 0 ≤ s) (hδ : 0 < δ) :
    Tendsto (fun k => (toyLaw (generatorAt log (truth k)).rates).real {z | ∃ out ps, toyOf (generatorAt log (truth k)) toyName z = .ok out ∧
      FitsDataAsWell name C objs log (ConstraintManager.runCalls cs) out (truth k) s ps ∧ δ * |(SMap.find (truth k) x).getD 0| < |(SMap.find ps x).getD 0 - (SMap.find (truth k) x).getD 0|})
      atTop (𝓝 0) := by
  refine squeeze_zero (fun k => measureReal_nonneg) (fun k => ?_) (C110_consistent_parameters (name := name) (C := C) (objs := objs) hcs h hi hx hpt hB hr hA hs hδ)
  obtain ⟨cnt, m1, m2, m3⟩ := toy_fit (name := name) (C := C) (objs := objs) hne hp h (hn k) toyName
  refine toy_event hne m1 m3 ?_
  filter_upwards [m2] with z hz
  obtain ⟨out, a1, a2, a3, a4⟩ := hz
  rintro ⟨out', ps, b1, ⟨⟨c', hc⟩, v₀, v, b2, b3, b4⟩, b5⟩
  rw [a1] at b1
  have b1 := Res.ok.inj b1
  subst b1
  have hc' : FitPoint log (ConstraintManager.runCalls cs) (log.head hne).1 ps c' := ⟨hc.nonempty, hc.sorted, hc.all, by rw [← a3]; exact hc.positive, hc.constraint⟩
  exact ⟨ps, ⟨⟨c', hc'⟩, v₀, v, by rw [← a4 _ _ _ (hpt k)]; exact b2, by rw [← a4 _ _ _ hc']; exact b3, b4⟩, b5⟩

/-- C113, grid search: the fake data are fitted by a grid search of two normalisations, with the true ones on the grid (not at its first point, which is not tried: C52). Apart from fake data for
which the value at some point of the grid is exactly zero (which the search takes for not set: C52), the probability that the search does not end with a point whose expected numbers of events
are all right to better than a fraction `δ` is at most `9 (4 bins + 2 c₀) / (δ² r)`. -/
theorem C113_grid (hne : log ≠ []) (hp : ∀ p ∈ log, p.1.Usable as) (h : CanFit log (log.head hne).1) {ps₀ : ParamDict ℝ} {cs : List (ConCall ℝ)} (hcs : ProperCalls cs) {c₀ : ℝ}
    (hn : ∀ p ∈ log, 0 ≤ normOf (fun n => (SMap.find ps₀ n).getD 0) p) (h₀ : FitPoint log (ConstraintManager.runCalls cs) (log.head hne).1 ps₀ c₀) (toyName : String)
    {g : GridSearch ℝ} (hg : g.Sensible) (hmin : g.maximising = false) (hN : g.steps.keys.length = 2) (hgrid : ∀ p, g.OnGrid p → ∃ c, FitPoint log (ConstraintManager.runCalls cs) (log.head hne).1 p c)
    (hon : g.OnGrid ps₀) (hon' : ps₀ ≠ g.minima) {δ r : ℝ} (hδ : 0 < δ) (hδ1 : δ ≤ 1) (hr : 0 < r) (hrb : ∀ b, b < (log.head hne).1.hist.nBins → r ≤ rateAt log ps₀ b) :
    (toyLaw (generatorAt log ps₀).rates).real {z | ∀ out, toyOf (generatorAt log ps₀) toyName z = .ok out →
      (∀ p, g.OnGrid p → fitValue name C objs log (ConstraintManager.runCalls cs) out p ≠ .ok (some 0)) ∧
      ¬ ∃ n₀ res visited, (∀ fuel, n₀ ≤ fuel → g.optimise (fitStat name C objs log (ConstraintManager.runCalls cs) out) fuel = some (.ok (res, visited))) ∧
        ∀ b, b < (log.head hne).1.hist.nBins → |rateAt log res.bestFit b - rateAt log ps₀ b| < δ * rateAt log ps₀ b} ≤
      9 * (4 * (log.head hne).1.hist.nBins + 2 * (c₀ + 0)) / (δ ^ 2 * r) := by
  obtain ⟨cnt, m1, m2, m3⟩ := toy_fit (name := name) (C := C) (objs := objs) hne hp h hn toyName
  refine le_trans (toy_event hne m1 m3 ?_) (C110_constrained (name := name) (C := C) (objs := objs) hcs h h₀ le_rfl hδ hδ1 hr hrb)
  filter_upwards [m2] with z hz hbad
  obtain ⟨out, a1, a2, a3, a4⟩ := hz
  obtain ⟨hz0, hno⟩ := hbad out a1
  have hval : ∀ p, g.OnGrid p → ∃ c y, FitPoint log (ConstraintManager.runCalls cs) (log.head hne).1 p c ∧ fitValue name C objs log (ConstraintManager.runCalls cs) out p = .ok (some y) ∧
      (fitStat name C objs log (ConstraintManager.runCalls cs) out).eval p = .ok y := by
    intro p hp
    obtain ⟨c, h1⟩ := hgrid p hp
    have := (a4 _ _ _ h1).trans (fitValue_eq (withCounts_canFit h (cnt z)) (withCounts_point h1 (cnt z)))
    refine ⟨c, _, h1, this, ?_⟩
    show (fitValue name C objs log (ConstraintManager.runCalls cs) out p >>= _) = _
    rw [this]; rfl
  obtain ⟨n₀, res, vis, r1, r2, r3, r4⟩ := C52_two_partial hg (t := fitStat name C objs log (ConstraintManager.runCalls cs) out) (fun p hp => by
    obtain ⟨c, y, _, _, h3⟩ := hval p hp
    exact ⟨y, h3⟩) hN
  have hmem : ps₀ ∈ vis := (r3 ps₀).2 ⟨hon, hon'⟩
  obtain ⟨b1, b2, b3⟩ := r4 (List.ne_nil_of_mem hmem) (fun p hp hev => by
    have hpg := ((r3 p).1 hp).1
    obtain ⟨c, y, _, h3, h4⟩ := hval p hpg
    rw [h4] at hev
    rw [Res.ok.inj hev] at h3
    exact hz0 p hpg h3)
  have hbest := ((r3 _).1 b1).1
  obtain ⟨c, y, e1, e2, e3⟩ := hval _ hbest
  obtain ⟨c', y', _, e2', e3'⟩ := hval _ hon
  have l := b3 ps₀ hon hon' y' e3'
  rw [e3] at b2
  simp only [hmin, Bool.false_eq_true, if_false] at l b2
  refine ⟨res.bestFit, ⟨⟨c, e1⟩, y', y, by rw [← a4 _ _ _ h₀]; exact e2', by rw [← a4 _ _ _ e1]; exact e2, by rw [Res.ok.inj b2]; linarith⟩, ?_⟩
  by_contra hall
  push Not at hall
  exact hno ⟨n₀, res, vis, r1, hall⟩
end

/-! ### Concrete cases -/

theorem exTwo_head_canFit : CanFit exTwo (exTwo.head (by simp [exTwo])).1 := ⟨(exTwo_canFit 0 0).distinct, (exTwo_canFit 0 0).order, (exTwo_canFit 0 0).obs, rfl⟩

theorem exTwo_head_point {b s : ℝ} (hb : 1 ≤ b) (hs : 0 < s) :
    FitPoint exTwo (ConstraintManager.runCalls exRatioCalls) (exTwo.head (by simp [exTwo])).1 [("b", b), ("s", s)] ((s / b - 2/3) * (s / b - 2/3) / (2 * (1/10) * (1/10))) := by
  have h := exRatio_point hb hs
  exact ⟨h.nonempty, h.sorted, h.all, h.positive, h.constraint⟩

theorem exTwo_norms {b s : ℝ} (hb : 0 ≤ b) (hs : 0 ≤ s) : ∀ p ∈ exTwo, 0 ≤ normOf (fun n => (SMap.find ([("b", b), ("s", s)] : ParamDict ℝ) n).getD 0) p := by
  intro p hp
  simp only [exTwo, List.mem_cons, List.not_mem_nil, or_false] at hp
  rcases hp with rfl | rfl <;> simpa [normOf, exRealPdf, SMap.find, NormStatus.fittable, show ("b" : String) ≠ "s" by decide]

-- fake data with three million background and two million signal events, and the constraint on their ratio: in over 99.5 % of the toys, whatever fits as well as the truth has both rates right to 10 %
example (C : FitSys σ ℝ) (objs : Nat → σ) :
    (toyLaw (generatorAt exTwo [("b", 3000000), ("s", 2000000)]).rates).real {z | ∃ out ps, toyOf (generatorAt exTwo [("b", 3000000), ("s", 2000000)]) "toy" z = .ok out ∧
      FitsDataAsWell exSysName C objs exTwo (ConstraintManager.runCalls exRatioCalls) out [("b", 3000000), ("s", 2000000)] 0 ps ∧
      ∃ b, b < 2 ∧ 1/10 * rateAt exTwo [("b", 3000000), ("s", 2000000)] b ≤ |rateAt exTwo ps b - rateAt exTwo [("b", 3000000), ("s", 2000000)] b|} ≤ 1/200 := by
  have hp := exTwo_head_point (b := 3000000) (s := 2000000) (by norm_num) (by norm_num)
  have := (C113_closure (name := exSysName) (C := C) (objs := objs) (by simp [exTwo]) exTwo_usable exTwo_head_canFit exRatio_proper (exTwo_norms (by norm_num) (by norm_num)) hp "toy"
    (s := 0) (δ := 1/10) (r := 1750000) le_rfl (by norm_num) (by norm_num) (by norm_num) (by
    intro b hb
    have : b < 2 := hb
    have hb' : b = 0 ∨ b = 1 := by omega
    rcases hb' with rfl | rfl
    · rw [(exTwo_rate _ _).1]; norm_num
    · rw [(exTwo_rate _ _).2]; norm_num)).2
  refine le_trans this ?_
  rw [show (exTwo.head (by simp [exTwo])).1.hist.nBins = 2 from rfl]
  norm_num

/-- Ten by ten points, a million apart. -/
noncomputable def exBigGrid : GridSearch ℝ := ⟨[("b", 1000000), ("s", 1000000)], [("b", 10000000), ("s", 10000000)], [("b", 1000000), ("s", 1000000)], false⟩

theorem exBigGrid_sensible : exBigGrid.Sensible where
  mins := (exJoint_init _ _ 0).2.1
  maxs := (exJoint_init _ _ 0).2.1
  sts := (exJoint_init _ _ 0).2.1
  same1 := rfl
  same2 := rfl
  axes := by
    intro n lo hi st h1 h2 h3
    have hn : n = "b" ∨ n = "s" := by
      by_contra hno
      push Not at hno
      simp [exBigGrid, SMap.find, hno.1.symm, hno.2.symm] at h1
    rcases hn with rfl | rfl
    · simp [exBigGrid, SMap.find] at h1 h2 h3
      subst h1; subst h2; subst h3; norm_num
    · simp [exBigGrid, SMap.find] at h1 h2 h3
      subst h1; subst h2; subst h3; norm_num
  differ := by simp [exBigGrid]

theorem exBigGrid_on {p : ParamDict ℝ} (hp : exBigGrid.OnGrid p) : ∃ b s : ℝ, 1 ≤ b ∧ 1 ≤ s ∧ p = [("b", b), ("s", s)] := by
  obtain ⟨h1, h2, h3⟩ := hp
  have hk : p.keys = ["b", "s"] := h2
  have : ∃ b s : ℝ, p = [("b", b), ("s", s)] := by
    rcases p with _ | ⟨⟨k1, v1⟩, _ | ⟨⟨k2, v2⟩, _ | ⟨q, p⟩⟩⟩
    · simp [SMap.keys] at hk
    · simp [SMap.keys] at hk
    · simp only [SMap.keys, List.map_cons, List.map_nil, List.cons.injEq, and_true] at hk
      obtain ⟨rfl, rfl⟩ := hk
      exact ⟨v1, v2, rfl⟩
    · simp [SMap.keys] at hk
  obtain ⟨b, s, rfl⟩ := this
  have a := h3 "b" 1000000 10000000 1000000 (by simp [exBigGrid, SMap.find]) (by simp [exBigGrid, SMap.find]) (by simp [exBigGrid, SMap.find])
  have c := h3 "s" 1000000 10000000 1000000 (by simp [exBigGrid, SMap.find]) (by simp [exBigGrid, SMap.find]) (by simp [exBigGrid, SMap.find])
  simp [SMap.find] at a c
  obtain ⟨i, hi, _⟩ := a
  obtain ⟨j, hj, _⟩ := c
  have hi0 : (0 : ℝ) ≤ i := Nat.cast_nonneg i
  have hj0 : (0 : ℝ) ≤ j := Nat.cast_nonneg j
  exact ⟨b, s, by linarith, by linarith, rfl⟩

theorem exBigGrid_truth : exBigGrid.OnGrid [("b", 3000000), ("s", 2000000)] := by
  refine ⟨(exJoint_init 3000000 2000000 0).2.1, rfl, fun n lo hi st h1 h2 h3 => ?_⟩
  have hn : n = "b" ∨ n = "s" := by
    by_contra hno
    push Not at hno
    simp [exBigGrid, SMap.find, hno.1.symm, hno.2.symm] at h1
  rcases hn with rfl | rfl
  · simp [exBigGrid, SMap.find] at h1 h2 h3
    subst h1; subst h2; subst h3
    exact ⟨2, by simp [SMap.find]; norm_num, by norm_num⟩
  · simp [exBigGrid, SMap.find] at h1 h2 h3
    subst h1; subst h2; subst h3
    exact ⟨1, by simp [SMap.find]; norm_num, by norm_num⟩

-- and the grid search on these toys: in over 99.5 % of them (unless some value is exactly zero) it ends where both rates are right to 10 %
example (C : FitSys σ ℝ) (objs : Nat → σ) :
    (toyLaw (generatorAt exTwo [("b", 3000000), ("s", 2000000)]).rates).real {z | ∀ out, toyOf (generatorAt exTwo [("b", 3000000), ("s", 2000000)]) "toy" z = .ok out →
      (∀ p, exBigGrid.OnGrid p → fitValue exSysName C objs exTwo (ConstraintManager.runCalls exRatioCalls) out p ≠ .ok (some 0)) ∧
      ¬ ∃ n₀ res visited, (∀ fuel, n₀ ≤ fuel → exBigGrid.optimise (fitStat exSysName C objs exTwo (ConstraintManager.runCalls exRatioCalls) out) fuel = some (.ok (res, visited))) ∧
        ∀ b, b < 2 → |rateAt exTwo res.bestFit b - rateAt exTwo [("b", 3000000), ("s", 2000000)] b| < 1/10 * rateAt exTwo [("b", 3000000), ("s", 2000000)] b} ≤ 1/200 := by
  have hp := exTwo_head_point (b := 3000000) (s := 2000000) (by norm_num) (by norm_num)
  have := C113_grid (name := exSysName) (C := C) (objs := objs) (by simp [exTwo]) exTwo_usable exTwo_head_canFit exRatio_proper (exTwo_norms (by norm_num) (by norm_num)) hp "toy"
    exBigGrid_sensible rfl rfl (fun p hp => by
      obtain ⟨b, s, hb, hs, rfl⟩ := exBigGrid_on hp
      exact ⟨_, exTwo_head_point hb (by linarith)⟩) exBigGrid_truth (by simp [exBigGrid])
    (δ := 1/10) (r := 1750000) (by norm_num) (by norm_num) (by norm_num) (by
    intro b hb
    have : b < 2 := hb
    have hb' : b = 0 ∨ b = 1 := by omega
    rcases hb' with rfl | rfl
    · rw [(exTwo_rate _ _).1]; norm_num
    · rw [(exTwo_rate _ _).2]; norm_num)
  refine le_trans this ?_
  rw [show (exTwo.head (by simp [exTwo])).1.hist.nBins = 2 from rfl]
  norm_num

end Oxsx
