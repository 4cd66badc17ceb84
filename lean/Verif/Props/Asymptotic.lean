import Verif.Props.Consistency
import Verif.Props.SysStatistics
import Verif.Props.ConstraintSign
set_option linter.unusedSectionVars false
set_option linter.unusedSimpArgs false
set_option linter.unusedVariables false
/-
C110 with growing data sets: what a fit finds converges in probability to the truth, whatever constraints have been set.
-/
namespace Oxsx
open MeasureTheory ProbabilityTheory Filter
open scoped ENNReal Nat Topology
variable {σ : Type}

/-- The constraints set by these calls are proper: correlations between -1 and 1, and no interpolated tables (which may hold negative values). -/
def ProperCalls (cs : List (ConCall ℝ)) : Prop := (∀ k b, (Registered.run cs).pair k = some b → |b.corr| ≤ 1) ∧ ∀ l, (Registered.run cs).interp l = none

theorem ProperCalls.nonneg {cs : List (ConCall ℝ)} (h : ProperCalls cs) {p : ParamDict ℝ} {c : ℝ} (hc : (ConstraintManager.runCalls cs).evaluate p = .ok (some c)) : 0 ≤ c :=
  C37_nonnegative cs p h.1 (fun l t hl => by rw [h.2 l] at hl; cases hl) hc

/-- `ps` fits the counts `n` as well as `ps₀` does, or worse by at most `s`. -/
def FitsAsWell (name : Nat → String) (C : FitSys σ ℝ) (objs : Nat → σ) (log : List (BinnedED ℝ × NormStatus)) (cons : ConstraintManager ℝ) (d : BinnedED ℝ) (ps₀ : ParamDict ℝ) (s : ℝ)
    (n : Fin d.hist.nBins → ℕ) (ps : ParamDict ℝ) : Prop :=
  (∃ c, FitPoint log cons d ps c) ∧ ∃ v₀ v, fitValue name C objs log cons (withCounts d n) ps₀ = .ok (some v₀) ∧
    fitValue name C objs log cons (withCounts d n) ps = .ok (some v) ∧ v ≤ v₀ + s

theorem FitsAsWell.asGood {name : Nat → String} {C : FitSys σ ℝ} {objs : Nat → σ} {log : List (BinnedED ℝ × NormStatus)} {cs : List (ConCall ℝ)} (hcs : ProperCalls cs) {d : BinnedED ℝ}
    {ps₀ : ParamDict ℝ} {s : ℝ} {n : Fin d.hist.nBins → ℕ} {ps : ParamDict ℝ} (h : FitsAsWell name C objs log (ConstraintManager.runCalls cs) d ps₀ s n ps) :
    AsGood name C objs log (ConstraintManager.runCalls cs) d ps₀ s n ps := by
  obtain ⟨⟨c, hc⟩, v₀, v, h1, h2, h3⟩ := h
  exact ⟨c, v₀, v, hc, hcs.nonneg hc.constraint, h1, h2, h3⟩

/-- C110, any constraints: the probability that any point at all fits the data as well as the truth does (or worse by at most `s`), while the rate of some bin is wrong by `δ` times its
true value or more, is at most `9 (4 bins + 2 (c₀ + s)) / (δ² r)`, where `r` is the smallest true rate and `c₀` the penalty at the truth. -/
theorem C110_constrained {name : Nat → String} {C : FitSys σ ℝ} {objs : Nat → σ} {log : List (BinnedED ℝ × NormStatus)} {cs : List (ConCall ℝ)} (hcs : ProperCalls cs) {d : BinnedED ℝ}
    {ps₀ : ParamDict ℝ} {c₀ : ℝ} (h : CanFit log d) (h₀ : FitPoint log (ConstraintManager.runCalls cs) d ps₀ c₀) {s δ r : ℝ} (hs : 0 ≤ s) (hδ : 0 < δ) (hδ1 : δ ≤ 1)
    (hr : 0 < r) (hrb : ∀ b, b < d.hist.nBins → r ≤ rateAt log ps₀ b) :
    (dataLaw log ps₀ d.hist.nBins).real {n | ∃ ps, FitsAsWell name C objs log (ConstraintManager.runCalls cs) d ps₀ s n ps ∧
      ∃ b, b < d.hist.nBins ∧ δ * rateAt log ps₀ b ≤ |rateAt log ps b - rateAt log ps₀ b|} ≤ 9 * (4 * d.hist.nBins + 2 * (c₀ + s)) / (δ ^ 2 * r) := by
  refine le_trans (measureReal_mono ?_) (C110_relative_all (name := name) (C := C) (objs := objs) h h₀ (hcs.nonneg h₀.constraint) hs hδ hδ1 hr hrb)
  rintro n ⟨ps, h1, h2⟩
  exact ⟨ps, h1.asGood hcs, h2⟩

/-- A bound `K / M` for every `M` below a sequence of rates that grow without limit makes the sequence vanish. -/
theorem tendsto_zero_of_rates {m : Nat} {rate : ℕ → ℕ → ℝ} (hr : ∀ b, b < m → Tendsto (fun k => rate k b) atTop atTop) {f : ℕ → ℝ} (hf : ∀ k, 0 ≤ f k) {K : ℝ} (hK : 0 ≤ K)
    (hb : ∀ k M, 0 < M → (∀ b, b < m → M ≤ rate k b) → f k ≤ K / M) : Tendsto f atTop (𝓝 0) := by
  rw [tendsto_order]
  refine ⟨fun a ha => Eventually.of_forall fun k => lt_of_lt_of_le ha (hf k), fun a ha => ?_⟩
  have hM : 0 < K / a + 1 := by positivity
  have : ∀ᶠ k in atTop, ∀ b ∈ Finset.range m, K / a + 1 ≤ rate k b :=
    (Finset.eventually_all _).2 fun b hb => (hr b (Finset.mem_range.1 hb)).eventually_ge_atTop _
  filter_upwards [this] with k hk
  refine lt_of_le_of_lt (hb k _ hM fun b hb => hk b (Finset.mem_range.2 hb)) ?_
  rw [div_lt_iff₀ hM]
  have : a * (K / a) = K := by field_simp
  nlinarith

/-- C110, convergence of the rates: for a sequence of experiments whose true rates grow without limit in every bin, with the constraints not pulling more and more at the truth, the
probability that any point at all fits as well as the truth (or worse by at most `s`), while the rate of some bin is wrong by a fraction `δ` or more, goes to zero. -/
theorem C110_consistent {name : Nat → String} {C : FitSys σ ℝ} {objs : Nat → σ} {log : List (BinnedED ℝ × NormStatus)} {cs : List (ConCall ℝ)} (hcs : ProperCalls cs) {d : BinnedED ℝ}
    (h : CanFit log d) {truth : ℕ → ParamDict ℝ} {c : ℕ → ℝ} (hp : ∀ k, FitPoint log (ConstraintManager.runCalls cs) d (truth k) (c k)) {B : ℝ} (hB : ∀ k, c k ≤ B)
    (hr : ∀ b, b < d.hist.nBins → Tendsto (fun k => rateAt log (truth k) b) atTop atTop) {s δ : ℝ} (hs : 0 ≤ s) (hδ : 0 < δ) (hδ1 : δ ≤ 1) :
    Tendsto (fun k => (dataLaw log (truth k) d.hist.nBins).real {n | ∃ ps, FitsAsWell name C objs log (ConstraintManager.runCalls cs) d (truth k) s n ps ∧
      ∃ b, b < d.hist.nBins ∧ δ * rateAt log (truth k) b ≤ |rateAt log ps b - rateAt log (truth k) b|}) atTop (𝓝 0) := by
  have hB0 : 0 ≤ B := le_trans (hcs.nonneg (hp 0).constraint) (hB 0)
  refine tendsto_zero_of_rates hr (fun k => measureReal_nonneg) (K := 9 * (4 * d.hist.nBins + 2 * (B + s)) / δ ^ 2) (by positivity) fun k M hM hk => ?_
  refine (C110_constrained hcs h (hp k) hs hδ hδ1 hM hk).trans ?_
  rw [div_div]
  have := hB k
  gcongr

/-- C110, convergence of the parameters: if moreover the shapes of the fitted distributions are linearly independent and no true rate exceeds a fixed multiple of the true value of the
parameter `x`, then the probability that any point at all fits as well as the truth (or worse by at most `s`) while its `x` is wrong by more than a fraction `δ` goes to zero. -/
theorem C110_consistent_parameters {name : Nat → String} {C : FitSys σ ℝ} {objs : Nat → σ} {log : List (BinnedED ℝ × NormStatus)} {cs : List (ConCall ℝ)} (hcs : ProperCalls cs)
    {d : BinnedED ℝ} (h : CanFit log d) (hi : LinearIndependent ℝ (fittedShapes log d.hist.nBins)) {x : String} (hx : x ∈ PdfLog.fitted log)
    {truth : ℕ → ParamDict ℝ} {c : ℕ → ℝ} (hp : ∀ k, FitPoint log (ConstraintManager.runCalls cs) d (truth k) (c k)) {B : ℝ} (hB : ∀ k, c k ≤ B)
    (hr : ∀ b, b < d.hist.nBins → Tendsto (fun k => rateAt log (truth k) b) atTop atTop) {A : ℝ}
    (hA : ∀ k b, b < d.hist.nBins → rateAt log (truth k) b ≤ A * |(SMap.find (truth k) x).getD 0|) {s δ : ℝ} (hs : 0 ≤ s) (hδ : 0 < δ) :
    Tendsto (fun k => (dataLaw log (truth k) d.hist.nBins).real {n | ∃ ps, FitsAsWell name C objs log (ConstraintManager.runCalls cs) d (truth k) s n ps ∧
      δ * |(SMap.find (truth k) x).getD 0| < |(SMap.find ps x).getD 0 - (SMap.find (truth k) x).getD 0|}) atTop (𝓝 0) := by
  have hB0 : 0 ≤ B := le_trans (hcs.nonneg (hp 0).constraint) (hB 0)
  obtain ⟨w, w0, hw⟩ := C110_parameters (σ := σ) h hi hx
  have hS : 0 ≤ ∑ b, w b := Finset.sum_nonneg fun b _ => w0 b
  set e : ℝ := min 1 (δ / (|A| * ∑ b, w b + 1)) with he
  have hden : 0 < |A| * ∑ b, w b + 1 := by positivity
  have e0 : 0 < e := lt_min one_pos (by positivity)
  have e1 : e ≤ 1 := min_le_left _ _
  have e2 : e * (|A| * ∑ b, w b) ≤ δ := by
    have : e ≤ δ / (|A| * ∑ b, w b + 1) := min_le_right _ _
    rw [le_div_iff₀ hden] at this
    nlinarith
  refine tendsto_zero_of_rates hr (fun k => measureReal_nonneg) (K := 9 * (4 * d.hist.nBins + 2 * (B + s)) / e ^ 2) (by positivity) fun k M hM hk => ?_
  have b1 := hw name C objs (ConstraintManager.runCalls cs) (truth k) (c k) s e M (hp k) (hcs.nonneg (hp k).constraint) hs e0 e1 hM hk
  refine le_trans (measureReal_mono ?_) (b1.trans ?_)
  · rintro n ⟨ps, h1, h2⟩
    refine ⟨ps, h1.asGood hcs, lt_of_le_of_lt ?_ h2⟩
    set X := |(SMap.find (truth k) x).getD 0| with hX
    have hX0 : 0 ≤ X := abs_nonneg _
    have : ∑ b : Fin d.hist.nBins, w b * rateAt log (truth k) b ≤ (|A| * ∑ b, w b) * X := by
      rw [Finset.mul_sum, Finset.sum_mul]
      refine Finset.sum_le_sum fun b _ => ?_
      have h3 : rateAt log (truth k) b ≤ |A| * X := (hA k b b.2).trans (mul_le_mul_of_nonneg_right (le_abs_self A) hX0)
      calc w b * rateAt log (truth k) b ≤ w b * (|A| * X) := mul_le_mul_of_nonneg_left h3 (w0 b)
        _ = |A| * w b * X := by ring
    calc e * ∑ b : Fin d.hist.nBins, w b * rateAt log (truth k) b ≤ e * ((|A| * ∑ b, w b) * X) := mul_le_mul_of_nonneg_left this e0.le
      _ = e * (|A| * ∑ b, w b) * X := by ring
      _ ≤ δ * X := mul_le_mul_of_nonneg_right e2 hX0
  · rw [div_div]
    have := hB k
    gcongr

/-! ### With systematics -/

/-- `ps`, with the rates `μ`, fits the counts `n` as well as `ps₀` does, or worse by at most `s`, for a fit that tries `ps₀` and `ps`. -/
def SysFitsAsWell (name : Nat → String) (C : FitSys σ ℝ) (calls : List ManagerCall) (log : List (BinnedED ℝ × NormStatus)) (L : NLLH σ ℝ) (d : BinnedED ℝ) (ks : List String) (ps₀ : ParamDict ℝ) (s : ℝ)
    (n : Fin d.hist.nBins → ℕ) (ps : ParamDict ℝ) (μ : Fin d.hist.nBins → ℝ) : Prop :=
  (∃ c, SysPoint C calls log L.constraints L.objs ks ps μ c) ∧
    ∃ v₀ v, NLLH.scan C CMath.real ((L.setDataDist (withCounts d n)).registerFitComponents name) [ps₀, ps] = .ok [some v₀, some v] ∧ v ≤ v₀ + s

section
variable {ks : List String} {name : Nat → String} {C : FitSys σ ℝ} {calls : List ManagerCall} {log : List (BinnedED ℝ × NormStatus)} {L : NLLH σ ℝ} {d : BinnedED ℝ} {cs : List (ConCall ℝ)}

/-- C111, relative errors of the rates with systematics and any constraints: the probability that any point at all fits the data as well as the truth does (or worse by at most `s`), while the
rate of some bin is wrong by `δ` times its true value or more, is at most `9 (4 bins + 2 (c₀ + s)) / (δ² r)`, where `r` is the smallest true rate. -/
theorem C111_relative (hcs : ProperCalls cs) (hL : L.constraints = ConstraintManager.runCalls cs) (hC : C.Refreshing) (h : SysSetup name C calls log L d) {ps₀ : ParamDict ℝ} {μ₀ : Fin d.hist.nBins → ℝ}
    {c₀ : ℝ} (h₀ : SysPoint C calls log L.constraints L.objs ks ps₀ μ₀ c₀) {s δ r : ℝ} (hs : 0 ≤ s) (hδ : 0 < δ) (hδ1 : δ ≤ 1) (hr : 0 < r) (hrb : ∀ b, r ≤ μ₀ b) :
    (ratesLaw μ₀).real {n | ∃ ps μ, SysFitsAsWell name C calls log L d ks ps₀ s n ps μ ∧ ∃ b, δ * μ₀ b ≤ |μ b - μ₀ b|} ≤ 9 * (4 * d.hist.nBins + 2 * (c₀ + s)) / (δ ^ 2 * r) := by
  have hnn : ∀ {ps : ParamDict ℝ} {μ : Fin d.hist.nBins → ℝ} {c : ℝ}, SysPoint C calls log L.constraints L.objs ks ps μ c → 0 ≤ c := fun hp => by
    obtain ⟨_, _, this⟩ := hp.constraint
    rw [hL] at this
    exact hcs.nonneg this
  have := C111_likely (ks := ks) (name := name) hC h h₀ (hnn h₀) hs (t := δ ^ 2 * r / 9) (by positivity)
  refine le_trans (measureReal_mono ?_) (this.trans (le_of_eq (by field_simp)))
  rintro n ⟨ps, μ, ⟨⟨c, hc⟩, v₀, v, h1, h2⟩, b, h3⟩
  refine ⟨ps, μ, ⟨c, v₀, v, hc, hnn hc, h1, h2⟩, le_trans ?_ ((sqrt_far (h₀.positive b) (hc.positive b) hδ hδ1 h3).trans ?_)⟩
  · have := mul_le_mul_of_nonneg_left (hrb b) (sq_nonneg δ)
    linarith
  · exact Finset.single_le_sum (f := fun b : Fin d.hist.nBins => (Real.sqrt (μ b) - Real.sqrt (μ₀ b)) ^ 2) (fun _ _ => sq_nonneg _) (Finset.mem_univ b)

/-- C111, convergence with systematics: for a sequence of experiments whose true rates (after the systematics) grow without limit in every bin, with bounded penalties at the truth, the
probability that any point at all fits as well as the truth (or worse by at most `s`), while the rate of some bin is wrong by a fraction `δ` or more, goes to zero. -/
theorem C111_consistent (hcs : ProperCalls cs) (hL : L.constraints = ConstraintManager.runCalls cs) (hC : C.Refreshing) (h : SysSetup name C calls log L d) {truth : ℕ → ParamDict ℝ}
    {μ₀ : ℕ → Fin d.hist.nBins → ℝ} {c : ℕ → ℝ} (hp : ∀ k, SysPoint C calls log L.constraints L.objs ks (truth k) (μ₀ k) (c k)) {B : ℝ} (hB : ∀ k, c k ≤ B)
    (hr : ∀ b, Tendsto (fun k => μ₀ k b) atTop atTop) {s δ : ℝ} (hs : 0 ≤ s) (hδ : 0 < δ) (hδ1 : δ ≤ 1) :
    Tendsto (fun k => (ratesLaw (μ₀ k)).real {n | ∃ ps μ, SysFitsAsWell name C calls log L d ks (truth k) s n ps μ ∧ ∃ b, δ * μ₀ k b ≤ |μ b - μ₀ k b|}) atTop (𝓝 0) := by
  have hB0 : 0 ≤ B := by
    obtain ⟨_, _, this⟩ := (hp 0).constraint
    rw [hL] at this
    exact le_trans (hcs.nonneg this) (hB 0)
  refine tendsto_zero_of_rates (m := d.hist.nBins) (rate := fun k b => if hb : b < d.hist.nBins then μ₀ k ⟨b, hb⟩ else 0) (fun b hb => by simpa [hb] using hr ⟨b, hb⟩) (fun k => measureReal_nonneg)
    (K := 9 * (4 * d.hist.nBins + 2 * (B + s)) / δ ^ 2) (by positivity) fun k M hM hk => ?_
  refine (C111_relative hcs hL hC h (hp k) hs hδ hδ1 hM fun b => by simpa using hk b b.2).trans ?_
  rw [div_div]
  have := hB k
  gcongr
end

/-! ### Concrete cases -/

/-- The ratio of signal to background is known to be 2/3, to a tenth. -/
noncomputable def exRatioCalls : List (ConCall ℝ) := [.ratio "s" "b" (2/3) (1/10)]

theorem exRatio_run : Registered.run exRatioCalls = Registered.update Registered.empty (.ratio "s" "b" (2/3) (1/10)) := rfl

theorem exRatio_proper : ProperCalls exRatioCalls := by
  unfold ProperCalls
  rw [exRatio_run]
  exact ⟨fun k b h => (by cases h), fun l => rfl⟩

theorem exRatio_evaluate {b s : ℝ} (hb : 1 ≤ b) : (ConstraintManager.runCalls exRatioCalls).evaluate [("b", b), ("s", s)] = .ok (some ((s / b - 2/3) * (s / b - 2/3) / (2 * (1/10) * (1/10)))) := by
  have hm : ConstraintManager.runCalls exRatioCalls = ({ ConstraintManager.empty with ratio := [(("s", "b"), ⟨2/3, 1/10⟩)] } : ConstraintManager ℝ) := rfl
  have hab : ¬ |b| < (RatioConstraint.epsilon : ℝ) := by
    rw [abs_of_pos (by linarith)]
    unfold RatioConstraint.epsilon
    norm_num
    linarith
  have hev : (⟨2/3, 1/10⟩ : RatioConstraint ℝ).evaluate s b = some ((s / b - 2/3) * (s / b - 2/3) / (2 * (1/10) * (1/10))) := by
    unfold RatioConstraint.evaluate
    simp only [if_neg hab]
    unfold Fl.div
    rw [if_neg (by linarith)]
    simp only
    rw [if_neg (by norm_num)]
  have h1 : ConstraintManager.dictAt [("b", b), ("s", s)] "s" = .ok s := by simp [ConstraintManager.dictAt, SMap.find, show ("b" : String) ≠ "s" by decide]
  have h2 : ConstraintManager.dictAt [("b", b), ("s", s)] "b" = .ok b := by simp [ConstraintManager.dictAt, SMap.find]
  rw [hm]
  unfold ConstraintManager.evaluate ConstraintManager.sumOver ConstraintManager.evalPair
  simp only [ConstraintManager.empty, Res.forFold, Res.ok_bind, Res.pure_eq, h1, h2, hev, Fl.add, zero_add]

theorem exRatio_point {b s : ℝ} (hb : 1 ≤ b) (hs : 0 < s) :
    FitPoint exTwo (ConstraintManager.runCalls exRatioCalls) (exRealPdf "d" 0 0) [("b", b), ("s", s)] ((s / b - 2/3) * (s / b - 2/3) / (2 * (1/10) * (1/10))) := by
  have h := exTwo_point 0 0 (b := b) (s := s) (by linarith) hs
  refine ⟨h.nonempty, h.sorted, h.all, h.positive, ?_⟩
  have : List.filter (fun p : String × ℝ => decide (p.1 ∈ PdfLog.fitted exTwo)) [("b", b), ("s", s)] = [("b", b), ("s", s)] := by
    rw [show PdfLog.fitted exTwo = ["s", "b"] from rfl]
    rfl
  rw [this]
  exact exRatio_evaluate hb

-- signal and background grow in proportion, with the constraint on their ratio: the fraction by which the fitted signal is wrong goes to zero in probability
example (C : FitSys σ ℝ) (objs : Nat → σ) : Tendsto (fun k : ℕ => (dataLaw exTwo [("b", 3 * ((k : ℝ) + 1)), ("s", 2 * ((k : ℝ) + 1))] 2).real
    {n | ∃ ps, FitsAsWell exSysName C objs exTwo (ConstraintManager.runCalls exRatioCalls) (exRealPdf "d" 0 0) [("b", 3 * ((k : ℝ) + 1)), ("s", 2 * ((k : ℝ) + 1))] 0 n ps ∧
      1/100 * (2 * ((k : ℝ) + 1)) < |(SMap.find ps "s").getD 0 - 2 * ((k : ℝ) + 1)|}) atTop (𝓝 0) := by
  have hk : ∀ k : ℕ, (0 : ℝ) < (k : ℝ) + 1 := fun k => by positivity
  have hf : ∀ k : ℕ, (SMap.find ([("b", 3 * ((k : ℝ) + 1)), ("s", 2 * ((k : ℝ) + 1))] : ParamDict ℝ) "s").getD 0 = 2 * ((k : ℝ) + 1) := fun k => by
    simp [SMap.find, show ("b" : String) ≠ "s" by decide]
  have hlim : Tendsto (fun k : ℕ => (k : ℝ) + 1) atTop atTop := tendsto_atTop_add_const_right _ _ tendsto_natCast_atTop_atTop
  have := C110_consistent_parameters (name := exSysName) (C := C) (objs := objs) exRatio_proper (exTwo_canFit 0 0) exTwo_independent (x := "s") (by show "s" ∈ (["s", "b"] : List String); decide)
    (truth := fun k => [("b", 3 * ((k : ℝ) + 1)), ("s", 2 * ((k : ℝ) + 1))]) (fun k => exRatio_point (by have := hk k; linarith [Nat.cast_nonneg (α := ℝ) k]) (by have := hk k; linarith)) (B := 0)
    (fun k => le_of_eq (by
      have : 2 * ((k : ℝ) + 1) / (3 * ((k : ℝ) + 1)) = 2/3 := by have := (hk k).ne'; field_simp
      rw [this]; ring))
    (by
      intro b hb
      have : b < 2 := hb
      have hb' : b = 0 ∨ b = 1 := by omega
      rcases hb' with rfl | rfl
      · simp only [(exTwo_rate _ _).1]
        exact tendsto_atTop_mono (fun k => by have := hk k; linarith) hlim
      · simp only [(exTwo_rate _ _).2]
        exact tendsto_atTop_mono (fun k => by have := hk k; linarith) hlim)
    (A := 2) (by
      intro k b hb
      have : b < 2 := hb
      have hb' : b = 0 ∨ b = 1 := by omega
      have hk' := hk k
      rw [hf k, abs_of_pos (by linarith)]
      rcases hb' with rfl | rfl
      · rw [(exTwo_rate _ _).1]; linarith
      · rw [(exTwo_rate _ _).2]; linarith) (s := 0) (δ := 1/100) le_rfl (by norm_num)
  refine this.congr fun k => ?_
  simp only [hf]
  rw [abs_of_pos (by have := hk k; linarith)]
  rfl

-- a gain systematic, and a signal that grows
example : Tendsto (fun k : ℕ => (ratesLaw (![((k : ℝ) + 1) * (3 / 2), ((k : ℝ) + 1) * (1 / 2)] : Fin 2 → ℝ)).real
    {n | ∃ ps μ, SysFitsAsWell exSysName exGain [.add 0, .addDist "s" [""]] [(exRealPdf "s" (1/2) (1/2), .direct)] exGainBase (exRealPdf "d" 0 0) ["g", "s"] [("g", 3), ("s", (k : ℝ) + 1)] 1 n ps μ ∧
      ∃ b : Fin 2, 1/10 * (![((k : ℝ) + 1) * (3 / 2), ((k : ℝ) + 1) * (1 / 2)] : Fin 2 → ℝ) b ≤ |μ b - (![((k : ℝ) + 1) * (3 / 2), ((k : ℝ) + 1) * (1 / 2)] : Fin 2 → ℝ) b|}) atTop (𝓝 0) := by
  have hlim : Tendsto (fun k : ℕ => (k : ℝ) + 1) atTop atTop := tendsto_atTop_add_const_right _ _ tendsto_natCast_atTop_atTop
  refine C111_consistent (cs := []) (c := fun _ => 0) (B := 0) ⟨fun k b h => (by cases h), fun l => rfl⟩ rfl exGain_refreshing exGainBase_setup
    (fun k => exGain_point (g := 3) (s := (k : ℝ) + 1) (by norm_num) (by positivity)) (fun k => le_rfl) (fun b => ?_) (by norm_num) (by norm_num) (by norm_num)
  have hb : b = (0 : Fin 2) ∨ b = (1 : Fin 2) := by
    have : ∀ b : Fin 2, b = 0 ∨ b = 1 := by decide
    exact this b
  rcases hb with rfl | rfl
  · exact hlim.atTop_mul_const (by norm_num)
  · exact hlim.atTop_mul_const (by norm_num)

end Oxsx
