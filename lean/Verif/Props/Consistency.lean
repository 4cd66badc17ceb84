import Verif.Props.JointFit
import Verif.Props.GridSearch
import Verif.Props.FitData
set_option linter.unusedSectionVars false
set_option linter.unusedSimpArgs false
set_option linter.unusedVariables false
/-
C110: fits recover the parameters the data were drawn from, up to the statistical error.
-/
namespace Oxsx
open MeasureTheory ProbabilityTheory LeapFrog GridSearch
open scoped ENNReal Nat

variable {σ : Type} {k : Nat}

/-! ### The Poisson law -/

theorem poisson_second (r : NNReal) : Integrable (fun n : ℕ => (n : ℝ) ^ 2) (poissonMeasure r) ∧ ∫ n, (n : ℝ) ^ 2 ∂(poissonMeasure r) = (r : ℝ) ^ 2 + r := by
  obtain ⟨i1, m1⟩ := poisson_mean r
  have s1 : HasSum (fun n : ℕ => Real.exp (-r) * (r : ℝ) ^ n / (n)! * (n : ℝ)) r := by
    have h := integrable_poissonMeasure_iff.1 i1
    have h' : Summable (fun n : ℕ => Real.exp (-r) * (r : ℝ) ^ n / (n)! * (n : ℝ)) := by
      refine h.congr fun n => ?_
      rw [Real.norm_of_nonneg (Nat.cast_nonneg n)]
    have := integral_poissonMeasure r (fun n : ℕ => (n : ℝ))
    rw [m1] at this
    simp only [smul_eq_mul] at this
    have hh := h'.hasSum
    rwa [← this] at hh
  have s2 : HasSum (fun n : ℕ => Real.exp (-r) * (r : ℝ) ^ n / (n)! * (n : ℝ) ^ 2) ((r : ℝ) ^ 2 + r) := by
    rw [← hasSum_nat_add_iff' 1]
    simp only [Finset.sum_range_one, Nat.cast_zero, ne_eq, OfNat.ofNat_ne_zero, not_false_eq_true, zero_pow, mul_zero, sub_zero]
    have e : (fun n : ℕ => Real.exp (-r) * (r : ℝ) ^ (n + 1) / ((n + 1)! : ℝ) * ((n + 1 : ℕ) : ℝ) ^ 2) =
        fun n => (r : ℝ) * (Real.exp (-r) * (r : ℝ) ^ n / (n)! * (n : ℝ)) + (r : ℝ) * (Real.exp (-r) * (r : ℝ) ^ n / (n)!) := by
      ext n
      rw [Nat.factorial_succ]
      push_cast
      field_simp
      ring
    rw [e]
    have := (s1.mul_left (r : ℝ)).add ((hasSum_one_poissonMeasure r).mul_left (r : ℝ))
    rw [mul_one, ← sq] at this
    exact this
  constructor
  · rw [integrable_poissonMeasure_iff]
    refine s2.summable.congr fun n => ?_
    rw [Real.norm_of_nonneg (sq_nonneg _)]
  · rw [integral_poissonMeasure]
    simp only [smul_eq_mul]
    exact s2.tsum_eq

/-- The variance of a Poisson law is its mean. -/
theorem poisson_variance (r : NNReal) : Integrable (fun n : ℕ => ((n : ℝ) - r) ^ 2) (poissonMeasure r) ∧ ∫ n, ((n : ℝ) - r) ^ 2 ∂(poissonMeasure r) = r := by
  obtain ⟨i1, m1⟩ := poisson_mean r
  obtain ⟨i2, m2⟩ := poisson_second r
  have e : (fun n : ℕ => ((n : ℝ) - r) ^ 2) = fun n : ℕ => (n : ℝ) ^ 2 - 2 * r * (n : ℝ) + (r : ℝ) ^ 2 := by ext n; ring
  rw [e]
  have i3 : Integrable (fun n : ℕ => (n : ℝ) ^ 2 - 2 * r * (n : ℝ)) (poissonMeasure r) := i2.sub (i1.const_mul _)
  refine ⟨i3.add (integrable_const _), ?_⟩
  rw [integral_add i3 (integrable_const _), integral_sub i2 (i1.const_mul _), m2, integral_const_mul, m1]
  simp
  ring

/-! ### Points as good as the truth -/

/-- Pearson's sum: squared differences between counts and rates, over the rates. -/
noncomputable def pearson {ι : Type} [Fintype ι] (n μ : ι → ℝ) : ℝ := ∑ i, (n i - μ i) ^ 2 / μ i

/-- Rates at which the Poisson sum is nearly as small as at others are near them. -/
theorem near_of_le {ι : Type} [Fintype ι] {n μ₀ μ : ι → ℝ} (hn : ∀ i, 0 ≤ n i) (h₀ : ∀ i, 0 < μ₀ i) (h : ∀ i, 0 < μ i) {s : ℝ}
    (hle : ∑ i, poissonTerm (n i) (μ i) ≤ ∑ i, poissonTerm (n i) (μ₀ i) + s) :
    ∑ i, (Real.sqrt (μ i) - Real.sqrt (μ₀ i)) ^ 2 ≤ 4 * pearson n μ₀ + 2 * s := by
  have step : ∀ i, (Real.sqrt (μ i) - Real.sqrt (μ₀ i)) ^ 2 ≤ 2 * (poissonTerm (n i) (μ i) - poissonTerm (n i) (μ₀ i)) + 4 * ((n i - μ₀ i) ^ 2 / μ₀ i) := by
    intro i
    set a := Real.sqrt (μ₀ i) with ha
    set b := Real.sqrt (μ i) with hb
    have ha0 : 0 < a := Real.sqrt_pos.2 (h₀ i)
    have hb0 : 0 < b := Real.sqrt_pos.2 (h i)
    have e0 : μ₀ i = a ^ 2 := (Real.sq_sqrt (h₀ i).le).symm
    have e1 : μ i = b ^ 2 := (Real.sq_sqrt (h i).le).symm
    have hlog : Real.log (μ i) - Real.log (μ₀ i) ≤ 2 * (b / a - 1) := by
      rw [e0, e1, Real.log_pow, Real.log_pow]
      have := Real.log_le_sub_one_of_pos (div_pos hb0 ha0)
      rw [Real.log_div hb0.ne' ha0.ne'] at this
      push_cast
      linarith
    have hd : b ^ 2 - a ^ 2 - n i * (2 * (b / a - 1)) ≤ poissonTerm (n i) (μ i) - poissonTerm (n i) (μ₀ i) := by
      unfold poissonTerm
      have := mul_le_mul_of_nonneg_left hlog (hn i)
      rw [← e0, ← e1]
      linarith
    set e := (n i - a ^ 2) / a with he
    have h2 : b ^ 2 - a ^ 2 - n i * (2 * (b / a - 1)) = (b - a - e) ^ 2 - e ^ 2 := by rw [he]; field_simp; ring
    have h3 : (n i - μ₀ i) ^ 2 / μ₀ i = e ^ 2 := by rw [he, e0, div_pow]
    rw [h3]
    nlinarith [sq_nonneg (b - a - 2 * e)]
  calc ∑ i, (Real.sqrt (μ i) - Real.sqrt (μ₀ i)) ^ 2
      ≤ ∑ i, (2 * (poissonTerm (n i) (μ i) - poissonTerm (n i) (μ₀ i)) + 4 * ((n i - μ₀ i) ^ 2 / μ₀ i)) := Finset.sum_le_sum fun i _ => step i
    _ = 2 * (∑ i, poissonTerm (n i) (μ i) - ∑ i, poissonTerm (n i) (μ₀ i)) + 4 * pearson n μ₀ := by
      unfold pearson
      rw [Finset.sum_add_distrib, ← Finset.mul_sum, ← Finset.mul_sum, Finset.sum_sub_distrib]
    _ ≤ _ := by linarith

theorem pearson_mean {log : List (BinnedED ℝ × NormStatus)} {D₀ : ParamDict ℝ} {m : Nat} (h0 : ∀ b, b < m → 0 < rateAt log D₀ b) :
    Integrable (fun n : Fin m → ℕ => pearson (fun b => (n b : ℝ)) (fun b : Fin m => rateAt log D₀ b)) (dataLaw log D₀ m) ∧
      ∫ n, pearson (fun b => (n b : ℝ)) (fun b : Fin m => rateAt log D₀ b) ∂(dataLaw log D₀ m) = m := by
  have hv := fun b : Fin m => poisson_variance (rateAt log D₀ b).toNNReal
  have hc : ∀ b : Fin m, ((rateAt log D₀ b).toNNReal : ℝ) = rateAt log D₀ b := fun b => Real.coe_toNNReal _ (h0 b.1 b.2).le
  simp only [hc] at hv
  have hi : ∀ b : Fin m, Integrable (fun n : Fin m → ℕ => ((n b : ℝ) - rateAt log D₀ b) ^ 2 / rateAt log D₀ b) (dataLaw log D₀ m) := fun b =>
    (integrable_comp_eval (μ := fun b : Fin m => poissonMeasure (rateAt log D₀ b).toNNReal) (i := b) (f := fun k : ℕ => ((k : ℝ) - rateAt log D₀ b) ^ 2) (hv b).1).div_const _
  unfold pearson
  refine ⟨integrable_finsetSum _ fun b _ => hi b, ?_⟩
  rw [integral_finsetSum _ fun b _ => hi b]
  have : ∀ b : Fin m, ∫ n, ((n b : ℝ) - rateAt log D₀ b) ^ 2 / rateAt log D₀ b ∂(dataLaw log D₀ m) = 1 := by
    intro b
    rw [integral_div]
    have e := integral_comp_eval (μ := fun b : Fin m => poissonMeasure (rateAt log D₀ b).toNNReal) (i := b) (f := fun k : ℕ => ((k : ℝ) - rateAt log D₀ b) ^ 2)
      (hv b).1.aestronglyMeasurable
    have e' : ∫ n, ((n b : ℝ) - rateAt log D₀ b) ^ 2 ∂(dataLaw log D₀ m) = rateAt log D₀ b := e.trans (hv b).2
    rw [e', div_self (h0 b.1 b.2).ne']
  rw [Finset.sum_congr rfl fun b _ => this b]
  simp

/-- How far the rates at `ps` are from those at `ps₀`: the sum over the bins of the squared differences of their square roots. -/
noncomputable def rateError (log : List (BinnedED ℝ × NormStatus)) (m : Nat) (ps₀ ps : ParamDict ℝ) : ℝ :=
  ∑ b : Fin m, (Real.sqrt (rateAt log ps b) - Real.sqrt (rateAt log ps₀ b)) ^ 2

theorem nllAt_fin (log : List (BinnedED ℝ × NormStatus)) (d : BinnedED ℝ) (n : Fin d.hist.nBins → ℕ) (ps : ParamDict ℝ) :
    nllAt log (withCounts d n) ps = ∑ b : Fin d.hist.nBins, poissonTerm (n b : ℝ) (rateAt log ps b) := by
  unfold nllAt
  show ((List.range d.hist.nBins).map _).sum = _
  rw [sum_range_fin]
  exact Finset.sum_congr rfl fun b _ => by rw [withCounts_countIn]

/-- C110, error: the data are drawn from the rates at `ps₀`. There is a function of the data (Pearson's sum), with the number of bins as its mean, such that for all data
and every point that fits them as well as `ps₀` does, or worse by at most `s`, the error of the rates is at most four times that function plus twice the
constraint term at `ps₀` and `s`. The constraint term must not be negative. -/
theorem C110_error {name : Nat → String} {C : FitSys σ ℝ} {objs : Nat → σ} {log : List (BinnedED ℝ × NormStatus)} {cons : ConstraintManager ℝ} {d : BinnedED ℝ}
    {ps₀ : ParamDict ℝ} {c₀ : ℝ} (h : CanFit log d) (h₀ : FitPoint log cons d ps₀ c₀) :
    ∃ X : (Fin d.hist.nBins → ℕ) → ℝ, (∀ n, 0 ≤ X n) ∧ Integrable X (dataLaw log ps₀ d.hist.nBins) ∧ ∫ n, X n ∂(dataLaw log ps₀ d.hist.nBins) = d.hist.nBins ∧
      ∀ n ps c, FitPoint log cons d ps c → 0 ≤ c → ∃ v₀ v, fitValue name C objs log cons (withCounts d n) ps₀ = .ok (some v₀) ∧
        fitValue name C objs log cons (withCounts d n) ps = .ok (some v) ∧ ∀ s, v ≤ v₀ + s → rateError log d.hist.nBins ps₀ ps ≤ 4 * X n + 2 * (c₀ + s) := by
  obtain ⟨i, e⟩ := pearson_mean (log := log) (D₀ := ps₀) h₀.positive
  refine ⟨fun n => pearson (fun b => (n b : ℝ)) (fun b : Fin d.hist.nBins => rateAt log ps₀ b), fun n => Finset.sum_nonneg fun b _ => div_nonneg (sq_nonneg _) (h₀.positive b.1 b.2).le, i, e,
    fun n ps c hp hc => ?_⟩
  refine ⟨nllAt log (withCounts d n) ps₀ + c₀, nllAt log (withCounts d n) ps + c, fitValue_eq (withCounts_canFit h n) (withCounts_point h₀ n), fitValue_eq (withCounts_canFit h n) (withCounts_point hp n), fun s hle => ?_⟩
  rw [nllAt_fin, nllAt_fin] at hle
  have hle' : ∑ b : Fin d.hist.nBins, poissonTerm (n b : ℝ) (rateAt log ps b) ≤ ∑ b : Fin d.hist.nBins, poissonTerm (n b : ℝ) (rateAt log ps₀ b) + (c₀ + s) := by linarith
  exact near_of_le (n := fun b => (n b : ℝ)) (μ₀ := fun b : Fin d.hist.nBins => rateAt log ps₀ b) (μ := fun b : Fin d.hist.nBins => rateAt log ps b)
    (fun b => Nat.cast_nonneg _) (fun b => h₀.positive b.1 b.2) (fun b => hp.positive b.1 b.2) hle'

/-- `ps` is a possible answer for these data: it fits them as well as `ps₀` does, or worse by at most `s`. -/
def AsGood (name : Nat → String) (C : FitSys σ ℝ) (objs : Nat → σ) (log : List (BinnedED ℝ × NormStatus)) (cons : ConstraintManager ℝ) (d : BinnedED ℝ) (ps₀ : ParamDict ℝ) (s : ℝ)
    (n : Fin d.hist.nBins → ℕ) (ps : ParamDict ℝ) : Prop :=
  ∃ c v₀ v, FitPoint log cons d ps c ∧ 0 ≤ c ∧ fitValue name C objs log cons (withCounts d n) ps₀ = .ok (some v₀) ∧
    fitValue name C objs log cons (withCounts d n) ps = .ok (some v) ∧ v ≤ v₀ + s

theorem AsGood.bound {name : Nat → String} {C : FitSys σ ℝ} {objs : Nat → σ} {log : List (BinnedED ℝ × NormStatus)} {cons : ConstraintManager ℝ} {d : BinnedED ℝ}
    {ps₀ : ParamDict ℝ} {c₀ : ℝ} (h : CanFit log d) (h₀ : FitPoint log cons d ps₀ c₀) :
    ∃ X : (Fin d.hist.nBins → ℕ) → ℝ, (∀ n, 0 ≤ X n) ∧ Integrable X (dataLaw log ps₀ d.hist.nBins) ∧ ∫ n, X n ∂(dataLaw log ps₀ d.hist.nBins) = d.hist.nBins ∧
      ∀ n s ps, AsGood name C objs log cons d ps₀ s n ps → rateError log d.hist.nBins ps₀ ps ≤ 4 * X n + 2 * (c₀ + s) := by
  obtain ⟨X, x1, x2, x3, x4⟩ := C110_error (name := name) (C := C) (objs := objs) h h₀
  refine ⟨X, x1, x2, x3, fun n s ps ⟨c, v₀, v, g1, g2, g3, g4, g5⟩ => ?_⟩
  obtain ⟨w₀, w, e1, e2, e3⟩ := x4 n ps c g1 g2
  rw [g3] at e1; rw [g4] at e2
  cases e1; cases e2
  exact e3 s g5

/-- C110, probability: the probability that any point at all fits the data as well as `ps₀` does (or worse by at most `s`), while the error of its rates is
`t` or more, is at most `(4 bins + 2 (c₀ + s)) / t`. -/
theorem C110_likely {name : Nat → String} {C : FitSys σ ℝ} {objs : Nat → σ} {log : List (BinnedED ℝ × NormStatus)} {cons : ConstraintManager ℝ} {d : BinnedED ℝ}
    {ps₀ : ParamDict ℝ} {c₀ : ℝ} (h : CanFit log d) (h₀ : FitPoint log cons d ps₀ c₀) (hc₀ : 0 ≤ c₀) {s t : ℝ} (hs : 0 ≤ s) (ht : 0 < t) :
    (dataLaw log ps₀ d.hist.nBins).real {n | ∃ ps, AsGood name C objs log cons d ps₀ s n ps ∧ t ≤ rateError log d.hist.nBins ps₀ ps} ≤
      (4 * d.hist.nBins + 2 * (c₀ + s)) / t := by
  obtain ⟨X, x1, x2, x3, x4⟩ := AsGood.bound (name := name) (C := C) (objs := objs) h h₀
  have hi : Integrable (fun n => 4 * X n + 2 * (c₀ + s)) (dataLaw log ps₀ d.hist.nBins) := (x2.const_mul 4).add (integrable_const _)
  have hm := mul_meas_ge_le_integral_of_nonneg (μ := dataLaw log ps₀ d.hist.nBins) (f := fun n => 4 * X n + 2 * (c₀ + s))
    (Filter.Eventually.of_forall fun n => by have := x1 n; show (0 : ℝ) ≤ _; positivity) hi t
  rw [integral_add (x2.const_mul 4) (integrable_const _), integral_const_mul, x3] at hm
  simp only [integral_const, probReal_univ, smul_eq_mul, one_mul] at hm
  rw [le_div_iff₀ ht, mul_comm]
  refine le_trans (mul_le_mul_of_nonneg_left (measureReal_mono ?_) ht.le) hm
  rintro n ⟨ps, h1, h2⟩
  exact h2.trans (x4 n s ps h1)

theorem sqrt_far {a b δ : ℝ} (ha : 0 < a) (hb : 0 < b) (hδ : 0 < δ) (hδ1 : δ ≤ 1) (h : δ * a ≤ |b - a|) : δ ^ 2 * a / 9 ≤ (Real.sqrt b - Real.sqrt a) ^ 2 := by
  set x := Real.sqrt a
  set y := Real.sqrt b
  have hx : 0 < x := Real.sqrt_pos.2 ha
  have hy : 0 < y := Real.sqrt_pos.2 hb
  have ea : a = x ^ 2 := (Real.sq_sqrt ha.le).symm
  have eb : b = y ^ 2 := (Real.sq_sqrt hb.le).symm
  have key : δ * x / 3 ≤ |y - x| := by
    by_contra hlt
    rw [not_le] at hlt
    obtain ⟨l1, l2⟩ := abs_lt.1 hlt
    have : |b - a| < δ * a := by
      rw [ea, eb, abs_lt]
      have hδx : 0 < δ * x := mul_pos hδ hx
      have hδx1 : δ * x ≤ x := by nlinarith
      constructor <;> nlinarith
    linarith
  have h3 : (δ * x / 3) ^ 2 ≤ |y - x| ^ 2 := pow_le_pow_left₀ (by positivity) key 2
  rw [sq_abs] at h3
  rw [ea]
  calc δ ^ 2 * x ^ 2 / 9 = (δ * x / 3) ^ 2 := by ring
    _ ≤ _ := h3

/-- C110, relative error: the probability that any point fits the data as well as `ps₀` does (or worse by at most `s`), while its rate in a bin is off by a fraction `δ` or more, is at most a constant
over `δ` squared times the expected number of events in the bin. -/
theorem C110_relative {name : Nat → String} {C : FitSys σ ℝ} {objs : Nat → σ} {log : List (BinnedED ℝ × NormStatus)} {cons : ConstraintManager ℝ} {d : BinnedED ℝ}
    {ps₀ : ParamDict ℝ} {c₀ : ℝ} (h : CanFit log d) (h₀ : FitPoint log cons d ps₀ c₀) (hc₀ : 0 ≤ c₀) {s δ : ℝ} (hs : 0 ≤ s) (hδ : 0 < δ) (hδ1 : δ ≤ 1)
    {b : Nat} (hb : b < d.hist.nBins) :
    (dataLaw log ps₀ d.hist.nBins).real {n | ∃ ps, AsGood name C objs log cons d ps₀ s n ps ∧ δ * rateAt log ps₀ b ≤ |rateAt log ps b - rateAt log ps₀ b|} ≤
      9 * (4 * d.hist.nBins + 2 * (c₀ + s)) / (δ ^ 2 * rateAt log ps₀ b) := by
  have hr := h₀.positive b hb
  have := C110_likely (name := name) (C := C) (objs := objs) h h₀ hc₀ hs (t := δ ^ 2 * rateAt log ps₀ b / 9) (by positivity)
  refine le_trans (measureReal_mono ?_) (this.trans (le_of_eq (by field_simp)))
  rintro n ⟨ps, h1, h2⟩
  refine ⟨ps, h1, (sqrt_far hr ?_ hδ hδ1 h2).trans ?_⟩
  · obtain ⟨c, v₀, v, g, _⟩ := h1
    exact g.positive b hb
  · exact Finset.single_le_sum (f := fun b : Fin d.hist.nBins => (Real.sqrt (rateAt log ps b) - Real.sqrt (rateAt log ps₀ b)) ^ 2) (fun _ _ => sq_nonneg _) (Finset.mem_univ ⟨b, hb⟩)

/-- … in any bin: `r` is an expected number of events that every bin reaches. -/
theorem C110_relative_all {name : Nat → String} {C : FitSys σ ℝ} {objs : Nat → σ} {log : List (BinnedED ℝ × NormStatus)} {cons : ConstraintManager ℝ} {d : BinnedED ℝ}
    {ps₀ : ParamDict ℝ} {c₀ : ℝ} (h : CanFit log d) (h₀ : FitPoint log cons d ps₀ c₀) (hc₀ : 0 ≤ c₀) {s δ r : ℝ} (hs : 0 ≤ s) (hδ : 0 < δ) (hδ1 : δ ≤ 1)
    (hr : 0 < r) (hrb : ∀ b, b < d.hist.nBins → r ≤ rateAt log ps₀ b) :
    (dataLaw log ps₀ d.hist.nBins).real {n | ∃ ps, AsGood name C objs log cons d ps₀ s n ps ∧ ∃ b, b < d.hist.nBins ∧ δ * rateAt log ps₀ b ≤ |rateAt log ps b - rateAt log ps₀ b|} ≤
      9 * (4 * d.hist.nBins + 2 * (c₀ + s)) / (δ ^ 2 * r) := by
  have := C110_likely (name := name) (C := C) (objs := objs) h h₀ hc₀ hs (t := δ ^ 2 * r / 9) (by positivity)
  refine le_trans (measureReal_mono ?_) (this.trans (le_of_eq (by field_simp)))
  rintro n ⟨ps, h1, b, hb, h2⟩
  refine ⟨ps, h1, le_trans ?_ ((sqrt_far (h₀.positive b hb) ?_ hδ hδ1 h2).trans ?_)⟩
  · have := mul_le_mul_of_nonneg_left (hrb b hb) (sq_nonneg δ)
    linarith
  · obtain ⟨c, v₀, v, g, _⟩ := h1
    exact g.positive b hb
  · exact Finset.single_le_sum (f := fun b : Fin d.hist.nBins => (Real.sqrt (rateAt log ps b) - Real.sqrt (rateAt log ps₀ b)) ^ 2) (fun _ _ => sq_nonneg _) (Finset.mem_univ ⟨b, hb⟩)

/-! ### Parameters -/

/-- The shapes of the fitted distributions, as vectors of bin contents. -/
noncomputable def fittedShapes (log : List (BinnedED ℝ × NormStatus)) (m : Nat) : Fin (log.filter fun p => p.2.fittable).length → Fin m → ℝ :=
  fun j b => ((log.filter fun p => p.2.fittable)[j]).1.hist.contents.getD b 0

/-- With independent shapes each normalisation can be read off the rates. -/
theorem exists_readout {log : List (BinnedED ℝ × NormStatus)} {m : Nat} (hi : LinearIndependent ℝ (fittedShapes log m)) (hd : PdfLog.DistinctNames log) {x : String} (hx : x ∈ PdfLog.fitted log) :
    ∃ a : Fin m → ℝ, ∀ q ∈ log, q.2.fittable = true → ∑ b, a b * q.1.hist.contents.getD b 0 = if q.1.name = x then 1 else 0 := by
  obtain ⟨q₀, hq₀, hqx⟩ := List.mem_map.1 hx
  obtain ⟨i, hi₀, hiq⟩ := List.getElem_of_mem hq₀
  obtain ⟨g, hg⟩ := LinearMap.exists_leftInverse_of_injective (Finsupp.linearCombination ℝ (fittedShapes log m)) (LinearMap.ker_eq_bot.2 hi)
  have hgv : ∀ j, g (fittedShapes log m j) = Finsupp.single j 1 := by
    intro j
    have := LinearMap.congr_fun hg (Finsupp.single j 1)
    simpa [Finsupp.linearCombination_single] using this
  refine ⟨fun b => g (fun j => if b = j then 1 else 0) ⟨i, hi₀⟩, fun q hq hqf => ?_⟩
  obtain ⟨j, hj₀, hjq⟩ := List.getElem_of_mem (List.mem_filter.2 ⟨hq, hqf⟩ : q ∈ log.filter fun p => p.2.fittable)
  have hsum : g (fittedShapes log m ⟨j, hj₀⟩) = ∑ b, (fittedShapes log m ⟨j, hj₀⟩ b) • g (fun j => if b = j then 1 else 0) := LinearMap.pi_apply_eq_sum_univ g _
  rw [hgv] at hsum
  have hsum' := congrArg (fun z => z ⟨i, hi₀⟩) hsum
  simp only [Finsupp.coe_finset_sum, Finset.sum_apply, Finsupp.smul_apply, smul_eq_mul] at hsum'
  have hc : ∀ b : Fin m, fittedShapes log m ⟨j, hj₀⟩ b = q.1.hist.contents.getD b 0 := fun b => by
    unfold fittedShapes
    rw [show (log.filter fun p => p.2.fittable)[(⟨j, hj₀⟩ : Fin _)] = q from hjq]
  simp only [hc] at hsum'
  rw [Finset.sum_congr rfl fun b _ => mul_comm _ _, ← hsum', Finsupp.single_apply]
  have hji : q.1.name = x ↔ j = i := by
    have hl : ∀ a (ha : a < (log.filter fun p => p.2.fittable).length), (PdfLog.fitted log)[a]? = some ((log.filter fun p => p.2.fittable)[a]).1.name := fun a ha => by
      unfold PdfLog.fitted
      rw [List.getElem?_map, List.getElem?_eq_getElem ha]; rfl
    constructor
    · intro e
      have e1 := hl j hj₀
      have e2 := hl i hi₀
      rw [hjq, e] at e1
      rw [hiq, hqx] at e2
      exact (List.getElem?_inj (by simpa [PdfLog.fitted] using hj₀) hd).1 (e1.trans e2.symm)
    · intro e
      subst e
      rw [← hjq, hiq, hqx]
  by_cases hq' : j = i
  · rw [if_pos (hji.2 hq'), if_pos (by subst hq'; rfl)]
  · rw [if_neg (fun e => hq' (hji.1 e)), if_neg (fun e => hq' (by simpa using e))]

theorem readout {log : List (BinnedED ℝ × NormStatus)} {m : Nat} (hd : PdfLog.DistinctNames log) {x : String} (hx : x ∈ PdfLog.fitted log) {a : Fin m → ℝ}
    (ha : ∀ q ∈ log, q.2.fittable = true → ∑ b, a b * q.1.hist.contents.getD b 0 = if q.1.name = x then 1 else 0) (ps₀ ps : ParamDict ℝ) :
    ∑ b : Fin m, a b * (rateAt log ps b - rateAt log ps₀ b) = (SMap.find ps x).getD 0 - (SMap.find ps₀ x).getD 0 := by
  have e1 : ∀ b : Fin m, rateAt log ps b - rateAt log ps₀ b = ((log.filter fun p => p.2.fittable).map fun q =>
      ((SMap.find ps q.1.name).getD 0 - (SMap.find ps₀ q.1.name).getD 0) * q.1.hist.contents.getD b 0).sum := by
    intro b
    rw [rateAt_eq, rateAt_eq]
    clear hd hx ha
    induction log with
    | nil => simp
    | cons q log ih =>
      rw [List.filter_cons]
      simp only [List.map_cons, List.sum_cons]
      by_cases hq : q.2.fittable = true
      · rw [if_pos hq]
        simp only [List.map_cons, List.sum_cons]
        rw [← ih]
        simp only [normOf, hq, if_true]
        ring
      · rw [if_neg hq, ← ih]
        have hq' : ∀ v : String → ℝ, normOf v q = 1 := fun v => if_neg hq
        rw [hq', hq']
        ring
  have e2 : ∀ l : List (BinnedED ℝ × NormStatus), (∀ q ∈ l, ∑ b : Fin m, a b * q.1.hist.contents.getD b 0 = if q.1.name = x then 1 else 0) →
      ∑ b : Fin m, a b * (l.map fun q => ((SMap.find ps q.1.name).getD 0 - (SMap.find ps₀ q.1.name).getD 0) * q.1.hist.contents.getD b 0).sum =
        (l.map fun q => if q.1.name = x then (SMap.find ps x).getD 0 - (SMap.find ps₀ x).getD 0 else 0).sum := by
    intro l
    induction l with
    | nil => intro _; simp
    | cons q l ih =>
      intro hl
      simp only [List.map_cons, List.sum_cons, mul_add, Finset.sum_add_distrib]
      rw [ih fun q hq => hl q (by simp [hq])]
      congr 1
      have := hl q (by simp)
      calc ∑ b : Fin m, a b * (((SMap.find ps q.1.name).getD 0 - (SMap.find ps₀ q.1.name).getD 0) * q.1.hist.contents.getD b 0)
          = ((SMap.find ps q.1.name).getD 0 - (SMap.find ps₀ q.1.name).getD 0) * ∑ b : Fin m, a b * q.1.hist.contents.getD b 0 := by
            rw [Finset.mul_sum]; exact Finset.sum_congr rfl fun b _ => by ring
        _ = _ := by
          rw [this]
          by_cases hq : q.1.name = x
          · rw [if_pos hq, if_pos hq, hq, mul_one]
          · rw [if_neg hq, if_neg hq, mul_zero]
  simp only [e1]
  rw [e2 _ fun q hq => ha q (List.mem_filter.1 hq).1 (List.mem_filter.1 hq).2]
  unfold PdfLog.DistinctNames PdfLog.fitted at hd
  unfold PdfLog.fitted at hx
  generalize log.filter (fun p => p.2.fittable) = l at hd hx
  induction l with
  | nil => simp at hx
  | cons q l ih =>
    simp only [List.map_cons, List.nodup_cons, List.mem_cons] at hd hx
    simp only [List.map_cons, List.sum_cons]
    rcases hx with hx | hx
    · rw [if_pos hx.symm]
      have : (l.map fun q => if q.1.name = x then (SMap.find ps x).getD 0 - (SMap.find ps₀ x).getD 0 else 0).sum = 0 := by
        refine List.sum_eq_zero fun z hz => ?_
        obtain ⟨r, hr, rfl⟩ := List.mem_map.1 hz
        rw [if_neg]
        intro e
        exact hd.1 (List.mem_map.2 ⟨r, hr, e.trans hx⟩)
      rw [this, add_zero]
    · rw [if_neg, zero_add]
      · exact ih hd.2 hx
      · intro e
        exact hd.1 (by rw [e]; exact hx)

/-- C110, parameters: the shapes of the fitted distributions are linearly independent. For every fitted normalisation there are weights of the bins, depending on the
shapes alone, such that for data drawn at any `ps₀` the probability that any point fits the data as well as `ps₀` does (or worse by at most `s`), while its
normalisation is off by more than a fraction `δ` of the weighted sum of the expected numbers of events, is at most a constant over `δ` squared times an expected number of
events that every bin reaches. -/
theorem C110_parameters {log : List (BinnedED ℝ × NormStatus)} {d : BinnedED ℝ} (h : CanFit log d) (hi : LinearIndependent ℝ (fittedShapes log d.hist.nBins)) {x : String}
    (hx : x ∈ PdfLog.fitted log) :
    ∃ w : Fin d.hist.nBins → ℝ, (∀ b, 0 ≤ w b) ∧ ∀ (name : Nat → String) (C : FitSys σ ℝ) (objs : Nat → σ) (cons : ConstraintManager ℝ) (ps₀ : ParamDict ℝ) (c₀ s δ r : ℝ),
      FitPoint log cons d ps₀ c₀ → 0 ≤ c₀ → 0 ≤ s → 0 < δ → δ ≤ 1 → 0 < r → (∀ b, b < d.hist.nBins → r ≤ rateAt log ps₀ b) →
      (dataLaw log ps₀ d.hist.nBins).real {n | ∃ ps, AsGood name C objs log cons d ps₀ s n ps ∧
        δ * ∑ b : Fin d.hist.nBins, w b * rateAt log ps₀ b < |(SMap.find ps x).getD 0 - (SMap.find ps₀ x).getD 0|} ≤
        9 * (4 * d.hist.nBins + 2 * (c₀ + s)) / (δ ^ 2 * r) := by
  obtain ⟨a, ha⟩ := exists_readout hi h.distinct hx
  refine ⟨fun b => |a b|, fun b => abs_nonneg _, fun name C objs cons ps₀ c₀ s δ r h₀ hc₀ hs hδ hδ1 hr hrb => ?_⟩
  refine le_trans (measureReal_mono ?_) (C110_relative_all (name := name) (C := C) (objs := objs) h h₀ hc₀ hs hδ hδ1 hr hrb)
  rintro n ⟨ps, h1, h2⟩
  refine ⟨ps, h1, ?_⟩
  by_contra hno
  push Not at hno
  refine absurd h2 (not_lt.2 ?_)
  rw [← readout h.distinct hx ha ps₀ ps, Finset.mul_sum]
  refine (Finset.abs_sum_le_sum_abs _ _).trans (Finset.sum_le_sum fun b _ => ?_)
  rw [abs_mul]
  have := mul_le_mul_of_nonneg_left (hno b b.2).le (abs_nonneg (a b))
  linarith

/-! ### Joint fits -/

/-- `D` is a possible answer of a joint fit for these data: an optimiser that tries `D₀` and `D` sees as small a value at `D`, or one larger by at most `s`. -/
def JointAsGood (name : Nat → String) (C : FitSys σ ℝ) (objs : Fin k → Nat → σ) (log : Fin k → List (BinnedED ℝ × NormStatus)) (cons : Fin k → ConstraintManager ℝ) (K : ConstraintManager ℝ)
    (d : Fin k → BinnedED ℝ) (init : Fin k → ParamDict ℝ) (D₀ : ParamDict ℝ) (s : ℝ) (n : ∀ p, Fin (d p).hist.nBins → ℕ) (D : ParamDict ℝ) : Prop :=
  ∃ c h v₀ v, JointPoint log cons K d D c ∧ 0 ≤ c ∧
    (∀ p, NLLH.configured name C (objs p) (log p) (cons p) (init p) (withCounts (d p) (n p)) = .ok (h p)) ∧
    (jointSum k C K).scan h [D₀, D] = .ok [some v₀, some v] ∧ v ≤ v₀ + s

/-- C110, joint fits: the data of all channels are drawn from the rates at `D₀`. The probability that any point fits them as well as `D₀` does (or worse by at most `s`), while
the error of its rates, summed over the channels, is `t` or more, is at most `(4 bins + 2 (c₀ + s)) / t`, with the bins of all channels. -/
theorem C110_joint {name : Nat → String} {C : FitSys σ ℝ} {objs : Fin k → Nat → σ} {log : Fin k → List (BinnedED ℝ × NormStatus)} {cons : Fin k → ConstraintManager ℝ}
    {K : ConstraintManager ℝ} {d : Fin k → BinnedED ℝ} (hfit : ∀ p, CanFit (log p) (d p)) {init : Fin k → ParamDict ℝ}
    (hinit : ∀ p, init p ≠ [] ∧ ∀ n ∈ PdfLog.fitted (log p), (SMap.find (init p) n).isSome) {D₀ : ParamDict ℝ} {c₀ : ℝ} (h₀ : JointPoint log cons K d D₀ c₀) (hc₀ : 0 ≤ c₀)
    {s t : ℝ} (hs : 0 ≤ s) (ht : 0 < t) :
    (jointLaw log D₀ fun p => (d p).hist.nBins).real {n | ∃ D, JointAsGood name C objs log cons K d init D₀ s n D ∧ t ≤ ∑ p, rateError (log p) (d p).hist.nBins D₀ D} ≤
      (4 * ∑ p, ((d p).hist.nBins : ℝ) + 2 * (c₀ + s)) / t := by
  haveI : IsProbabilityMeasure (jointLaw log D₀ fun p => (d p).hist.nBins) := by unfold jointLaw; infer_instance
  set X : (∀ p, Fin (d p).hist.nBins → ℕ) → ℝ := fun n => ∑ p, pearson (fun b => (n p b : ℝ)) (fun b : Fin (d p).hist.nBins => rateAt (log p) D₀ b) with hX
  have hm := fun p => pearson_mean (log := log p) (D₀ := D₀) (h₀.positive p)
  have hi : ∀ p, Integrable (fun n : ∀ p, Fin (d p).hist.nBins → ℕ => pearson (fun b => (n p b : ℝ)) (fun b : Fin (d p).hist.nBins => rateAt (log p) D₀ b))
      (jointLaw log D₀ fun p => (d p).hist.nBins) := fun p =>
    integrable_comp_eval (μ := fun p => dataLaw (log p) D₀ (d p).hist.nBins) (i := p) (f := fun n => pearson (fun b => (n b : ℝ)) (fun b : Fin (d p).hist.nBins => rateAt (log p) D₀ b)) (hm p).1
  have x2 : Integrable X (jointLaw log D₀ fun p => (d p).hist.nBins) := integrable_finsetSum _ fun p _ => hi p
  have x3 : ∫ n, X n ∂(jointLaw log D₀ fun p => (d p).hist.nBins) = ∑ p, ((d p).hist.nBins : ℝ) := by
    rw [hX, integral_finsetSum _ fun p _ => hi p]
    refine Finset.sum_congr rfl fun p _ => ?_
    have := integral_comp_eval (μ := fun p => dataLaw (log p) D₀ (d p).hist.nBins) (i := p)
      (f := fun n => pearson (fun b => (n b : ℝ)) (fun b : Fin (d p).hist.nBins => rateAt (log p) D₀ b)) (hm p).1.aestronglyMeasurable
    exact this.trans (hm p).2
  have x1 : ∀ n, 0 ≤ X n := fun n => Finset.sum_nonneg fun p _ => Finset.sum_nonneg fun b _ => div_nonneg (sq_nonneg _) (h₀.positive p b.1 b.2).le
  have x4 : ∀ n D, JointAsGood name C objs log cons K d init D₀ s n D → ∑ p, rateError (log p) (d p).hist.nBins D₀ D ≤ 4 * X n + 2 * (c₀ + s) := by
    rintro n D ⟨c, h, v₀, v, g1, g2, g3, g4, g5⟩
    obtain ⟨h', e1, e2⟩ := C109_value (name := name) (C := C) (objs := objs) (cons := cons) (K := K) (d := fun p => withCounts (d p) (n p)) (fun p => withCounts_canFit (hfit p) (n p)) hinit
    have hh : h' = h := funext fun p => Res.ok.inj ((e1 p).symm.trans (g3 p))
    subst hh
    have e3 := e2 [(D₀, c₀), (D, c)] (by
      intro q hq
      simp only [List.mem_cons, List.not_mem_nil, or_false] at hq
      rcases hq with rfl | rfl
      · exact ⟨h₀.nonempty, h₀.sorted, h₀.all, h₀.positive, h₀.constraint⟩
      · exact ⟨g1.nonempty, g1.sorted, g1.all, g1.positive, g1.constraint⟩)
    simp only [List.map_cons, List.map_nil] at e3
    rw [g4] at e3
    have e4 := Res.ok.inj e3
    simp only [List.cons.injEq, Option.some.injEq, and_true] at e4
    obtain ⟨rfl, rfl⟩ := e4
    simp only [nllAt_fin] at g5
    have hle : ∑ i : (Σ p : Fin k, Fin (d p).hist.nBins), poissonTerm (n i.1 i.2 : ℝ) (rateAt (log i.1) D i.2) ≤
        ∑ i : (Σ p : Fin k, Fin (d p).hist.nBins), poissonTerm (n i.1 i.2 : ℝ) (rateAt (log i.1) D₀ i.2) + (c₀ + s) := by
      rw [Fintype.sum_sigma, Fintype.sum_sigma]
      linarith
    have := near_of_le (n := fun i : (Σ p : Fin k, Fin (d p).hist.nBins) => (n i.1 i.2 : ℝ)) (μ₀ := fun i => rateAt (log i.1) D₀ i.2) (μ := fun i => rateAt (log i.1) D i.2)
      (fun i => Nat.cast_nonneg _) (fun i => h₀.positive i.1 i.2.1 i.2.2) (fun i => g1.positive i.1 i.2.1 i.2.2) hle
    rw [Fintype.sum_sigma] at this
    unfold pearson at this
    rw [Fintype.sum_sigma] at this
    exact this
  have hi : Integrable (fun n => 4 * X n + 2 * (c₀ + s)) (jointLaw log D₀ fun p => (d p).hist.nBins) := (x2.const_mul 4).add (integrable_const _)
  have hm := mul_meas_ge_le_integral_of_nonneg (μ := jointLaw log D₀ fun p => (d p).hist.nBins) (f := fun n => 4 * X n + 2 * (c₀ + s))
    (Filter.Eventually.of_forall fun n => by have := x1 n; show (0 : ℝ) ≤ _; positivity) hi t
  rw [integral_add (x2.const_mul 4) (integrable_const _), integral_const_mul, x3] at hm
  simp only [integral_const, probReal_univ, smul_eq_mul, one_mul] at hm
  rw [le_div_iff₀ ht, mul_comm]
  refine le_trans (mul_le_mul_of_nonneg_left (measureReal_mono ?_) ht.le) hm
  rintro n ⟨D, h1, h2⟩
  exact h2.trans (x4 n D h1)

/-! ### Grid searches -/

/-- C110, a grid search of two normalisations on the fit statistic, with `ps₀` on the grid (not at its very first point, which is not tried: C52): for data at
which no point of the grid has the value zero (C52), it returns a point that fits the data as well as `ps₀` does; so the bounds above hold of it. -/
theorem C110_grid {name : Nat → String} {C : FitSys σ ℝ} {objs : Nat → σ} {log : List (BinnedED ℝ × NormStatus)} {cons : ConstraintManager ℝ} {d : BinnedED ℝ}
    {ps₀ : ParamDict ℝ} (h : CanFit log d) {g : GridSearch ℝ} (hg : g.Sensible) (hmin : g.maximising = false) (hN : g.steps.keys.length = 2)
    (hgrid : ∀ p, g.OnGrid p → ∃ c, FitPoint log cons d p c ∧ 0 ≤ c) (h₀ : g.OnGrid ps₀) (h₀' : ps₀ ≠ g.minima) {n : Fin d.hist.nBins → ℕ}
    (hz : ∀ p, g.OnGrid p → fitValue name C objs log cons (withCounts d n) p ≠ .ok (some 0)) :
    ∃ n₀ r visited, (∀ fuel, n₀ ≤ fuel → g.optimise (fitStat name C objs log cons (withCounts d n)) fuel = some (.ok (r, visited))) ∧
      g.OnGrid r.bestFit ∧ AsGood name C objs log cons d ps₀ 0 n r.bestFit := by
  have hval : ∀ p, g.OnGrid p → ∃ c y, FitPoint log cons d p c ∧ 0 ≤ c ∧ fitValue name C objs log cons (withCounts d n) p = .ok (some y) ∧
      (fitStat name C objs log cons (withCounts d n)).eval p = .ok y := by
    intro p hp
    obtain ⟨c, h1, h2⟩ := hgrid p hp
    have := fitValue_eq (name := name) (C := C) (objs := objs) (withCounts_canFit h n) (withCounts_point h1 n)
    refine ⟨c, _, h1, h2, this, ?_⟩
    show (fitValue name C objs log cons (withCounts d n) p >>= _) = _
    rw [this]; rfl
  obtain ⟨n₀, r, vis, r1, r2, r3, r4⟩ := C52_two_partial hg (t := fitStat name C objs log cons (withCounts d n)) (fun p hp => by
    obtain ⟨c, y, _, _, _, h3⟩ := hval p hp
    exact ⟨y, h3⟩) hN
  have hmem : ps₀ ∈ vis := (r3 ps₀).2 ⟨h₀, h₀'⟩
  obtain ⟨a1, a2, a3⟩ := r4 (List.ne_nil_of_mem hmem) (fun p hp hev => by
    have hpg := ((r3 p).1 hp).1
    obtain ⟨c, y, _, _, h3, h4⟩ := hval p hpg
    rw [h4] at hev
    rw [Res.ok.inj hev] at h3
    exact hz p hpg h3)
  have hbest := ((r3 _).1 a1).1
  refine ⟨n₀, r, vis, r1, hbest, ?_⟩
  obtain ⟨c, y, b1, b2, b3, b4⟩ := hval _ hbest
  obtain ⟨c', y', _, _, b3', b4'⟩ := hval _ h₀
  have l := a3 ps₀ h₀ h₀' y' b4'
  rw [b4] at a2
  simp only [hmin, Bool.false_eq_true, if_false] at l a2
  exact ⟨c, y', y, b1, b2, b3', b3, by rw [Res.ok.inj a2]; linarith⟩

/-! ### Concrete cases -/

-- three million background and two million signal events expected, two bins: with a probability of over 99.5 % every point that fits the data as well as the truth has both rates right to 10 %
example (C : FitSys σ ℝ) (objs : Nat → σ) :
    (dataLaw exTwo [("b", 3000000), ("s", 2000000)] 2).real {n | ∃ ps, AsGood exSysName C objs exTwo .empty (exRealPdf "d" 0 0) [("b", 3000000), ("s", 2000000)] 0 n ps ∧
      ∃ b, b < 2 ∧ 1/10 * rateAt exTwo [("b", 3000000), ("s", 2000000)] b ≤ |rateAt exTwo ps b - rateAt exTwo [("b", 3000000), ("s", 2000000)] b|} ≤ 1/200 := by
  have hp := exTwo_point 0 0 (b := 3000000) (s := 2000000) (by norm_num) (by norm_num)
  have := C110_relative_all (name := exSysName) (C := C) (objs := objs) (exTwo_canFit 0 0) hp le_rfl (s := 0) (δ := 1/10) (r := 1750000) le_rfl (by norm_num) (by norm_num) (by norm_num) (by
    intro b hb
    have : b < 2 := hb
    have hb' : b = 0 ∨ b = 1 := by omega
    rcases hb' with rfl | rfl
    · rw [(exTwo_rate _ _).1]; norm_num
    · rw [(exTwo_rate _ _).2]; norm_num)
  refine le_trans this ?_
  rw [show (exRealPdf "d" 0 0).hist.nBins = 2 from rfl]
  norm_num

theorem exTwo_independent : LinearIndependent ℝ (fittedShapes exTwo 2) := by
  rw [Fintype.linearIndependent_iff]
  intro c hc
  have h0 := congrFun hc 0
  have h1 := congrFun hc 1
  simp only [Finset.sum_apply, Pi.smul_apply, smul_eq_mul, Pi.zero_apply] at h0 h1
  have e : ∀ f : Fin (exTwo.filter fun p => p.2.fittable).length → ℝ, ∑ i, f i = f ⟨0, by decide⟩ + f ⟨1, by decide⟩ := fun f => Fin.sum_univ_two (f := (f : Fin 2 → ℝ))
  rw [e] at h0 h1
  have a0 : c ⟨0, by decide⟩ * (1/2) + c ⟨1, by decide⟩ * (1/4) = 0 := h0
  have a1 : c ⟨0, by decide⟩ * (1/2) + c ⟨1, by decide⟩ * (3/4) = 0 := h1
  intro i
  have hi : i = ⟨0, by decide⟩ ∨ i = ⟨1, by decide⟩ := by
    obtain ⟨i, hi⟩ := i
    have : i < 2 := hi
    have : i = 0 ∨ i = 1 := by omega
    rcases this with rfl | rfl <;> simp
  rcases hi with rfl | rfl <;> linarith

-- the signal normalisation of the same fit
example (C : FitSys σ ℝ) (objs : Nat → σ) : ∃ w : Fin 2 → ℝ, (∀ b, 0 ≤ w b) ∧ ∀ T : ℝ, 1 ≤ T →
    (dataLaw exTwo [("b", 3 * T), ("s", 2 * T)] 2).real {n | ∃ ps, AsGood exSysName C objs exTwo .empty (exRealPdf "d" 0 0) [("b", 3 * T), ("s", 2 * T)] 0 n ps ∧
      1/10 * ∑ b : Fin 2, w b * rateAt exTwo [("b", 3 * T), ("s", 2 * T)] b < |(SMap.find ps "s").getD 0 - 2 * T|} ≤ 7200 / (7/4 * T) := by
  obtain ⟨w, w0, hw⟩ := C110_parameters (σ := σ) (exTwo_canFit 0 0) exTwo_independent (x := "s") (by show "s" ∈ (["s", "b"] : List String); decide)
  refine ⟨w, w0, fun T hT => ?_⟩
  have := hw exSysName C objs .empty [("b", 3 * T), ("s", 2 * T)] 0 0 (1/10) (7/4 * T) (exTwo_point 0 0 (by linarith) (by linarith)) le_rfl le_rfl (by norm_num) (by norm_num) (by linarith) (by
    intro b hb
    have : b < 2 := hb
    have hb' : b = 0 ∨ b = 1 := by omega
    rcases hb' with rfl | rfl
    · rw [(exTwo_rate _ _).1]; linarith
    · rw [(exTwo_rate _ _).2]; linarith)
  have hf : (SMap.find ([("b", 3 * T), ("s", 2 * T)] : ParamDict ℝ) "s").getD 0 = 2 * T := by simp [SMap.find, show ("b" : String) ≠ "s" by decide]
  rw [hf] at this
  refine le_trans this ?_
  rw [show (exRealPdf "d" 0 0).hist.nBins = 2 from rfl]
  refine le_of_eq ?_
  have : T ≠ 0 := by linarith
  field_simp
  norm_num

/-- Ten by ten points. -/
noncomputable def exGrid : GridSearch ℝ := ⟨[("b", 1), ("s", 1)], [("b", 10), ("s", 10)], [("b", 1), ("s", 1)], false⟩

theorem exGrid_sensible : exGrid.Sensible where
  mins := (exJoint_init 1 1 0).2.1
  maxs := (exJoint_init 10 10 0).2.1
  sts := (exJoint_init 1 1 0).2.1
  same1 := rfl
  same2 := rfl
  axes := by
    intro n lo hi st h1 h2 h3
    have hn : n = "b" ∨ n = "s" := by
      by_contra hno
      push Not at hno
      simp [exGrid, SMap.find, hno.1.symm, hno.2.symm] at h1
    rcases hn with rfl | rfl
    · simp [exGrid, SMap.find] at h1 h2 h3
      subst h1; subst h2; subst h3; norm_num
    · simp [exGrid, SMap.find] at h1 h2 h3
      subst h1; subst h2; subst h3; norm_num
  differ := by simp [exGrid]

theorem exGrid_on {p : ParamDict ℝ} (hp : exGrid.OnGrid p) : ∃ b s : ℝ, 1 ≤ b ∧ 1 ≤ s ∧ p = [("b", b), ("s", s)] := by
  obtain ⟨h1, h2, h3⟩ := hp
  have hk : p.keys = ["b", "s"] := h2
  have : ∃ b s : ℝ, p = [("b", b), ("s", s)] := by
    rcases p with _ | ⟨⟨k1, v1⟩, _ | ⟨⟨k2, v2⟩, _ | ⟨q, p⟩⟩⟩
    · simp [SMap.keys] at hk
    · simp [SMap.keys] at hk
    · simp only [SMap.keys, List.map_cons, List.map_nil, List.cons.injEq, and_true] at hk
      obtain ⟨rfl, rfl⟩ := hk
      exact ⟨v1, v2, rfl⟩
    · simp [SMap.keys] at hk
  obtain ⟨b, s, rfl⟩ := this
  have a := h3 "b" 1 10 1 (by simp [exGrid, SMap.find]) (by simp [exGrid, SMap.find]) (by simp [exGrid, SMap.find])
  have c := h3 "s" 1 10 1 (by simp [exGrid, SMap.find]) (by simp [exGrid, SMap.find]) (by simp [exGrid, SMap.find])
  simp [SMap.find] at a c
  obtain ⟨i, hi, _⟩ := a
  obtain ⟨j, hj, _⟩ := c
  have hi0 : (0 : ℝ) ≤ i := Nat.cast_nonneg i
  have hj0 : (0 : ℝ) ≤ j := Nat.cast_nonneg j
  exact ⟨b, s, by linarith, by linarith, rfl⟩

-- one event in each bin
example (C : FitSys σ ℝ) (objs : Nat → σ) : ∃ n₀ r visited,
    (∀ fuel, n₀ ≤ fuel → exGrid.optimise (fitStat exSysName C objs exTwo .empty (withCounts (exRealPdf "d" 0 0) ![1, 1])) fuel = some (.ok (r, visited))) ∧
    AsGood exSysName C objs exTwo .empty (exRealPdf "d" 0 0) [("b", 3), ("s", 2)] 0 ![1, 1] r.bestFit := by
  obtain ⟨n₀, r, vis, h1, _, h2⟩ := C110_grid (name := exSysName) (C := C) (objs := objs) (cons := .empty) (ps₀ := [("b", 3), ("s", 2)]) (exTwo_canFit 0 0) exGrid_sensible rfl rfl (by
    intro p hp
    obtain ⟨b, s, hb, hs, rfl⟩ := exGrid_on hp
    exact ⟨0, exTwo_point 0 0 (by linarith) (by linarith), le_rfl⟩) (by
    refine ⟨(exJoint_init 3 2 0).2.1, rfl, fun n lo hi st h1 h2 h3 => ?_⟩
    have hn : n = "b" ∨ n = "s" := by
      by_contra hno
      push Not at hno
      simp [exGrid, SMap.find, hno.1.symm, hno.2.symm] at h1
    rcases hn with rfl | rfl
    · simp [exGrid, SMap.find] at h1 h2 h3
      subst h1; subst h2; subst h3
      simp [SMap.find]
      exact ⟨2, by norm_num, by norm_num⟩
    · simp [exGrid, SMap.find] at h1 h2 h3
      subst h1; subst h2; subst h3
      simp [SMap.find]
      exact ⟨1, by norm_num, by norm_num⟩) (by simp [exGrid]) (n := ![1, 1]) (by
    intro p hp hz
    obtain ⟨b, s, hb, hs, rfl⟩ := exGrid_on hp
    have hpt := exTwo_point 0 0 (b := b) (s := s) (by linarith) (by linarith)
    have hv := fitValue_eq (name := exSysName) (C := C) (objs := objs) (withCounts_canFit (exTwo_canFit 0 0) ![1, 1]) (withCounts_point hpt ![1, 1])
    rw [hv] at hz
    have hz' := Option.some.inj (Res.ok.inj hz)
    rw [add_zero] at hz'
    have e1 := nllAt_fin exTwo (exRealPdf "d" 0 0) (![1, 1] : Fin 2 → ℕ) [("b", b), ("s", s)]
    have e2 : ∑ i : Fin (exRealPdf "d" 0 0).hist.nBins, poissonTerm (((![1, 1] : Fin 2 → ℕ) i : ℕ) : ℝ) (rateAt exTwo [("b", b), ("s", s)] i) =
        poissonTerm 1 (s / 2 + b / 4) + poissonTerm 1 (s / 2 + 3 * b / 4) := by
      refine (Fin.sum_univ_two (f := fun i : Fin 2 => poissonTerm (((![1, 1] : Fin 2 → ℕ) i : ℕ) : ℝ) (rateAt exTwo [("b", b), ("s", s)] i))).trans ?_
      show poissonTerm (((1 : ℕ)) : ℝ) (rateAt exTwo [("b", b), ("s", s)] 0) + poissonTerm (((1 : ℕ)) : ℝ) (rateAt exTwo [("b", b), ("s", s)] 1) = _
      rw [(exTwo_rate b s).1, (exTwo_rate b s).2]; simp
    have hz'' : poissonTerm 1 (s / 2 + b / 4) + poissonTerm 1 (s / 2 + 3 * b / 4) = 0 := e2.symm.trans (e1.symm.trans hz')
    unfold poissonTerm at hz''
    have l1 := Real.log_le_sub_one_of_pos (show 0 < s / 2 + b / 4 by linarith)
    have l2 := Real.log_le_sub_one_of_pos (show 0 < s / 2 + 3 * b / 4 by linarith)
    linarith)
  exact ⟨n₀, r, vis, h1, h2⟩

-- the joint fit of both channels: four bins in all
example (C : FitSys σ ℝ) (objs : Nat → σ) :
    (jointLaw exJoint [("b", 3), ("s", 2)] fun _ => 2).real {n | ∃ D, JointAsGood exSysName C (fun _ => objs) exJoint (fun _ => .empty) .empty (fun _ => exRealPdf "d" 0 0) (fun _ => [("b", 1), ("s", 1)])
      [("b", 3), ("s", 2)] 0 n D ∧ 160 ≤ ∑ p, rateError (exJoint p) 2 [("b", 3), ("s", 2)] D} ≤ 1/10 := by
  have := C110_joint (name := exSysName) (C := C) (objs := fun _ => objs) (exJoint_canFit 0 0) (init := fun _ => [("b", 1), ("s", 1)])
    (fun p => ⟨(exJoint_init 1 1 p).1, (exJoint_init 1 1 p).2.2⟩) (cons := fun _ => .empty) (K := .empty) (D₀ := [("b", 3), ("s", 2)]) (c₀ := 0)
    ⟨(exJoint_init 3 2 0).1, (exJoint_init 3 2 0).2.1, fun p => (exJoint_init 3 2 p).2.2, fun p => exJoint_positive 0 0 (by norm_num) (by norm_num) p, fun _ => 0, 0, fun _ => rfl, rfl, by simp⟩
    le_rfl (s := 0) (t := 160) le_rfl (by norm_num)
  refine le_trans this ?_
  simp only [show (exRealPdf "d" 0 0).hist.nBins = 2 from rfl]
  norm_num

end Oxsx
