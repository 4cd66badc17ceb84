import Verif.Spec.BinnedNLLH
import Mathlib.Tactic.Linarith
import Mathlib.Tactic.FieldSimp
import Mathlib.Tactic.Ring
import Mathlib.Tactic.NormNum
/-
C32: the Barlow-Beeston factor; C31 (part): the likelihood of one bin is smallest where the rate equals the data.
-/
set_option linter.unusedSectionVars false
set_option linter.unusedSimpArgs false
set_option linter.unusedVariables false
namespace Oxsx
open NLLH

/-- The outcome of the Barlow-Beeston step when nothing is imaginary or divided by zero. -/
theorem bb_value {n mu s : ℝ} (hs : s ≠ 0) (hdet : 0 ≤ (mu * s - 1) ^ 2 + 4 * n * s) :
    let b := mu * s - 1
    let r := Real.sqrt (b * b + 4 * n * s)
    let q := -(1 / 2) * (b + (if b ≥ 0 then 1 else -1) * r)
    q ≠ 0 → barlowBeeston CMath.real n mu (some s) =
      .ok (some ((if q > n * s / q then q else n * s / q) * mu,
        ((if q > n * s / q then q else n * s / q) - 1) * ((if q > n * s / q then q else n * s / q) - 1) / (2 * s))) := by
  intro b r q hq
  have hdet' : 0 ≤ b * b + 4 * n * s := by
    have : b * b = (mu * s - 1) ^ 2 := by simp only [b]; ring
    rw [this]; exact hdet
  unfold barlowBeeston
  simp only
  rw [if_neg (not_lt.2 hdet')]
  simp only [CMath.real]
  rw [if_neg (not_lt.2 hdet')]
  simp only
  have hd : Fl.div (n * s) q = some (n * s / q) := by unfold Fl.div; rw [if_neg hq]
  simp only [q, r, b] at hd
  rw [hd]
  simp only
  unfold Fl.div
  rw [if_neg (mul_ne_zero two_ne_zero hs)]

/-- The positive root. -/
noncomputable def betaPlus (n mu s : ℝ) : ℝ :=
  (Real.sqrt ((mu * s - 1) * (mu * s - 1) + 4 * n * s) - (mu * s - 1)) / 2

theorem betaPlus_spec {n mu s : ℝ} (hns : 0 < n * s) : 0 < betaPlus n mu s ∧ BetaRoot n mu s (betaPlus n mu s) ∧
    ∀ beta, 0 ≤ beta → BetaRoot n mu s beta → beta = betaPlus n mu s := by
  unfold betaPlus BetaRoot
  set b := mu * s - 1 with hb
  have hdet : 0 < b * b + 4 * n * s := by nlinarith [mul_self_nonneg b]
  set r := Real.sqrt (b * b + 4 * n * s) with hr
  have hr2 : r * r = b * b + 4 * n * s := Real.mul_self_sqrt (le_of_lt hdet)
  have hrb : |b| < r := by
    rw [← Real.sqrt_mul_self_eq_abs]
    exact Real.sqrt_lt_sqrt (mul_self_nonneg b) (by nlinarith)
  obtain ⟨hb1, hb2⟩ := abs_lt.1 hrb
  have hroot : ((r - b) / 2) ^ 2 + b * ((r - b) / 2) - n * s = 0 := by nlinarith
  refine ⟨by linarith, hroot, ?_⟩
  intro beta h0 h1
  have h2 : (beta - (r - b) / 2) * (beta + (r + b) / 2) = 0 := by nlinarith
  rcases mul_eq_zero.1 h2 with h | h
  · linarith
  · exfalso; linarith

/-! ### C32 -/

/-- C32 (partial): when `mu·s < 1`, the factor `beta` used (new rate `beta·mu`, penalty `(beta-1)²/(2s)`) is the unique positive
solution of `beta² + (mu·s - 1)·beta - n·s = 0`. Missing: `mu·s ≥ 1`, for which the claim is false (`C32_sign_wrong`). -/
theorem C32_root_partial {n mu s : ℝ} (hs : 0 < s) (hn : 0 < n) (hlt : mu * s < 1) : ∃ beta : ℝ, 0 < beta ∧
    BetaRoot n mu s beta ∧ (∀ beta', 0 ≤ beta' → BetaRoot n mu s beta' → beta' = beta) ∧
    barlowBeeston CMath.real n mu (some s) = .ok (some (beta * mu, (beta - 1) * (beta - 1) / (2 * s))) := by
  have hns : 0 < n * s := mul_pos hn hs
  obtain ⟨h1, h2, h3⟩ := betaPlus_spec (mu := mu) hns
  refine ⟨betaPlus n mu s, h1, h2, h3, ?_⟩
  have hval := bb_value (n := n) (mu := mu) (s := s) (ne_of_gt hs) (by nlinarith [sq_nonneg (mu * s - 1)])
  simp only [if_neg (show ¬ (mu * s - 1 ≥ 0) by linarith)] at hval
  unfold betaPlus at *
  set b := mu * s - 1 with hb
  set r := Real.sqrt (b * b + 4 * n * s) with hr
  have hq : -(1 / 2) * (b + -1 * r) = (r - b) / 2 := by ring
  rw [hq] at hval
  have hdet : 0 < b * b + 4 * n * s := by nlinarith [mul_self_nonneg b]
  have hr2 : r * r = b * b + 4 * n * s := Real.mul_self_sqrt (le_of_lt hdet)
  have hb0 : b < 0 := by linarith
  have hgt : (r - b) / 2 > n * s / ((r - b) / 2) := by
    rw [gt_iff_lt, div_lt_iff₀ h1]
    have hr0 : 0 ≤ r := Real.sqrt_nonneg _
    nlinarith
  rw [if_pos hgt] at hval
  exact hval (ne_of_gt h1)

/-- C32 (partial): the factor is 1 when the data equals the rate (`mu·s < 1`). Missing: `mu·s ≥ 1`. -/
theorem C32_one_partial {mu s : ℝ} (hs : 0 < s) (hmu : 0 < mu) (hlt : mu * s < 1) :
    barlowBeeston CMath.real mu mu (some s) = .ok (some (mu, 0)) := by
  obtain ⟨beta, h1, h2, h3, h4⟩ := C32_root_partial hs hmu hlt
  have : (1 : ℝ) = beta := h3 1 zero_le_one (by unfold BetaRoot; ring)
  rw [h4, ← this]; norm_num

/-- C32 (partial): the factor minimises, over all positive factors, the bin's likelihood with its penalty. Missing: `mu·s ≥ 1`. -/
theorem C32_minimises_partial {n mu s : ℝ} (hs : 0 < s) (hn : 0 < n) (hmu : 0 < mu) (hlt : mu * s < 1) :
    ∃ beta : ℝ, 0 < beta ∧
      barlowBeeston CMath.real n mu (some s) = .ok (some (beta * mu, (beta - 1) * (beta - 1) / (2 * s))) ∧
      ∀ beta', 0 < beta' → poissonTerm n (beta * mu) + (beta - 1) ^ 2 / (2 * s)
        ≤ poissonTerm n (beta' * mu) + (beta' - 1) ^ 2 / (2 * s) := by
  obtain ⟨beta, h1, h2, _, h4⟩ := C32_root_partial hs hn hlt
  refine ⟨beta, h1, h4, ?_⟩
  intro beta' h'
  unfold poissonTerm
  rw [Real.log_mul (ne_of_gt h1) (ne_of_gt hmu), Real.log_mul (ne_of_gt h') (ne_of_gt hmu)]
  have hlog : Real.log beta' - Real.log beta ≤ beta' / beta - 1 := by
    rw [← Real.log_div (ne_of_gt h') (ne_of_gt h1)]
    exact Real.log_le_sub_one_of_pos (div_pos h' h1)
  have hn2 : n * (Real.log beta' - Real.log beta) ≤ n * (beta' / beta - 1) := mul_le_mul_of_nonneg_left hlog (le_of_lt hn)
  unfold BetaRoot at h2
  have hnb : n * (beta' / beta - 1) = (beta' - beta) * (mu + (beta - 1) / s) := by
    have : n = beta * (mu + (beta - 1) / s) := by
      field_simp
      linarith
    rw [this]; field_simp
  have hpen : (beta' - 1) ^ 2 / (2 * s) - (beta - 1) ^ 2 / (2 * s)
      = (beta' - beta) * ((beta - 1) / s) + (beta' - beta) ^ 2 / (2 * s) := by
    field_simp; ring
  have hsq : 0 ≤ (beta' - beta) ^ 2 / (2 * s) := div_nonneg (sq_nonneg _) (by linarith)
  nlinarith

/-- C32 (no data): with an empty bin and `mu·s < 1` the factor is `1 - mu·s`. -/
theorem C32_no_data {mu s : ℝ} (hs : 0 < s) (hlt : mu * s < 1) :
    barlowBeeston CMath.real 0 mu (some s) = .ok (some ((1 - mu * s) * mu, (mu * s) ^ 2 / (2 * s))) := by
  have hval := bb_value (n := 0) (mu := mu) (s := s) (ne_of_gt hs) (by nlinarith [sq_nonneg (mu * s - 1)])
  simp only [if_neg (show ¬ (mu * s - 1 ≥ 0) by linarith)] at hval
  have hr : Real.sqrt ((mu * s - 1) * (mu * s - 1) + 4 * 0 * s) = 1 - mu * s := by
    rw [show (mu * s - 1) * (mu * s - 1) + 4 * 0 * s = (1 - mu * s) * (1 - mu * s) by ring]
    exact Real.sqrt_mul_self (by linarith)
  rw [hr] at hval
  have hq : -(1 / 2) * (mu * s - 1 + -1 * (1 - mu * s)) = 1 - mu * s := by ring
  rw [hq] at hval
  have h0 : 0 * s / (1 - mu * s) = 0 := by simp
  rw [h0, if_pos (by linarith)] at hval
  rw [hval (by linarith)]
  congr 4
  ring

/-- C32 is false for `mu·s ≥ 1` (a rate not above the sum of the squared Monte Carlo weights): the second candidate is computed with
the wrong sign, the factor used is minus the solution, and the new rate is negative. -/
theorem C32_sign_wrong {n mu s : ℝ} (hs : 0 < s) (hn : 0 < n) (hge : 1 ≤ mu * s) : ∃ beta p : ℝ, 0 < beta ∧
    BetaRoot n mu s beta ∧ barlowBeeston CMath.real n mu (some s) = .ok (some (-beta * mu, p)) := by
  have hns : 0 < n * s := mul_pos hn hs
  obtain ⟨h1, h2, h3⟩ := betaPlus_spec (mu := mu) hns
  have hval := bb_value (n := n) (mu := mu) (s := s) (ne_of_gt hs) (by nlinarith [sq_nonneg (mu * s - 1)])
  simp only [if_pos (show mu * s - 1 ≥ 0 by linarith)] at hval
  unfold betaPlus at *
  set b := mu * s - 1 with hb
  set r := Real.sqrt (b * b + 4 * n * s) with hr
  have hdet : 0 < b * b + 4 * n * s := by nlinarith [mul_self_nonneg b]
  have hr2 : r * r = b * b + 4 * n * s := Real.mul_self_sqrt (le_of_lt hdet)
  have hr0 : 0 < r := Real.sqrt_pos.2 hdet
  have hb0 : 0 ≤ b := by linarith
  have hq : -(1 / 2) * (b + 1 * r) < 0 := by linarith
  have hx2 : n * s / (-(1 / 2) * (b + 1 * r)) = -((r - b) / 2) := by
    rw [div_eq_iff (ne_of_lt hq)]; nlinarith
  rw [hx2] at hval
  have hle : ¬ (-(1 / 2) * (b + 1 * r) > -((r - b) / 2)) := by
    rw [gt_iff_lt, not_lt]; linarith
  rw [if_neg hle] at hval
  exact ⟨(r - b) / 2, _, h1, h2, hval (ne_of_lt hq)⟩

/-- The consequence: for a positive rate with `mu·s ≥ 1` the bin's term, and with it the likelihood, is not finite. -/
theorem C32_not_finite_wrong {n mu s : ℝ} (hs : 0 < s) (hn : 0 < n) (hmu : 0 < mu) (hge : 1 ≤ mu * s) (acc : Fl ℝ) :
    ∃ np, barlowBeeston CMath.real n mu (some s) = .ok np ∧ addTerm CMath.real acc n np = none := by
  obtain ⟨beta, p, h1, _, h2⟩ := C32_sign_wrong hs hn hge
  refine ⟨_, h2, ?_⟩
  unfold addTerm
  cases acc with
  | none => rfl
  | some a =>
    simp only [CMath.real]
    rw [if_pos (by nlinarith)]

/-- Non-vacuity: 5 data events, a rate of 4, `s = 1/8`; and `s = 1/4` for the wrong case. -/
example : (0 : ℝ) < 1 / 8 ∧ (0 : ℝ) < 5 ∧ (4 : ℝ) * (1 / 8) < 1 ∧ (1 : ℝ) ≤ 4 * (1 / 4) := by norm_num

/-! ### C31, one bin -/

/-- C31: the likelihood of a bin with data `n > 0` is smallest exactly at the rate `n`. -/
theorem C31_bin_minimum {n mu : ℝ} (hn : 0 < n) (hmu : 0 < mu) :
    poissonTerm n n ≤ poissonTerm n mu ∧ (poissonTerm n mu = poissonTerm n n → mu = n) := by
  unfold poissonTerm
  have hd : Real.log mu - Real.log n = Real.log (mu / n) := (Real.log_div (ne_of_gt hmu) (ne_of_gt hn)).symm
  have hpos : 0 < mu / n := div_pos hmu hn
  have hle : Real.log (mu / n) ≤ mu / n - 1 := Real.log_le_sub_one_of_pos hpos
  have hmul : n * Real.log (mu / n) ≤ n * (mu / n - 1) := mul_le_mul_of_nonneg_left hle (le_of_lt hn)
  have hcancel : n * (mu / n - 1) = mu - n := by field_simp
  constructor
  · rw [← hd] at hmul; nlinarith
  · intro he
    by_contra hne
    have hne' : mu / n ≠ 1 := by
      intro h; exact hne (by rw [div_eq_one_iff_eq (ne_of_gt hn)] at h; exact h)
    have hlt : Real.log (mu / n) < mu / n - 1 := Real.log_lt_sub_one_of_pos hpos hne'
    have hmul' : n * Real.log (mu / n) < n * (mu / n - 1) := mul_lt_mul_of_pos_left hlt hn
    rw [← hd] at hmul'; nlinarith

/-- C31, empty bin: with no data the likelihood of the bin is the rate, so it is smallest at rate 0. -/
theorem C31_bin_empty (mu : ℝ) : poissonTerm 0 mu = mu := by unfold poissonTerm; ring

end Oxsx
