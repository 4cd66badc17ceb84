import Verif.Model.Constraint
import Mathlib.Tactic.Linarith
import Mathlib.Tactic.Positivity
import Mathlib.Tactic.FieldSimp
import Mathlib.Tactic.Ring
import Mathlib.Tactic.NormNum
import Mathlib.Algebra.Order.Field.Rat
import Mathlib.Algebra.Order.Field.Basic
/-
Properties C35 (quadratic), C36 (bivariate), C38 (ratio and fractional constraints).
-/
set_option linter.unusedSectionVars false
set_option linter.unusedSimpArgs false
set_option linter.unusedVariables false
namespace Oxsx
variable {α : Type} [Field α] [LinearOrder α] [IsStrictOrderedRing α]

theorem Fl.div_ok {x y : α} (h : y ≠ 0) : Fl.div x y = some (x / y) := by unfold Fl.div; rw [if_neg h]

/-! ### C35 -/

/-- The penalty a width `s` gives at distance `d` from the mean. -/
def parabola (d s : α) : α := d ^ 2 / (2 * s ^ 2)

theorem parabola_nonneg (d s : α) : 0 ≤ parabola d s := by unfold parabola; positivity

theorem parabola_eq_zero {d s : α} (hs : s ≠ 0) : parabola d s = 0 ↔ d = 0 := by
  unfold parabola
  have h : (2 * s ^ 2 : α) ≠ 0 := by positivity
  rw [div_eq_zero_iff]
  simp [h]

theorem parabola_mono {d e s : α} (h : |d| ≤ |e|) : parabola d s ≤ parabola e s := by
  unfold parabola
  exact div_le_div_of_nonneg_right (sq_le_sq.2 h) (by positivity)

theorem parabola_strictMono {d e s : α} (hs : s ≠ 0) (h : |d| < |e|) : parabola d s < parabola e s := by
  unfold parabola
  have h2 : (0:α) < 2 * s ^ 2 := by positivity
  exact div_lt_div_of_pos_right (sq_lt_sq.2 h) h2

theorem quad_sym (m w x : α) (hw : w ≠ 0) : (QuadraticConstraint.sym m w).evaluate x = some (parabola (x - m) w) := by
  unfold QuadraticConstraint.evaluate QuadraticConstraint.sym
  simp only [Bool.false_eq_true, if_false]
  rw [Fl.div_ok (by positivity)]
  unfold parabola; congr 1; ring_nf

theorem quad_asym (m hi lo x : α) (hhi : hi ≠ 0) (hlo : lo ≠ 0) :
    (QuadraticConstraint.asym m hi lo).evaluate x = some (parabola (x - m) (if m ≤ x then hi else lo)) := by
  unfold QuadraticConstraint.evaluate QuadraticConstraint.asym
  simp only [if_true, ge_iff_le]
  split
  · rw [Fl.div_ok (by positivity)]; unfold parabola; congr 1; ring_nf
  · rw [Fl.div_ok (by positivity)]; unfold parabola; congr 1; ring_nf

/-- C35. A symmetric constraint is an asymmetric one with equal widths. For every mean, non-zero widths and parameter value,
the penalty is finite, equals `(x-mean)²/(2σ²)` with the upper width at and above the mean and the lower one below it, is
non-negative and is zero exactly at the mean; moving further from the mean on the same side strictly increases it. -/
theorem C35_quadratic (m hi lo : α) (hhi : hi ≠ 0) (hlo : lo ≠ 0) :
    (∀ x, (QuadraticConstraint.sym m hi).evaluate x = (QuadraticConstraint.asym m hi hi).evaluate x) ∧
    (∀ x, m ≤ x → (QuadraticConstraint.asym m hi lo).evaluate x = some ((x - m) ^ 2 / (2 * hi ^ 2))) ∧
    (∀ x, x < m → (QuadraticConstraint.asym m hi lo).evaluate x = some ((x - m) ^ 2 / (2 * lo ^ 2))) ∧
    (∀ x, ∃ v, (QuadraticConstraint.asym m hi lo).evaluate x = some v ∧ 0 ≤ v ∧ (v = 0 ↔ x = m)) ∧
    (∀ x y v w, ((m ≤ x ∧ x < y) ∨ (y < x ∧ x ≤ m)) → (QuadraticConstraint.asym m hi lo).evaluate x = some v →
      (QuadraticConstraint.asym m hi lo).evaluate y = some w → v < w) := by
  refine ⟨?_, ?_, ?_, ?_, ?_⟩
  · intro x; rw [quad_sym m hi x hhi, quad_asym m hi hi x hhi hhi]; simp
  · intro x hx; rw [quad_asym m hi lo x hhi hlo, if_pos hx]; rfl
  · intro x hx; rw [quad_asym m hi lo x hhi hlo, if_neg (not_le.2 hx)]; rfl
  · intro x
    refine ⟨_, quad_asym m hi lo x hhi hlo, parabola_nonneg _ _, ?_⟩
    rw [parabola_eq_zero (by split <;> assumption), sub_eq_zero]
  · intro x y v w h hv hw
    rw [quad_asym m hi lo x hhi hlo] at hv
    rw [quad_asym m hi lo y hhi hlo] at hw
    cases hv; cases hw
    rcases h with ⟨h1, h2⟩ | ⟨h1, h2⟩
    · rw [if_pos h1, if_pos (by linarith)]
      apply parabola_strictMono hhi
      rw [abs_of_nonneg (by linarith), abs_of_nonneg (by linarith)]; linarith
    · rw [if_neg (not_le.2 (show y < m by linarith))]
      by_cases hx : m ≤ x
      · have : x = m := le_antisymm h2 hx
        subst this
        rw [if_pos le_rfl, sub_self]
        have h0 : parabola (0:α) hi = 0 := (parabola_eq_zero hhi).2 rfl
        rw [h0]
        refine lt_of_le_of_ne (parabola_nonneg _ _) (Ne.symm ?_)
        rw [Ne, parabola_eq_zero hlo]; linarith
      · rw [if_neg hx]
        apply parabola_strictMono hlo
        rw [abs_of_nonpos (by linarith), abs_of_nonpos (by linarith)]; linarith

/-- Non-vacuity, and a width of zero (which is accepted): never finite. -/
example : (QuadraticConstraint.asym (1:ℚ) 2 (1/2)).evaluate 3 = some (1/2) ∧
    (QuadraticConstraint.asym (1:ℚ) 2 (1/2)).evaluate 0 = some 2 ∧
    (QuadraticConstraint.sym (1:ℚ) 0).evaluate 1 = none := by decide +kernel

/-! ### C36 -/

theorem biv_eval (c : BivariateConstraint α) (h1 : c.sigma1 ≠ 0) (h2 : c.sigma2 ≠ 0) (hc : c.corr ^ 2 < 1) (x y : α) :
    c.evaluate x y = some ((((x - c.mean1) / c.sigma1) ^ 2 - 2 * c.corr * ((x - c.mean1) / c.sigma1) * ((y - c.mean2) / c.sigma2)
      + ((y - c.mean2) / c.sigma2) ^ 2) / (2 * (1 - c.corr ^ 2))) := by
  unfold BivariateConstraint.evaluate
  have hne : (1 - c.corr * c.corr) ≠ 0 := by nlinarith
  have hne2 : (1 - c.corr ^ 2) ≠ 0 := by nlinarith
  rw [Fl.div_ok (by positivity), Fl.div_ok (by positivity), Fl.div_ok (by positivity)]
  simp only
  rw [Fl.div_ok hne]
  congr 1
  rw [show c.corr * c.corr = c.corr ^ 2 by ring]
  field_simp

/-- C36, the part that holds: for a correlation strictly between -1 and 1 and non-zero widths the constraint is accepted, its
penalty is finite and non-negative, zero exactly at both means, symmetric under exchange of the two parameters, and for zero
correlation the sum of the two individual penalties. Correlation 1 is rejected. Missing: rejection of the other correlations
outside (-1, 1) (`C36_not_rejected_wrong`). -/
theorem C36_bivariate_partial (m1 s1 m2 s2 rho : α) (h1 : s1 ≠ 0) (h2 : s2 ≠ 0) :
    (rho = 1 → BivariateConstraint.mk' m1 s1 m2 s2 rho = .throw .value) ∧
    (-1 < rho → rho < 1 → ∃ c c', BivariateConstraint.mk' m1 s1 m2 s2 rho = .ok c ∧
      BivariateConstraint.mk' m2 s2 m1 s1 rho = .ok c' ∧
      (∀ x y, ∃ v, c.evaluate x y = some v ∧ 0 ≤ v ∧ (v = 0 ↔ x = m1 ∧ y = m2) ∧ c'.evaluate y x = some v) ∧
      (rho = 0 → ∀ x y a b, (QuadraticConstraint.sym m1 s1).evaluate x = some a →
        (QuadraticConstraint.sym m2 s2).evaluate y = some b → c.evaluate x y = some (a + b))) := by
  constructor
  · intro h; unfold BivariateConstraint.mk'; rw [if_pos h]
  · intro hl hu
    have hc : rho ^ 2 < 1 := by nlinarith
    refine ⟨⟨m1, s1, m2, s2, rho⟩, ⟨m2, s2, m1, s1, rho⟩, by unfold BivariateConstraint.mk'; rw [if_neg (by linarith)],
      by unfold BivariateConstraint.mk'; rw [if_neg (by linarith)], ?_, ?_⟩
    · intro x y
      refine ⟨_, biv_eval ⟨m1, s1, m2, s2, rho⟩ h1 h2 hc x y, ?_, ?_, ?_⟩
      · simp only
        set u := (x - m1) / s1
        set w := (y - m2) / s2
        have : u ^ 2 - 2 * rho * u * w + w ^ 2 = (u - rho * w) ^ 2 + (1 - rho ^ 2) * w ^ 2 := by ring
        rw [this]
        have : 0 ≤ 1 - rho ^ 2 := by linarith
        positivity
      · simp only
        have hpos : (0:α) < 2 * (1 - rho ^ 2) := by linarith
        rw [div_eq_zero_iff]
        simp only [hpos.ne', or_false]
        have hu0 : (x - m1) / s1 = 0 ↔ x = m1 := by rw [div_eq_zero_iff]; simp [h1, sub_eq_zero]
        have hw0 : (y - m2) / s2 = 0 ↔ y = m2 := by rw [div_eq_zero_iff]; simp [h2, sub_eq_zero]
        rw [← hu0, ← hw0]
        set u := (x - m1) / s1
        set w := (y - m2) / s2
        constructor
        · intro h
          have e : (u - rho * w) ^ 2 + (1 - rho ^ 2) * w ^ 2 = 0 := by rw [← h]; ring
          have p1 : 0 ≤ (u - rho * w) ^ 2 := sq_nonneg _
          have p2 : 0 ≤ (1 - rho ^ 2) * w ^ 2 := mul_nonneg (by linarith) (sq_nonneg _)
          have e2 : (1 - rho ^ 2) * w ^ 2 = 0 := by linarith
          have hw : w = 0 := by
            rcases mul_eq_zero.1 e2 with h | h
            · linarith
            · exact pow_eq_zero_iff (two_ne_zero) |>.1 h
          have e1 : (u - rho * w) ^ 2 = 0 := by linarith
          have := pow_eq_zero_iff (two_ne_zero) |>.1 e1
          rw [hw] at this
          exact ⟨by simpa using this, hw⟩
        · rintro ⟨hu, hw⟩; rw [hu, hw]; ring
      · rw [biv_eval ⟨m2, s2, m1, s1, rho⟩ h2 h1 hc y x]
        simp only; congr 1; ring
    · intro h0 x y a b ha hb
      rw [quad_sym m1 s1 x h1] at ha
      rw [quad_sym m2 s2 y h2] at hb
      cases ha; cases hb
      rw [biv_eval ⟨m1, s1, m2, s2, rho⟩ h1 h2 hc x y]
      simp only [h0]
      congr 1
      unfold parabola
      field_simp
      ring

/-- C36 is false for other correlations: -1 is accepted although the penalty is then never finite, and so is 2, which gives
negative penalties. -/
theorem C36_not_rejected_wrong :
    (∃ c, BivariateConstraint.mk' (0:ℚ) 1 0 1 (-1) = .ok c ∧ ∀ x y, c.evaluate x y = none) ∧
    (∃ c, BivariateConstraint.mk' (0:ℚ) 1 0 1 2 = .ok c ∧ c.evaluate 1 0 = some (-1/6)) := by
  refine ⟨⟨⟨0, 1, 0, 1, -1⟩, by unfold BivariateConstraint.mk'; norm_num, ?_⟩,
    ⟨⟨0, 1, 0, 1, 2⟩, by unfold BivariateConstraint.mk'; norm_num, by decide +kernel⟩⟩
  intro x y
  unfold BivariateConstraint.evaluate
  simp only
  have h : ∀ z : ℚ, Fl.div z (1 - -1 * -1) = none := by intro z; unfold Fl.div; norm_num
  split
  · exact h _
  · rfl

example : ∃ c, BivariateConstraint.mk' (1:ℚ) 2 3 1 (1/2) = .ok c ∧ c.evaluate 3 4 = some (2/3) :=
  ⟨⟨1, 2, 3, 1, 1/2⟩, by unfold BivariateConstraint.mk'; norm_num, by decide +kernel⟩

/-! ### C38 -/

/-- C38, ratio: for every pair of values the penalty is finite and non-negative; when the denominator is at least 1e-8 in size
it is zero exactly when the ratio is the central value and equals the quadratic penalty of the ratio; below that size the
denominator is replaced by 1e-8. -/
theorem C38_ratio_partial (mean sigma : α) (hs : sigma ≠ 0) (x y : α) :
    (∃ v, (RatioConstraint.mk mean sigma).evaluate x y = some v ∧ 0 ≤ v) ∧
    (1 / 10 ^ 8 ≤ |y| → ∃ v, (RatioConstraint.mk mean sigma).evaluate x y = some v ∧
      (QuadraticConstraint.sym mean sigma).evaluate (x / y) = some v ∧ (v = 0 ↔ x / y = mean)) ∧
    (|y| < 1 / 10 ^ 8 → (RatioConstraint.mk mean sigma).evaluate x y =
      (RatioConstraint.mk mean sigma).evaluate x (1 / 10 ^ 8)) := by
  have heps : (0:α) < RatioConstraint.epsilon := by unfold RatioConstraint.epsilon; positivity
  have key : ∀ z : α, z ≠ 0 → ∃ v, (match Fl.div x z with
      | some ratio => Fl.div ((ratio - mean) * (ratio - mean)) (2 * sigma * sigma)
      | none => none) = some v ∧ v = parabola (x / z - mean) sigma := by
    intro z hz
    rw [Fl.div_ok hz]
    simp only
    rw [Fl.div_ok (by positivity)]
    exact ⟨_, rfl, by unfold parabola; congr 1 <;> ring⟩
  refine ⟨?_, ?_, ?_⟩
  · unfold RatioConstraint.evaluate
    simp only
    have hz : (if |y| < RatioConstraint.epsilon then RatioConstraint.epsilon else y) ≠ 0 := by
      split
      · exact heps.ne'
      · rename_i h
        rintro rfl
        rw [abs_zero] at h; exact h heps
    obtain ⟨v, h1, h2⟩ := key _ hz
    exact ⟨v, h1, h2 ▸ parabola_nonneg _ _⟩
  · intro hy
    have hy' : y ≠ 0 := by
      rintro rfl
      rw [abs_zero] at hy
      have : (0:α) < 1 / 10 ^ 8 := by positivity
      linarith
    unfold RatioConstraint.evaluate
    simp only
    rw [if_neg (show ¬ |y| < RatioConstraint.epsilon from not_lt.2 hy)]
    obtain ⟨v, h1, h2⟩ := key y hy'
    refine ⟨v, h1, by rw [quad_sym mean sigma _ hs, h2], ?_⟩
    rw [h2, parabola_eq_zero hs, sub_eq_zero]
  · intro hy
    unfold RatioConstraint.evaluate
    simp only
    rw [if_pos (show |y| < RatioConstraint.epsilon from hy)]
    have : (if |(1 / 10 ^ 8 : α)| < RatioConstraint.epsilon then RatioConstraint.epsilon else (1 / 10 ^ 8 : α)) =
      RatioConstraint.epsilon := by split <;> rfl
    rw [this]

/-- C38, ratio: with a small denominator a non-zero penalty is charged although the ratio is the central one, and the sign of
the denominator is lost: -1e-9 counts as +1e-8. -/
theorem C38_small_denominator_wrong : (RatioConstraint.mk (1:ℚ) 1).evaluate (1/10^9) (1/10^9) = some (81/200) ∧
    (RatioConstraint.mk (-1:ℚ) 1).evaluate (1/10^9) (-1/10^9) = some (121/200) := by decide +kernel

/-- C38, fractional difference: when the two values do not cancel the penalty is finite, non-negative and zero exactly when
`(a-b)/(a+b)` is the central value. -/
theorem C38_fractional_partial (mean sigma : α) (hs : sigma ≠ 0) (x y : α) (hxy : x + y ≠ 0) :
    ∃ v, (FractionalConstraint.mk mean sigma).evaluate x y = some v ∧ 0 ≤ v ∧ (v = 0 ↔ (x - y) / (x + y) = mean) := by
  unfold FractionalConstraint.evaluate
  simp only
  rw [Fl.div_ok hxy]
  simp only
  rw [Fl.div_ok (by positivity)]
  have : ((x - y) / (x + y) - mean) * ((x - y) / (x + y) - mean) / (2 * sigma * sigma) =
      parabola ((x - y) / (x + y) - mean) sigma := by unfold parabola; congr 1 <;> ring
  refine ⟨_, rfl, ?_, ?_⟩
  · rw [this]; exact parabola_nonneg _ _
  · rw [this, parabola_eq_zero hs, sub_eq_zero]

/-- C38 is false for the fractional difference when the two values cancel (in particular when both are 0): the penalty is not
finite, and nothing is thrown. -/
theorem C38_fractional_not_finite_wrong (c : FractionalConstraint α) (x : α) : c.evaluate x (-x) = none := by
  unfold FractionalConstraint.evaluate Fl.div
  simp

example : (RatioConstraint.mk (2:ℚ) 1).evaluate 3 1 = some (1/2) ∧
    (FractionalConstraint.mk (0:ℚ) 1).evaluate 3 1 = some (1/8) := by decide +kernel

end Oxsx
