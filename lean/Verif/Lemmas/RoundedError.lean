import Verif.Model.RoundedFit
import Verif.Lemmas.Rounded
import Mathlib.Algebra.Order.Ring.Pow
import Mathlib.Algebra.Order.BigOperators.Group.List
/-
A calculus of rounding errors. `Near u k x y`: the number `y` is `x` up to `k` relative errors of size `u`, either way.
`Close u k t x y`: the same for numbers of any sign, the error being relative to `t`, which is at least `|x|`.
-/
set_option linter.unusedVariables false
set_option linter.unusedSectionVars false
set_option linter.unusedSimpArgs false
namespace Oxsx
variable {α : Type} [Field α] [LinearOrder α] [IsStrictOrderedRing α]

/-- `y` is `x` up to `k` relative errors of size `u`. -/
def Near (u : α) (k : Nat) (x y : α) : Prop := 0 ≤ x ∧ 0 ≤ y ∧ x * (1 - u) ^ k ≤ y ∧ y * (1 - u) ^ k ≤ x

namespace Near
variable {u : α} (h0 : 0 ≤ u) (h1 : u < 1)
include h0 h1

theorem pow_pos' (k : Nat) : 0 < (1 - u) ^ k := pow_pos (by linarith) k
theorem pow_le_one' (k : Nat) : (1 - u) ^ k ≤ 1 := pow_le_one₀ (by linarith) (by linarith)

theorem refl (k : Nat) {x : α} (hx : 0 ≤ x) : Near u k x x :=
  ⟨hx, hx, mul_le_of_le_one_right hx (pow_le_one' h0 h1 k), mul_le_of_le_one_right hx (pow_le_one' h0 h1 k)⟩

theorem mono {k l : Nat} (hkl : k ≤ l) {x y : α} (h : Near u k x y) : Near u l x y := by
  have hp : (1 - u) ^ l ≤ (1 - u) ^ k := pow_le_pow_of_le_one (by linarith) (by linarith) hkl
  exact ⟨h.1, h.2.1, (mul_le_mul_of_nonneg_left hp h.1).trans h.2.2.1, (mul_le_mul_of_nonneg_left hp h.2.1).trans h.2.2.2⟩

theorem symm {k : Nat} {x y : α} (h : Near u k x y) : Near u k y x := ⟨h.2.1, h.1, h.2.2.2, h.2.2.1⟩

theorem trans {k l : Nat} {x y z : α} (h : Near u k x y) (g : Near u l y z) : Near u (k + l) x z := by
  refine ⟨h.1, g.2.1, ?_, ?_⟩
  · rw [pow_add, ← mul_assoc]
    exact (mul_le_mul_of_nonneg_right h.2.2.1 (pow_pos' h0 h1 l).le).trans g.2.2.1
  · rw [pow_add, mul_comm ((1 - u) ^ k), ← mul_assoc]
    exact (mul_le_mul_of_nonneg_right g.2.2.2 (pow_pos' h0 h1 k).le).trans h.2.2.2

theorem add {k : Nat} {x y z w : α} (h : Near u k x y) (g : Near u k z w) : Near u k (x + z) (y + w) := by
  refine ⟨add_nonneg h.1 g.1, add_nonneg h.2.1 g.2.1, ?_, ?_⟩
  · rw [add_mul]; exact add_le_add h.2.2.1 g.2.2.1
  · rw [add_mul]; exact add_le_add h.2.2.2 g.2.2.2

theorem mul {k l : Nat} {x y z w : α} (h : Near u k x y) (g : Near u l z w) : Near u (k + l) (x * z) (y * w) := by
  have hk := (pow_pos' h0 h1 k).le
  have hl := (pow_pos' h0 h1 l).le
  refine ⟨mul_nonneg h.1 g.1, mul_nonneg h.2.1 g.2.1, ?_, ?_⟩
  · rw [pow_add, show x * z * ((1 - u) ^ k * (1 - u) ^ l) = (x * (1 - u) ^ k) * (z * (1 - u) ^ l) by ring]
    exact mul_le_mul h.2.2.1 g.2.2.1 (mul_nonneg g.1 hl) h.2.1
  · rw [pow_add, show y * w * ((1 - u) ^ k * (1 - u) ^ l) = (y * (1 - u) ^ k) * (w * (1 - u) ^ l) by ring]
    exact mul_le_mul h.2.2.2 g.2.2.2 (mul_nonneg g.2.1 hl) h.1

theorem pos {k : Nat} {x y : α} (h : Near u k x y) (hx : 0 < x) : 0 < y :=
  lt_of_lt_of_le (mul_pos hx (pow_pos' h0 h1 k)) h.2.2.1

theorem inv {k : Nat} {x y : α} (h : Near u k x y) (hx : 0 < x) : Near u k x⁻¹ y⁻¹ := by
  have hy := h.pos h0 h1 hx
  have hp := pow_pos' h0 h1 k
  refine ⟨(inv_pos.2 hx).le, (inv_pos.2 hy).le, ?_, ?_⟩
  · rw [inv_mul_eq_div, div_le_iff₀ hx, inv_mul_eq_div, le_div_iff₀ hy, mul_comm]; exact h.2.2.2
  · rw [inv_mul_eq_div, div_le_iff₀ hy, inv_mul_eq_div, le_div_iff₀ hx, mul_comm]; exact h.2.2.1

theorem div {k l : Nat} {x y z w : α} (h : Near u k x y) (g : Near u l z w) (hz : 0 < z) : Near u (k + l) (x / z) (y / w) := by
  rw [div_eq_mul_inv, div_eq_mul_inv]
  exact h.mul h0 h1 (g.inv h0 h1 hz)

omit h0 h1 in
theorem rnd (R : Arith α) {x : α} (hx : 0 ≤ x) : Near R.u 1 x (R.rnd x) := by
  have h := R.rel x
  rw [abs_of_nonneg hx, abs_le] at h
  have h0 := R.u_nonneg
  have h1 := R.u_lt
  have hx1 : 0 ≤ x * (1 - R.u) := mul_nonneg hx (by linarith)
  have hlo : x * (1 - R.u) ≤ R.rnd x := by nlinarith [h.1]
  refine ⟨hx, hx1.trans hlo, by rw [pow_one]; exact hlo, ?_⟩
  rw [pow_one]
  have : R.rnd x ≤ x * (1 + R.u) := by nlinarith [h.2]
  calc R.rnd x * (1 - R.u) ≤ x * (1 + R.u) * (1 - R.u) := mul_le_mul_of_nonneg_right this (by linarith)
    _ = x - x * (R.u * R.u) := by ring
    _ ≤ x := by nlinarith [mul_nonneg hx (mul_nonneg h0 h0)]

omit h0 h1 in
/-- A number `Near` another, rounded. -/
theorem rounded (R : Arith α) {k : Nat} {x y : α} (h : Near R.u k x y) : Near R.u (k + 1) x (R.rnd y) :=
  h.trans R.u_nonneg R.u_lt (rnd R h.2.1)

omit h0 h1 in
/-- A sum and a product, fused or not. -/
theorem mulAdd (R : Arith α) (fma : Bool) {k l : Nat} (hkl : k ≤ l) {a a' b b' c : α} (ha : Near R.u k a a') (hb : 0 ≤ b) (hc : 0 ≤ c) :
    Near R.u (max k 1 + 1) (a + b * c) (BinAxis.mulAdd R.toRounding fma a' b c) := by
  have h0 := R.u_nonneg
  have h1 := R.u_lt
  unfold BinAxis.mulAdd
  split
  · refine Near.rounded R ?_
    exact (ha.mono h0 h1 (le_max_left k 1)).add h0 h1 (refl h0 h1 _ (mul_nonneg hb hc))
  · refine Near.rounded R ?_
    exact (ha.mono h0 h1 (le_max_left k 1)).add h0 h1 ((rnd R (mul_nonneg hb hc)).mono h0 h1 (le_max_right k 1))

/-- In absolute terms. -/
theorem abs_le' {k : Nat} {x y : α} (h : Near u k x y) : |y - x| ≤ (1 / (1 - u) ^ k - 1) * x := by
  have hp := pow_pos' h0 h1 k
  have h2 : y ≤ x / (1 - u) ^ k := by rw [le_div_iff₀ hp]; exact h.2.2.2
  have h3 : (1 / (1 - u) ^ k - 1) * x = x / (1 - u) ^ k - x := by field_simp
  rw [h3, abs_le]
  refine ⟨?_, by linarith⟩
  have h4 : x * (1 - u) ^ k + x / (1 - u) ^ k ≥ 2 * x := by
    have e : x * (1 - u) ^ k + x / (1 - u) ^ k - 2 * x = x * ((1 - u) ^ k - 1) ^ 2 / (1 - u) ^ k := by field_simp; ring
    have : 0 ≤ x * ((1 - u) ^ k - 1) ^ 2 / (1 - u) ^ k := div_nonneg (mul_nonneg h.1 (sq_nonneg _)) hp.le
    linarith
  linarith [h.2.2.1]

end Near

/-- What `k` relative errors of size `u` amount to. -/
theorem errors_le {u : α} (h0 : 0 ≤ u) {k : Nat} (hk : (k : α) * u ≤ 1 / 2) : 1 / (1 - u) ^ k - 1 ≤ 2 * k * u := by
  rcases Nat.eq_zero_or_pos k with rfl | hkp
  · simp
  have hk1 : (1 : α) ≤ k := by exact_mod_cast hkp
  have hu : u ≤ 1 / 2 := by nlinarith
  have hb : 1 - (k : α) * u ≤ (1 - u) ^ k := by
    have := one_add_mul_le_pow (show (-2 : α) ≤ -u by linarith) k
    have e : (1 : α) + -u = 1 - u := by ring
    rw [e] at this
    linarith
  have hp : 0 < (1 - u) ^ k := pow_pos (by linarith) k
  rw [sub_le_iff_le_add, div_le_iff₀ hp]
  have h2 : 0 ≤ (k : α) * u := by positivity
  nlinarith

/-- `y` is `x` up to `k` relative errors, relative to `t`. -/
def Close (u : α) (k : Nat) (t x y : α) : Prop := |x| ≤ t ∧ |y - x| ≤ (1 / (1 - u) ^ k - 1) * t

namespace Close
variable {u : α} (h0 : 0 ≤ u) (h1 : u < 1)
include h0 h1

theorem factor_nonneg (k : Nat) : 0 ≤ 1 / (1 - u) ^ k - 1 := by
  have := Near.pow_pos' h0 h1 k
  have := Near.pow_le_one' h0 h1 k
  rw [sub_nonneg, le_div_iff₀ ‹_›]; linarith

theorem of_near {k : Nat} {x y : α} (h : Near u k x y) : Close u k x x y := ⟨by rw [abs_of_nonneg h.1], h.abs_le' h0 h1⟩

theorem mono {k l : Nat} (hkl : k ≤ l) {t x y : α} (h : Close u k t x y) : Close u l t x y := by
  refine ⟨h.1, h.2.trans ?_⟩
  have ht : 0 ≤ t := (abs_nonneg _).trans h.1
  refine mul_le_mul_of_nonneg_right ?_ ht
  have hp : (1 - u) ^ l ≤ (1 - u) ^ k := pow_le_pow_of_le_one (by linarith) (by linarith) hkl
  have := one_div_le_one_div_of_le (Near.pow_pos' h0 h1 l) hp
  linarith

theorem refl (k : Nat) (x : α) : Close u k |x| x x :=
  ⟨le_rfl, by rw [sub_self, abs_zero]; exact mul_nonneg (factor_nonneg h0 h1 k) (abs_nonneg _)⟩

theorem add {k : Nat} {t s x y z w : α} (h : Close u k t x y) (g : Close u k s z w) : Close u k (t + s) (x + z) (y + w) := by
  refine ⟨(abs_add_le _ _).trans (add_le_add h.1 g.1), ?_⟩
  rw [mul_add, show y + w - (x + z) = (y - x) + (w - z) by ring]
  exact (abs_add_le _ _).trans (add_le_add h.2 g.2)

theorem neg {k : Nat} {t x y : α} (h : Close u k t x y) : Close u k t (-x) (-y) := by
  refine ⟨by rw [abs_neg]; exact h.1, ?_⟩
  rw [show -y - -x = -(y - x) by ring, abs_neg]; exact h.2

theorem sub {k : Nat} {t s x y z w : α} (h : Close u k t x y) (g : Close u k s z w) : Close u k (t + s) (x - z) (y - w) := by
  rw [sub_eq_add_neg, sub_eq_add_neg]; exact h.add h0 h1 (g.neg h0 h1)

theorem smul {k : Nat} {t x y n : α} (hn : 0 ≤ n) (h : Close u k t x y) : Close u k (n * t) (n * x) (n * y) := by
  refine ⟨by rw [abs_mul, abs_of_nonneg hn]; exact mul_le_mul_of_nonneg_left h.1 hn, ?_⟩
  rw [← mul_sub, abs_mul, abs_of_nonneg hn, mul_left_comm]
  exact mul_le_mul_of_nonneg_left h.2 hn

/-- One more relative error, made by any step with a relative error of at most `u`. -/
theorem err {k : Nat} {t x y z : α} (h : Close u k t x y) (hz : |z - y| ≤ u * |y|) : Close u (k + 1) t x z := by
  refine ⟨h.1, ?_⟩
  have ht : 0 ≤ t := (abs_nonneg _).trans h.1
  have hp := Near.pow_pos' h0 h1 k
  have hy : |y| ≤ t / (1 - u) ^ k := by
    have : |y| ≤ |y - x| + |x| := by
      have := abs_add_le (y - x) x
      rwa [sub_add_cancel] at this
    have h2 := h.2
    have h3 := h.1
    have e : (1 / (1 - u) ^ k - 1) * t = t / (1 - u) ^ k - t := by field_simp
    rw [e] at h2
    linarith
  have h4 : |z - x| ≤ |z - y| + |y - x| := by
    have := abs_add_le (z - y) (y - x)
    rwa [sub_add_sub_cancel] at this
  have hu1 : 0 < 1 - u := by linarith
  have e : (1 / (1 - u) ^ k - 1) * t = t / (1 - u) ^ k - t := by field_simp
  have e' : (1 / (1 - u) ^ (k + 1) - 1) * t = t / (1 - u) ^ k / (1 - u) - t := by
    rw [pow_succ]; field_simp
  have hq : 0 ≤ t / (1 - u) ^ k := div_nonneg ht hp.le
  have h5 : u * |y| ≤ u * (t / (1 - u) ^ k) := mul_le_mul_of_nonneg_left hy h0
  have h6 : (1 + u) * (t / (1 - u) ^ k) ≤ t / (1 - u) ^ k / (1 - u) := by
    rw [le_div_iff₀ hu1]
    nlinarith [mul_nonneg hq (mul_nonneg h0 h0)]
  have h7 := h.2
  rw [e] at h7
  rw [e']
  linarith

omit h0 h1 in
theorem rounded (R : Arith α) {k : Nat} {t x y : α} (h : Close R.u k t x y) : Close R.u (k + 1) t x (R.rnd y) :=
  h.err R.u_nonneg R.u_lt (R.rel y)

omit h0 h1 in
theorem of_rel (R : Arith α) (x : α) : Close R.u 1 |x| x (R.rnd x) := by
  have := (Close.refl R.u_nonneg R.u_lt 0 x).rounded R
  rwa [Nat.zero_add] at this

theorem sq {k : Nat} {t x y : α} (h : Close u k t x y) : Close u (2 * k) (t * t) (x * x) (y * y) := by
  have ht : 0 ≤ t := (abs_nonneg _).trans h.1
  have hw := Near.pow_pos' h0 h1 k
  refine ⟨by rw [abs_mul]; exact mul_le_mul h.1 h.1 (abs_nonneg _) ht, ?_⟩
  have e1 : y * y - x * x = (y - x) * (y + x) := by ring
  have e2 : |y + x| ≤ (1 / (1 - u) ^ k + 1) * t := by
    have a1 : |y + x| ≤ |y - x| + (|x| + |x|) := by
      have b1 := abs_add_le (y - x) (x + x)
      rw [show y - x + (x + x) = y + x by ring] at b1
      exact b1.trans (add_le_add le_rfl (abs_add_le _ _))
    have a2 := h.2
    have a3 := h.1
    have : (1 / (1 - u) ^ k + 1) * t = (1 / (1 - u) ^ k - 1) * t + (t + t) := by ring
    rw [this]
    linarith
  have e3 : (1 / (1 - u) ^ (2 * k) - 1) * (t * t) = ((1 / (1 - u) ^ k - 1) * t) * ((1 / (1 - u) ^ k + 1) * t) := by
    rw [Nat.mul_comm, pow_mul]; field_simp; ring
  rw [e1, abs_mul, e3]
  exact mul_le_mul h.2 e2 (abs_nonneg _) (mul_nonneg (factor_nonneg h0 h1 k) ht)

omit h0 h1 in
/-- A sum and a product, fused or not, of any sign. -/
theorem mulAdd (R : Arith α) (fma : Bool) {k l : Nat} (hl : l + 1 ≤ k) {t s a a' b c q : α} (ha : Close R.u k t a a') (hb : Close R.u l s q (b * c)) :
    Close R.u (k + 1) (t + s) (a + q) (BinAxis.mulAdd R.toRounding fma a' b c) := by
  have h0 := R.u_nonneg
  have h1 := R.u_lt
  unfold BinAxis.mulAdd
  split
  · exact (ha.add h0 h1 (hb.mono h0 h1 (by omega))).rounded R
  · exact (ha.add h0 h1 ((hb.rounded R).mono h0 h1 hl)).rounded R

end Close

namespace Ieee
variable [FloorRing α]

theorem toEven_near (r : α) : |(toEven r : α) - r| ≤ 1 / 2 := by
  have h1 := Int.floor_le r
  have h2 := Int.lt_floor_add_one r
  unfold toEven
  rw [abs_le]
  split_ifs with a b c
  · constructor <;> linarith
  · push_cast; constructor <;> linarith
  · constructor <;> linarith
  · push_cast; constructor <;> linarith

theorem rndPos_near {p : Nat} {x : α} (hx : 0 < x) : |rndPos p x - x| ≤ 1 / 2 ^ p * x := by
  have hu := ulp_pos p x
  have e : rndPos p x - x = (toEven (x / ulp p x) - x / ulp p x) * ulp p x := by
    unfold rndPos; rw [sub_mul, div_mul_cancel₀ _ hu.ne']
  rw [e, abs_mul, abs_of_pos hu]
  have h1 := mul_le_mul_of_nonneg_right (toEven_near (x / ulp p x)) hu.le
  refine h1.trans ?_
  have h2 : ulp p x = 2 ^ Int.log 2 x * (2 / 2 ^ p) := by
    unfold ulp
    rw [show Int.log 2 x - ((p : Int) - 1) = Int.log 2 x + (1 - (p : Int)) by ring, zpow_add₀ (by norm_num), zpow_sub₀ (by norm_num),
      zpow_one, zpow_natCast]
  rw [h2]
  have h3 := log_le x hx
  have hp : (0 : α) < 2 ^ p := by positivity
  calc 1 / 2 * (2 ^ Int.log 2 x * (2 / 2 ^ p)) = 1 / 2 ^ p * 2 ^ Int.log 2 x := by field_simp
    _ ≤ 1 / 2 ^ p * x := mul_le_mul_of_nonneg_left h3 (by positivity)

theorem rnd_near (p : Nat) (x : α) : |rnd p x - x| ≤ 1 / 2 ^ p * |x| := by
  rcases lt_trichotomy x 0 with hx | rfl | hx
  · have hx' : 0 < -x := by linarith
    have e : rnd p x = -rndPos p (-x) := by have := rnd_neg_eq (p := p) hx'; rwa [neg_neg] at this
    rw [e, abs_of_neg hx, show -rndPos p (-x) - x = -(rndPos p (-x) - -x) by ring, abs_neg]
    exact rndPos_near hx'
  · have : rnd p (0 : α) = 0 := by unfold rnd; rw [if_pos rfl]
    rw [this]; simp
  · rw [rnd_pos_eq hx, abs_of_pos hx]; exact rndPos_near hx

/-- The arithmetic of `double`, with its relative error. -/
def doubleArith : Arith α where
  toRounding := double
  u := 1 / 2 ^ 53
  u_nonneg := by positivity
  u_lt := by norm_num
  rel := fun x => rnd_near 53 x

end Ieee
end Oxsx
