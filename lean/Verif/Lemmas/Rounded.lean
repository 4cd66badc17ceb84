import Verif.Model.Rounded
import Mathlib.Tactic.Linarith
import Mathlib.Tactic.NormNum
import Mathlib.Tactic.FieldSimp
import Mathlib.Tactic.Positivity
/-
`Ieee.rnd p` is a rounding function in the sense of `Rounding`.
-/
set_option linter.unusedVariables false
set_option linter.unusedSectionVars false
namespace Oxsx.Ieee
variable {α : Type} [Field α] [LinearOrder α] [IsStrictOrderedRing α] [FloorRing α]

theorem toEven_int (n : Int) : toEven (n : α) = n := by
  unfold toEven
  rw [Int.floor_intCast, if_pos (by norm_num)]

theorem floor_le_toEven (r : α) : ⌊r⌋ ≤ toEven r := by
  unfold toEven; split_ifs <;> omega

theorem toEven_le_floor (r : α) : toEven r ≤ ⌊r⌋ + 1 := by
  unfold toEven; split_ifs <;> omega

theorem toEven_mono : Monotone (toEven : α → Int) := by
  intro r s h
  rcases lt_or_eq_of_le (Int.floor_mono h) with hf | hf
  · exact (toEven_le_floor r).trans ((Int.add_one_le_iff.2 hf).trans (floor_le_toEven s))
  · unfold toEven
    rw [hf]
    have : r - (⌊s⌋ : α) ≤ s - (⌊s⌋ : α) := by linarith
    split_ifs <;> first | omega | (exfalso; linarith)

theorem ulp_pos (p : Nat) (x : α) : 0 < ulp p x := by unfold ulp; exact zpow_pos (by norm_num) _

theorem log_le (x : α) (hx : 0 < x) : (2 : α) ^ Int.log 2 x ≤ x := by
  exact_mod_cast Int.zpow_log_le_self (b := 2) (by norm_num) hx

theorem lt_log (x : α) : x < (2 : α) ^ (Int.log 2 x + 1) := by
  exact_mod_cast Int.lt_zpow_succ_log_self (b := 2) (by norm_num) x

theorem log_eq {x : α} {e : Int} (h1 : (2 : α) ^ e ≤ x) (h2 : x < (2 : α) ^ (e + 1)) : Int.log 2 x = e := by
  have hx : 0 < x := lt_of_lt_of_le (zpow_pos (by norm_num) _) h1
  have a := lt_of_le_of_lt h1 (lt_log x)
  have b := lt_of_le_of_lt (log_le x hx) h2
  rw [zpow_lt_zpow_iff_right₀ (by norm_num)] at a b
  omega

theorem scaled (p : Nat) (x : α) (e : Int) : (2 : α) ^ e / ulp p x = (2 : α) ^ (e - Int.log 2 x + ((p : Int) - 1)) := by
  unfold ulp
  rw [← zpow_sub₀ (by norm_num)]
  congr 1; ring

theorem low_scaled {p : Nat} (hp : 0 < p) (x : α) : (2 : α) ^ Int.log 2 x / ulp p x = ((2 ^ (p - 1) : Int) : α) := by
  rw [scaled, sub_self, zero_add]
  push_cast
  rw [← zpow_natCast]
  congr 1; omega

theorem high_scaled {p : Nat} (hp : 0 < p) (x : α) : (2 : α) ^ (Int.log 2 x + 1) / ulp p x = ((2 ^ p : Int) : α) := by
  rw [scaled]
  push_cast
  rw [← zpow_natCast]
  congr 1; omega

/-- The rounded number stays within the powers of two around the exact one. -/
theorem rndPos_bounds {p : Nat} (hp : 0 < p) {x : α} (hx : 0 < x) :
    (2 : α) ^ Int.log 2 x ≤ rndPos p x ∧ rndPos p x ≤ (2 : α) ^ (Int.log 2 x + 1) := by
  have hu := ulp_pos p x
  constructor
  · have h : x / ulp p x ≥ (2 : α) ^ Int.log 2 x / ulp p x := by
      exact div_le_div_of_nonneg_right (log_le x hx) hu.le
    rw [low_scaled hp] at h
    have h2 := toEven_mono h
    rw [toEven_int] at h2
    have h3 : ((2 ^ (p - 1) : Int) : α) ≤ (toEven (x / ulp p x) : α) := by exact_mod_cast h2
    rw [← low_scaled hp x, div_le_iff₀ hu] at h3
    exact h3
  · have h : x / ulp p x ≤ (2 : α) ^ (Int.log 2 x + 1) / ulp p x := by
      exact div_le_div_of_nonneg_right (lt_log x).le hu.le
    rw [high_scaled hp] at h
    have h2 := toEven_mono h
    rw [toEven_int] at h2
    have h3 : (toEven (x / ulp p x) : α) ≤ ((2 ^ p : Int) : α) := by exact_mod_cast h2
    rw [← high_scaled hp x, le_div_iff₀ hu] at h3
    exact h3

theorem rndPos_pos {p : Nat} (hp : 0 < p) {x : α} (hx : 0 < x) : 0 < rndPos p x :=
  lt_of_lt_of_le (zpow_pos (by norm_num) _) (rndPos_bounds hp hx).1

theorem rndPos_mono {p : Nat} (hp : 0 < p) {x y : α} (hx : 0 < x) (h : x ≤ y) : rndPos p x ≤ rndPos p y := by
  have hy := lt_of_lt_of_le hx h
  have hl : Int.log 2 x ≤ Int.log 2 y := Int.log_mono_right hx h
  rcases lt_or_eq_of_le hl with hl | hl
  · refine (rndPos_bounds hp hx).2.trans (le_trans ?_ (rndPos_bounds hp hy).1)
    exact zpow_le_zpow_right₀ (by norm_num) (by omega)
  · have hu : ulp p x = ulp p y := by unfold ulp; rw [hl]
    unfold rndPos
    rw [hu]
    refine mul_le_mul_of_nonneg_right ?_ (ulp_pos p y).le
    exact_mod_cast toEven_mono (div_le_div_of_nonneg_right h (ulp_pos p y).le)

/-- A number that is a whole number of its own ulps is not changed. -/
theorem rndPos_fixed {p : Nat} {x : α} {m : Int} (h : x / ulp p x = m) : rndPos p x = x := by
  unfold rndPos
  rw [h, toEven_int, ← h, div_mul_cancel₀ _ (ulp_pos p x).ne']

theorem rndPos_pow {p : Nat} (hp : 0 < p) (e : Int) : rndPos p ((2 : α) ^ e) = 2 ^ e := by
  have hl : Int.log 2 ((2 : α) ^ e) = e := log_eq le_rfl (zpow_lt_zpow_right₀ (by norm_num) (by omega))
  refine rndPos_fixed (m := 2 ^ (p - 1)) ?_
  have := low_scaled hp ((2 : α) ^ e)
  rw [hl] at this
  exact this

theorem rndPos_idem {p : Nat} (hp : 0 < p) {x : α} (hx : 0 < x) : rndPos p (rndPos p x) = rndPos p x := by
  obtain ⟨h1, h2⟩ := rndPos_bounds hp hx
  rcases lt_or_eq_of_le h2 with h2 | h2
  · have hl := log_eq h1 h2
    have hu : ulp p (rndPos p x) = ulp p x := by unfold ulp; rw [hl]
    refine rndPos_fixed (m := toEven (x / ulp p x)) ?_
    rw [hu]
    unfold rndPos
    rw [mul_div_cancel_right₀ _ (ulp_pos p x).ne']
  · rw [h2]; exact rndPos_pow hp _

theorem rndPos_nat {p : Nat} (hp : 0 < p) {n : Nat} (h0 : 0 < n) (hn : n ≤ 2 ^ p) : rndPos p (n : α) = n := by
  have hx : (0 : α) < n := by exact_mod_cast h0
  rcases lt_or_eq_of_le hn with hn | hn
  · have hlt : Int.log 2 (n : α) < p := by
      have h1 := log_le (n : α) hx
      have h2 : (n : α) < (2 : α) ^ (p : Int) := by rw [zpow_natCast]; exact_mod_cast hn
      have := lt_of_le_of_lt h1 h2
      rwa [zpow_lt_zpow_iff_right₀ (by norm_num)] at this
    refine rndPos_fixed (m := (n * 2 ^ ((p : Int) - 1 - Int.log 2 (n : α)).toNat : Int)) ?_
    unfold ulp
    rw [div_eq_mul_inv, ← zpow_neg]
    push_cast
    rw [← zpow_natCast, Int.toNat_of_nonneg (by omega)]
    congr 2; ring
  · subst hn
    push_cast
    rw [← zpow_natCast]
    exact rndPos_pow hp _

theorem rnd_mono {p : Nat} (hp : 0 < p) : Monotone (rnd p : α → α) := by
  intro x y h
  unfold rnd
  by_cases hx0 : x = 0
  · subst hx0
    rw [if_pos rfl]
    by_cases hy0 : y = 0
    · rw [if_pos hy0]
    · have hy : 0 < y := lt_of_le_of_ne h (Ne.symm hy0)
      rw [if_neg hy0, if_pos hy]
      exact (rndPos_pos hp hy).le
  · rw [if_neg hx0]
    by_cases hx : 0 < x
    · have hy := lt_of_lt_of_le hx h
      rw [if_pos hx, if_neg hy.ne', if_pos hy]
      exact rndPos_mono hp hx h
    · have hx' : 0 < -x := by have := lt_of_le_of_ne (not_lt.1 hx) hx0; linarith
      rw [if_neg hx]
      by_cases hy0 : y = 0
      · rw [if_pos hy0]; have := rndPos_pos hp hx'; linarith
      · rw [if_neg hy0]
        by_cases hy : 0 < y
        · rw [if_pos hy]
          have := rndPos_pos hp hx'; have := rndPos_pos hp hy; linarith
        · rw [if_neg hy]
          have hy' : 0 < -y := by have := lt_of_le_of_ne (not_lt.1 hy) hy0; linarith
          have := rndPos_mono hp hy' (show -y ≤ -x by linarith)
          linarith

theorem rnd_pos_eq {p : Nat} {x : α} (hx : 0 < x) : rnd p x = rndPos p x := by
  unfold rnd; rw [if_neg hx.ne', if_pos hx]

theorem rnd_neg_eq {p : Nat} {x : α} (hx : 0 < x) : rnd p (-x) = -rndPos p x := by
  unfold rnd; rw [if_neg (by linarith), if_neg (by linarith), neg_neg]

theorem rnd_idem {p : Nat} (hp : 0 < p) (x : α) : rnd p (rnd p x) = rnd p x := by
  rcases lt_trichotomy x 0 with hx | rfl | hx
  · have hx' : 0 < -x := by linarith
    have e : rnd p x = -rndPos p (-x) := by have := rnd_neg_eq (p := p) hx'; rwa [neg_neg] at this
    rw [e, rnd_neg_eq (rndPos_pos hp hx'), rndPos_idem hp hx']
  · have : rnd p (0 : α) = 0 := by unfold rnd; rw [if_pos rfl]
    rw [this, this]
  · rw [rnd_pos_eq hx, rnd_pos_eq (rndPos_pos hp hx), rndPos_idem hp hx]

theorem rnd_nat {p : Nat} (hp : 0 < p) {n : Nat} (hn : n ≤ 2 ^ p) : rnd p (n : α) = n := by
  rcases Nat.eq_zero_or_pos n with rfl | h0
  · unfold rnd; simp
  · rw [rnd_pos_eq (by exact_mod_cast h0), rndPos_nat hp h0 hn]

/-- Rounding to nearest, ties to even, with `p` bits. -/
def rounding (p : Nat) (hp : 0 < p) : Rounding α where
  rnd := rnd p
  mono := rnd_mono hp
  idem := rnd_idem hp
  exactTo := 2 ^ p
  exact := fun n hn => rnd_nat hp hn

/-- The arithmetic of `double`. -/
def double : Rounding α := rounding 53 (by decide)

end Oxsx.Ieee
