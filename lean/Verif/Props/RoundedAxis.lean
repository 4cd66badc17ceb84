import Verif.Props.RoundedError
import Verif.Props.Rounded
/-
C103: the rounding errors of an axis with bins of equal width.
-/
set_option linter.unusedSectionVars false
set_option linter.unusedVariables false
namespace Oxsx
variable {α : Type} [Field α] [LinearOrder α] [IsStrictOrderedRing α]
open BinAxis

/-- C103 (axes): of an axis with `n` bins of equal width made with every operation rounded (fused or not), each edge, centre and width differs from the
exact one by at most a few roundings: 3 of the width, 6 for an edge, 7 for a centre, relative to the sum of the absolute values added. -/
theorem C103_axis (R : Arith α) (fma : Bool) {nm lx : String} {mn mx : α} {n : Nat} {a : BinAxis α}
    (h : mkEqualR R.toRounding fma nm mn mx n lx = .ok a) {i : Nat} (hi : i < n) :
    ∃ lo hi c wd, a.getBinLowEdge i = .ok lo ∧ a.getBinHighEdge i = .ok hi ∧ a.getBinCentre i = .ok c ∧ a.getBinWidth i = .ok wd ∧
      |lo - (mn + i * ((mx - mn) / n))| ≤ (1 / (1 - R.u) ^ 6 - 1) * (|mn| + i * ((mx - mn) / n)) ∧
      |hi - (mn + (i + 1) * ((mx - mn) / n))| ≤ (1 / (1 - R.u) ^ 6 - 1) * (|mn| + (i + 1) * ((mx - mn) / n)) ∧
      |c - (mn + (i + 1 / 2) * ((mx - mn) / n))| ≤ (1 / (1 - R.u) ^ 7 - 1) * (|mn| + (i + 1 / 2) * ((mx - mn) / n)) ∧
      |wd - (mx - mn) / n| ≤ (1 / (1 - R.u) ^ 3 - 1) * ((mx - mn) / n) := by
  have h0 := R.u_nonneg
  have h1 := R.u_lt
  have hlt : mn < mx ∧ 0 < n := ⟨(mkEqualR_ok h).1, (mkEqualR_ok h).2.1⟩
  unfold mkEqualR at h
  simp only at h
  rw [if_neg (by push Not; exact ⟨hlt.1, by omega⟩)] at h
  have ha := Res.ok.inj h
  have hn : (0 : α) < n := by exact_mod_cast hlt.2
  have hd : (0 : α) ≤ mx - mn := by linarith [hlt.1]
  obtain ⟨w, hw⟩ : ∃ w, w = R.rnd (R.rnd (mx - mn) / R.rnd (n : α)) := ⟨_, rfl⟩
  have hwn : Near R.u 3 ((mx - mn) / n) w := by
    rw [hw]
    exact Near.rounded R ((Near.rnd R hd).div h0 h1 (Near.rnd R hn.le) hn)
  have edge : ∀ j : Nat, Close R.u 6 (|mn| + j * ((mx - mn) / n)) (mn + j * ((mx - mn) / n)) (mulAdd R.toRounding fma mn (R.rnd (j : α)) w) := by
    intro j
    have hq : Near R.u 4 ((j : α) * ((mx - mn) / n)) (R.rnd (j : α) * w) := (Near.rnd R (Nat.cast_nonneg j)).mul h0 h1 hwn
    exact Close.mulAdd R fma (k := 5) (l := 4) (by omega) (Close.refl h0 h1 5 mn) (Close.of_near h0 h1 hq)
  have centre : Close R.u 7 (|mn| + ((i : α) + 1 / 2) * ((mx - mn) / n)) (mn + ((i : α) + 1 / 2) * ((mx - mn) / n))
      (mulAdd R.toRounding fma mn (R.rnd (R.rnd (i : α) + 1 / 2)) w) := by
    have hx : Near R.u 2 ((i : α) + 1 / 2) (R.rnd (R.rnd (i : α) + 1 / 2)) :=
      Near.rounded R ((Near.rnd R (Nat.cast_nonneg i)).add h0 h1 (Near.refl h0 h1 1 (by positivity)))
    exact Close.mulAdd R fma (k := 6) (l := 5) (by omega) (Close.refl h0 h1 6 mn) (Close.of_near h0 h1 (hx.mul h0 h1 hwn))
  refine ⟨mulAdd R.toRounding fma mn (R.rnd (i : α)) w, mulAdd R.toRounding fma mn (R.rnd ((i + 1 : Nat) : α)) w,
    mulAdd R.toRounding fma mn (R.rnd (R.rnd (i : α) + 1 / 2)) w, w, ?_, ?_, ?_, ?_, (edge i).2, by simpa using (edge (i + 1)).2, centre.2, hwn.abs_le' h0 h1⟩ <;>
  · rw [← ha]
    simp [getBinLowEdge, getBinHighEdge, getBinCentre, getBinWidth, at_, hi, hw]

-- the 49 bins on [0, 1] in doubles, whose last edge is not 1 (`C102_last_edge_wrong`): it is within 12 roundings of it
example : ∃ (a : BinAxis ℚ) (hi : ℚ), mkEqualR (Ieee.doubleArith : Arith ℚ).toRounding true "x" 0 1 49 = .ok a ∧ a.getBinHighEdge 48 = .ok hi ∧
    |hi - 1| ≤ 12 / 2 ^ 53 := by
  obtain ⟨a, ha⟩ := (C102_axis (Ieee.doubleArith : Arith ℚ).toRounding true "x" "" 0 1 49 (Rounding.zero _)).1.2 ⟨by norm_num, by norm_num⟩
  obtain ⟨_, hi, _, _, _, h2, _, _, _, h3, _⟩ := C103_axis (Ieee.doubleArith : Arith ℚ) true ha (i := 48) (by norm_num)
  refine ⟨a, hi, ha, h2, ?_⟩
  have e := errors_le (u := (Ieee.doubleArith : Arith ℚ).u) (Ieee.doubleArith : Arith ℚ).u_nonneg (k := 6) (by show ((6 : Nat) : ℚ) * (1 / 2 ^ 53) ≤ 1 / 2; norm_num)
  have hu : (Ieee.doubleArith : Arith ℚ).u = 1 / 2 ^ 53 := rfl
  rw [hu] at e h3
  norm_num at h3 e ⊢
  linarith

end Oxsx
