import Verif.Model.RoundedConstraint
import Verif.Lemmas.RoundedError
import Verif.Lemmas.Basic
/-
Rounding errors of the constraints.
-/
set_option linter.unusedVariables false
set_option linter.unusedSectionVars false
set_option linter.unusedSimpArgs false
namespace Oxsx
variable {α : Type} [Field α] [LinearOrder α] [IsStrictOrderedRing α]

namespace Close
variable {u : α} (h0 : 0 ≤ u) (h1 : u < 1)
include h0 h1

theorem mul {k l : Nat} {t s x y z w : α} (h : Close u k t x y) (g : Close u l s z w) : Close u (k + l) (t * s) (x * z) (y * w) := by
  have ht : 0 ≤ t := (abs_nonneg _).trans h.1
  have hs : 0 ≤ s := (abs_nonneg _).trans g.1
  refine ⟨by rw [abs_mul]; exact mul_le_mul h.1 g.1 (abs_nonneg _) ht, ?_⟩
  have hk := Near.pow_pos' h0 h1 k
  have hl := Near.pow_pos' h0 h1 l
  have hw : |w| ≤ 1 / (1 - u) ^ l * s := by
    have := abs_add_le (w - z) z
    rw [sub_add_cancel] at this
    have a := g.1
    have b := g.2
    have e : 1 / (1 - u) ^ l * s = (1 / (1 - u) ^ l - 1) * s + s := by ring
    rw [e]; linarith
  have e : y * w - x * z = (y - x) * w + x * (w - z) := by ring
  have e' : (1 / (1 - u) ^ (k + l) - 1) * (t * s) = ((1 / (1 - u) ^ k - 1) * t) * (1 / (1 - u) ^ l * s) + t * ((1 / (1 - u) ^ l - 1) * s) := by
    rw [pow_add]; field_simp; ring
  rw [e, e']
  refine (abs_add_le _ _).trans (add_le_add ?_ ?_)
  · rw [abs_mul]
    exact mul_le_mul h.2 hw (abs_nonneg _) (mul_nonneg (factor_nonneg h0 h1 k) ht)
  · rw [abs_mul]
    exact mul_le_mul h.1 g.2 (abs_nonneg _) ht

theorem div {k l : Nat} {t x y z w : α} (h : Close u k t x y) (g : Near u l z w) (hz : 0 < z) : Close u (k + l) (t / z) (x / z) (y / w) := by
  rw [div_eq_mul_inv, div_eq_mul_inv, div_eq_mul_inv]
  exact h.mul h0 h1 (of_near h0 h1 (g.inv h0 h1 hz))

theorem weaken {k : Nat} {t s x y : α} (hts : t ≤ s) (h : Close u k t x y) : Close u k s x y :=
  ⟨h.1.trans hts, h.2.trans (mul_le_mul_of_nonneg_left hts (factor_nonneg h0 h1 k))⟩

end Close

/-- The denominators of the constraints. -/
theorem near_twoSq (R : Arith α) {s : α} (hs : 0 < s) : Near R.u 2 (2 * s * s) (R.rnd (R.rnd (2 * s) * s)) := by
  have h0 := R.u_nonneg
  have h1 := R.u_lt
  have a := Near.rnd R (show (0 : α) ≤ 2 * s by positivity)
  have b := (a.mul h0 h1 (Near.refl h0 h1 0 hs.le)).rounded R
  exact b

theorem Fl.close_div (R : Arith α) {k l : Nat} {t x y z w : α} (h : Close R.u k t x y) (g : Near R.u l z w) (hz : 0 < z) :
    ∃ c', Fl.div x z = some (x / z) ∧ Fl.divR R.toRounding y w = some c' ∧ Close R.u (k + l + 1) (t / z) (x / z) c' := by
  have hw := g.pos R.u_nonneg R.u_lt hz
  refine ⟨R.rnd (y / w), ?_, ?_, (h.div R.u_nonneg R.u_lt g hz).rounded R⟩
  · unfold Fl.div; rw [if_neg hz.ne']
  · unfold Fl.divR; rw [if_neg hw.ne']

theorem Fl.close_quad (R : Arith α) {k : Nat} {t d d' s : α} (h : Close R.u k t d d') (hs : 0 < s) :
    ∃ c', Fl.div (d * d) (2 * s * s) = some (d * d / (2 * s * s)) ∧ Fl.quadR R.toRounding d' s = some c' ∧
      Close R.u (2 * k + 4) (t * t / (2 * s * s)) (d * d / (2 * s * s)) c' := by
  obtain ⟨c', e1, e2, e3⟩ := Fl.close_div R ((h.sq R.u_nonneg R.u_lt).rounded R) (near_twoSq R hs) (by positivity)
  exact ⟨c', e1, e2, e3⟩

theorem QuadraticConstraint.close (R : Arith α) (c : QuadraticConstraint α) (v : α) (hw : 0 < c.width) (hl : c.isAsym → 0 < c.widthLo) :
    ∃ q q', c.evaluate v = some q ∧ c.evaluateR R.toRounding v = some q' ∧ Close R.u 6 q q q' := by
  have hs : 0 < (if c.isAsym then (if v ≥ c.mean then c.width else c.widthLo) else c.width) := by
    split
    · rename_i ha
      split
      · exact hw
      · exact hl ha
    · exact hw
  obtain ⟨c', e1, e2, e3⟩ := Fl.close_quad R (Close.of_rel R (v - c.mean)) hs
  refine ⟨_, c', e1, e2, ?_⟩
  rw [abs_mul_abs_self] at e3
  exact e3

theorem ShapeConstraint.close (R : Arith α) (c : ShapeConstraint α) (p : ParamDict α) (hw : 0 < c.sigma) :
    ∃ q q', c.evaluate p = some q ∧ c.evaluateR R.toRounding p = some q' ∧ Close R.u 6 q q q' := by
  obtain ⟨c', e1, e2, e3⟩ := Fl.close_quad R (Close.of_rel R (c.func p - c.mean)) hw
  refine ⟨_, c', e1, e2, ?_⟩
  rw [abs_mul_abs_self] at e3
  exact e3

/-- A difference of a computed and a stored number. -/
theorem close_minus (R : Arith α) {k : Nat} {t x y : α} (h : Close R.u k t x y) (m : α) :
    Close R.u (k + 1) (t + |m|) (x - m) (R.rnd (y - m)) :=
  (h.sub R.u_nonneg R.u_lt (Close.refl R.u_nonneg R.u_lt k m)).rounded R

theorem RatioConstraint.close (R : Arith α) (c : RatioConstraint α) {v1 v2 : α} (hw : 0 < c.sigma) (he : RatioConstraint.epsilon ≤ v2)
    (he' : R.rnd RatioConstraint.epsilon ≤ v2) :
    ∃ q q', c.evaluate v1 v2 = some q ∧ c.evaluateR R.toRounding v1 v2 = some q' ∧
      Close R.u 8 ((|v1 / v2| + |c.mean|) * (|v1 / v2| + |c.mean|) / (2 * c.sigma * c.sigma)) q q' := by
  have hp : (0 : α) < RatioConstraint.epsilon := by unfold RatioConstraint.epsilon; positivity
  have hv : 0 < v2 := lt_of_lt_of_le hp he
  obtain ⟨r, e1, e2, e3⟩ := Fl.close_div R (Close.refl R.u_nonneg R.u_lt 0 v1) (Near.refl R.u_nonneg R.u_lt 0 hv.le) hv
  rw [show |v1| / v2 = |v1 / v2| by rw [abs_div, abs_of_pos hv]] at e3
  obtain ⟨c', f1, f2, f3⟩ := Fl.close_quad R (close_minus R e3 c.mean) hw
  refine ⟨_, c', ?_, ?_, f3⟩
  · unfold RatioConstraint.evaluate
    simp only
    rw [abs_of_pos hv, if_neg (not_lt.2 he), e1]
    exact f1
  · unfold RatioConstraint.evaluateR
    simp only
    rw [abs_of_pos hv, if_neg (not_lt.2 he'), e2]
    exact f2

theorem FractionalConstraint.close (R : Arith α) (c : FractionalConstraint α) {v1 v2 : α} (hw : 0 < c.sigma) (hv : 0 < v1 + v2) :
    ∃ q q', c.evaluate v1 v2 = some q ∧ c.evaluateR R.toRounding v1 v2 = some q' ∧
      Close R.u 12 ((|(v1 - v2) / (v1 + v2)| + |c.mean|) * (|(v1 - v2) / (v1 + v2)| + |c.mean|) / (2 * c.sigma * c.sigma)) q q' := by
  obtain ⟨r, e1, e2, e3⟩ := Fl.close_div R (Close.of_rel R (v1 - v2)) (Near.rnd R hv.le) hv
  rw [show |v1 - v2| / (v1 + v2) = |(v1 - v2) / (v1 + v2)| by rw [abs_div, abs_of_pos hv]] at e3
  obtain ⟨c', f1, f2, f3⟩ := Fl.close_quad R (close_minus R e3 c.mean) hw
  refine ⟨_, c', ?_, ?_, f3⟩
  · unfold FractionalConstraint.evaluate
    rw [e1]; exact f1
  · unfold FractionalConstraint.evaluateR
    rw [e2]; exact f2

/-- `1 - rho * rho`, without much cancellation. -/
theorem near_oneMinus (R : Arith α) (fma : Bool) {r : α} (hr : r * r ≤ 1 / 2) :
    Near R.u 2 (1 - r * r) (if fma then R.rnd (1 - r * r) else R.rnd (1 - R.rnd (r * r))) := by
  have h0 := R.u_nonneg
  have h1 := R.u_lt
  have hp : 0 ≤ 1 - r * r := by linarith
  split
  · exact (Near.rnd R hp).mono h0 h1 (by omega)
  · refine Near.rounded R (k := 1) ?_
    have hrr : 0 ≤ r * r := mul_self_nonneg r
    have := R.rel (r * r)
    rw [abs_of_nonneg hrr, abs_le] at this
    obtain ⟨a, b⟩ := this
    have hu : R.u * (r * r) ≤ R.u * (1 - r * r) := mul_le_mul_of_nonneg_left (by linarith) h0
    have hlo : (1 - r * r) * (1 - R.u) ≤ 1 - R.rnd (r * r) := by nlinarith
    refine ⟨hp, (mul_nonneg hp (by linarith)).trans hlo, by rw [pow_one]; exact hlo, ?_⟩
    rw [pow_one]
    have hhi : 1 - R.rnd (r * r) ≤ (1 - r * r) * (1 + R.u) := by nlinarith
    calc (1 - R.rnd (r * r)) * (1 - R.u) ≤ (1 - r * r) * (1 + R.u) * (1 - R.u) := mul_le_mul_of_nonneg_right hhi (by linarith)
      _ = (1 - r * r) - (1 - r * r) * (R.u * R.u) := by ring
      _ ≤ 1 - r * r := by nlinarith [mul_nonneg hp (mul_nonneg h0 h0)]

/-- The size of the terms of a bivariate constraint. -/
def BivariateConstraint.size (c : BivariateConstraint α) (v1 v2 : α) : α :=
  ((v1 - c.mean1) * (v1 - c.mean1) / (2 * c.sigma1 * c.sigma1) + |c.corr * (v1 - c.mean1) * (v2 - c.mean2)| / (c.sigma1 * c.sigma2) +
    (v2 - c.mean2) * (v2 - c.mean2) / (2 * c.sigma2 * c.sigma2)) / (1 - c.corr * c.corr)

theorem BivariateConstraint.close (R : Arith α) (fma : Bool) (c : BivariateConstraint α) (v1 v2 : α) (h1 : 0 < c.sigma1) (h2 : 0 < c.sigma2)
    (hr : c.corr * c.corr ≤ 1 / 2) :
    ∃ q q', c.evaluate v1 v2 = some q ∧ c.evaluateR R.toRounding fma v1 v2 = some q' ∧ Close R.u 11 (c.size v1 v2) q q' := by
  have u0 := R.u_nonneg
  have u1 := R.u_lt
  obtain ⟨z1, a1, a2, a3⟩ := Fl.close_quad R (Close.of_rel R (v1 - c.mean1)) h1
  obtain ⟨z2, b1, b2, b3⟩ := Fl.close_quad R (Close.of_rel R (v2 - c.mean2)) h2
  rw [abs_mul_abs_self] at a3 b3
  have n1 := (((Close.refl u0 u1 0 c.corr).mul u0 u1 (Close.of_rel R (v1 - c.mean1))).rounded R).mul u0 u1 (Close.of_rel R (v2 - c.mean2))
  have n2 := n1.rounded R
  have hpos : 0 < c.sigma1 * c.sigma2 := mul_pos h1 h2
  obtain ⟨z12, d1, d2, d3⟩ := Fl.close_div R n2 (Near.rnd R hpos.le) hpos
  have s1 := (a3.sub u0 u1 (d3.mono u0 u1 (show 0 + 1 + 1 + 1 + 1 + 1 + 1 ≤ 2 * 1 + 4 by omega))).rounded R
  have s2 := (s1.add u0 u1 (b3.mono u0 u1 (show 2 * 1 + 4 ≤ 2 * 1 + 4 + 1 by omega))).rounded R
  have hden : 0 < 1 - c.corr * c.corr := by linarith
  obtain ⟨q', e1, e2, e3⟩ := Fl.close_div R s2 (near_oneMinus R fma hr) hden
  have f1 : c.evaluate v1 v2 = Fl.div ((v1 - c.mean1) * (v1 - c.mean1) / (2 * c.sigma1 * c.sigma1) -
      c.corr * (v1 - c.mean1) * (v2 - c.mean2) / (c.sigma1 * c.sigma2) + (v2 - c.mean2) * (v2 - c.mean2) / (2 * c.sigma2 * c.sigma2))
      (1 - c.corr * c.corr) := by
    unfold BivariateConstraint.evaluate
    rw [a1, b1, d1]
  have f2 : c.evaluateR R.toRounding fma v1 v2 = some q' := by
    unfold BivariateConstraint.evaluateR
    rw [a2, b2, d2]
    exact e2
  refine ⟨_, q', f1.trans e1, f2, ?_⟩
  unfold BivariateConstraint.size
  rw [abs_mul, abs_mul]
  exact e3

/-- Two evaluations, one exact and one with rounding, both of which give a number. -/
def CloseTo (u : α) (k : Nat) (t : α) (e e' : Res (Fl α)) : Prop := ∃ c c', e = .ok (some c) ∧ e' = .ok (some c') ∧ Close u k t c c'

theorem ConstraintManager.close_sumOver {κ β : Type} (R : Arith α) {K : Nat} (eval eval' : κ → β → Res (Fl α)) (size : κ × β → α) (m : List (κ × β)) :
    (∀ p ∈ m, CloseTo R.u K (size p) (eval p.1 p.2) (eval' p.1 p.2)) → ∀ {j : Nat} {t a a' : α}, K ≤ j → Close R.u j t a a' →
    ∃ b b', sumOver eval m (some a) = .ok (some b) ∧ sumOverR R.toRounding eval' m (some a') = .ok (some b') ∧
      Close R.u (j + m.length) (t + (m.map size).sum) b b' := by
  induction m with
  | nil =>
    intro _ j t a a' _ h
    refine ⟨a, a', rfl, rfl, ?_⟩
    simpa using h
  | cons p m ih =>
    intro hm j t a a' hj h
    obtain ⟨c, c', e1, e2, e3⟩ := hm p (by simp)
    have step := (h.add R.u_nonneg R.u_lt (e3.mono R.u_nonneg R.u_lt hj)).rounded R
    obtain ⟨b, b', f1, f2, f3⟩ := ih (fun q hq => hm q (by simp [hq])) (show K ≤ j + 1 by omega) step
    refine ⟨b, b', ?_, ?_, ?_⟩
    · unfold sumOver at f1 ⊢
      rw [Res.forFold, e1]
      exact f1
    · unfold sumOverR at f2 ⊢
      rw [Res.forFold, e2]
      exact f2
    · rw [List.map_cons, List.sum_cons, List.length_cons]
      rw [show t + (size p + (m.map size).sum) = t + size p + (m.map size).sum by ring, show j + (m.length + 1) = j + 1 + m.length by ring]
      exact f3

end Oxsx
