import Verif.Props.ConstraintManager
set_option linter.unusedSectionVars false
set_option linter.unusedSimpArgs false
set_option linter.unusedVariables false
/-
C37: the total penalty is never negative.
-/
namespace Oxsx
variable {α : Type} [Field α] [LinearOrder α] [IsStrictOrderedRing α]

theorem Fl.div_nonneg {x y v : α} (hx : 0 ≤ x) (hy : 0 ≤ y) (h : Fl.div x y = some v) : 0 ≤ v := by
  unfold Fl.div at h
  split at h
  · cases h
  · rw [← Option.some.inj h]
    exact _root_.div_nonneg hx hy

theorem two_sq_nonneg (s : α) : 0 ≤ 2 * s * s := by nlinarith [mul_self_nonneg s]

theorem QuadraticConstraint.nonneg {c : QuadraticConstraint α} {x v : α} (h : c.evaluate x = some v) : 0 ≤ v :=
  Fl.div_nonneg (mul_self_nonneg _) (two_sq_nonneg _) h

theorem RatioConstraint.nonneg {c : RatioConstraint α} {x y v : α} (h : c.evaluate x y = some v) : 0 ≤ v := by
  unfold RatioConstraint.evaluate at h
  simp only at h
  split at h
  · exact Fl.div_nonneg (mul_self_nonneg _) (two_sq_nonneg _) h
  · cases h

theorem FractionalConstraint.nonneg {c : FractionalConstraint α} {x y v : α} (h : c.evaluate x y = some v) : 0 ≤ v := by
  unfold FractionalConstraint.evaluate at h
  split at h
  · exact Fl.div_nonneg (mul_self_nonneg _) (two_sq_nonneg _) h
  · cases h

theorem ShapeConstraint.nonneg {c : ShapeConstraint α} {p : ParamDict α} {v : α} (h : c.evaluate p = some v) : 0 ≤ v :=
  Fl.div_nonneg (mul_self_nonneg _) (two_sq_nonneg _) h

theorem BivariateConstraint.nonneg {c : BivariateConstraint α} (hc : |c.corr| ≤ 1) {x y v : α} (h : c.evaluate x y = some v) : 0 ≤ v := by
  unfold BivariateConstraint.evaluate at h
  split at h
  · rename_i z1 z2 z12 e1 e2 e3
    have hr : c.corr ^ 2 ≤ 1 := by rw [← sq_abs]; exact pow_le_one₀ (abs_nonneg _) hc
    refine Fl.div_nonneg ?_ (by nlinarith) h
    unfold Fl.div at e1 e2 e3
    split at e1 <;> [cases e1; skip]
    split at e2 <;> [cases e2; skip]
    split at e3 <;> [cases e3; skip]
    rename_i n1 n2 n3
    have hs1 : c.sigma1 ≠ 0 := by rintro h0; exact n1 (by rw [h0]; ring)
    have hs2 : c.sigma2 ≠ 0 := by rintro h0; exact n2 (by rw [h0]; ring)
    rw [← Option.some.inj e1, ← Option.some.inj e2, ← Option.some.inj e3]
    set u := (x - c.mean1) / c.sigma1 with hu
    set w := (y - c.mean2) / c.sigma2 with hw
    have : (x - c.mean1) * (x - c.mean1) / (2 * c.sigma1 * c.sigma1) - c.corr * (x - c.mean1) * (y - c.mean2) / (c.sigma1 * c.sigma2) +
        (y - c.mean2) * (y - c.mean2) / (2 * c.sigma2 * c.sigma2) = ((u - c.corr * w) ^ 2 + (1 - c.corr ^ 2) * w ^ 2) / 2 := by
      rw [hu, hw]; field_simp; ring
    rw [this]
    have : 0 ≤ 1 - c.corr ^ 2 := by linarith
    positivity
  · cases h

namespace ConstraintManager

theorem sumOver_none {κ β : Type} (eval : κ → β → Res (Fl α)) : ∀ (m : List (κ × β)) {t : Fl α}, sumOver eval m none = .ok t → t = none := by
  intro m
  induction m with
  | nil => intro t h; unfold sumOver at h; rw [Res.forFold] at h; exact (Res.ok.inj h).symm
  | cons p m ih =>
    intro t h
    unfold sumOver at h
    obtain ⟨t1, e1, e2⟩ := (Res.forFold_cons_eq_ok).1 h
    obtain ⟨c, _, e1⟩ := Res.bind_eq_ok.1 e1
    have : t1 = none := by rw [← Res.ok.inj e1]; rfl
    subst this
    exact ih e2

theorem sumOver_nonneg {κ β : Type} (eval : κ → β → Res (Fl α)) : ∀ (m : List (κ × β)), (∀ p ∈ m, ∀ v, eval p.1 p.2 = .ok (some v) → 0 ≤ v) →
    ∀ {t : Fl α} {v : α}, (∀ u, t = some u → 0 ≤ u) → sumOver eval m t = .ok (some v) → 0 ≤ v := by
  intro m
  induction m with
  | nil => intro _ t v ht h; unfold sumOver at h; rw [Res.forFold] at h; exact ht v (Res.ok.inj h)
  | cons p m ih =>
    intro hp t v ht h
    unfold sumOver at h
    obtain ⟨t1, e1, e2⟩ := (Res.forFold_cons_eq_ok).1 h
    obtain ⟨c, e3, e1⟩ := Res.bind_eq_ok.1 e1
    have e1 := Res.ok.inj e1
    refine ih (fun q hq => hp q (List.mem_cons_of_mem _ hq)) (t := t1) (fun u hu => ?_) e2
    rw [hu] at e1
    cases t with
    | none => cases e1
    | some a =>
      cases c with
      | none => cases e1
      | some b =>
        have : a + b = u := Option.some.inj e1
        rw [← this]
        exact add_nonneg (ht a rfl) (hp p List.mem_cons_self b e3)

theorem evalPair_ok {β : Type} {f : β → α → α → Fl α} {p : ParamDict α} {k : String × String} {c : β} {v : α} (h : evalPair f p k c = .ok (some v)) : ∃ x y, f c x y = some v := by
  unfold evalPair at h
  obtain ⟨x, _, h⟩ := Res.bind_eq_ok.1 h
  obtain ⟨y, _, h⟩ := Res.bind_eq_ok.1 h
  exact ⟨x, y, Res.ok.inj h⟩

end ConstraintManager

open ConstraintManager in
/-- C37, sign: after any history of calls, at any parameters where the total penalty has a finite value, it is not negative, if the correlations of the pair constraints in force
are between -1 and 1 and the interpolated tables in force (which may hold anything) have no negative value there. -/
theorem C37_nonnegative (cs : List (ConCall α)) (p : ParamDict α) (hcorr : ∀ k b, (Registered.run cs).pair k = some b → |b.corr| ≤ 1)
    (htab : ∀ l h, (Registered.run cs).interp l = some h → ∀ v, ShapeInterp.evaluate h p = .ok (some v) → 0 ≤ v) {v : α} (hv : (runCalls cs).evaluate p = .ok (some v)) : 0 ≤ v := by
  have R := conRel_run cs
  unfold ConstraintManager.evaluate at hv
  obtain ⟨t1, e1, hv⟩ := Res.bind_eq_ok.1 hv
  obtain ⟨t2, e2, hv⟩ := Res.bind_eq_ok.1 hv
  obtain ⟨t3, e3, hv⟩ := Res.bind_eq_ok.1 hv
  obtain ⟨t4, e4, hv⟩ := Res.bind_eq_ok.1 hv
  obtain ⟨t5, e5, hv⟩ := Res.bind_eq_ok.1 hv
  have n1 : ∀ u, t1 = some u → 0 ≤ u := fun u hu => by
    subst hu
    refine sumOver_nonneg _ _ (fun q hq w hw => ?_) (fun u hu => by rw [← Option.some.inj hu]) e1
    obtain ⟨x, _, hw⟩ := Res.bind_eq_ok.1 hw
    exact QuadraticConstraint.nonneg (Res.ok.inj hw)
  have n2 : ∀ u, t2 = some u → 0 ≤ u := fun u hu => by
    subst hu
    refine sumOver_nonneg _ _ (fun q hq w hw => ?_) n1 e2
    obtain ⟨x, y, hw⟩ := evalPair_ok hw
    exact BivariateConstraint.nonneg (hcorr q.1 q.2 (by rw [← R.pair, KMap.find_of_mem R.s2 hq])) hw
  have n3 : ∀ u, t3 = some u → 0 ≤ u := fun u hu => by
    subst hu
    refine sumOver_nonneg _ _ (fun q hq w hw => ?_) n2 e3
    obtain ⟨x, y, hw⟩ := evalPair_ok hw
    exact RatioConstraint.nonneg hw
  have n4 : ∀ u, t4 = some u → 0 ≤ u := fun u hu => by
    subst hu
    refine sumOver_nonneg _ _ (fun q hq w hw => ?_) n3 e4
    obtain ⟨x, y, hw⟩ := evalPair_ok hw
    exact FractionalConstraint.nonneg hw
  have n5 : ∀ u, t5 = some u → 0 ≤ u := fun u hu => by
    subst hu
    exact sumOver_nonneg _ _ (fun q hq w hw => htab q.1 q.2 (by rw [← R.interp, SMap.find_of_mem R.s5 hq]) w hw) n4 e5
  exact sumOver_nonneg _ _ (fun q hq w hw => ShapeConstraint.nonneg (Res.ok.inj hw)) n5 hv

-- an individual constraint and a correlated pair: 1/2 + 2/3
example : (ConstraintManager.runCalls ([.ind "a" (.sym 1 1), .pair "b" 1 2 "c" 3 1 (1/2)] : List (ConCall ℚ))).evaluate [("a", 2), ("b", 3), ("c", 4)] = .ok (some (1/2 + 2/3)) ∧
    ∀ k b, (Registered.run ([.ind "a" (.sym 1 1), .pair "b" 1 2 "c" 3 1 (1/2)] : List (ConCall ℚ))).pair k = some b → |b.corr| ≤ 1 := by
  refine ⟨by decide +kernel, fun k b h => ?_⟩
  have R := conRel_run ([.ind "a" (.sym 1 1), .pair "b" 1 2 "c" 3 1 (1/2)] : List (ConCall ℚ))
  rw [← R.pair k] at h
  have e : (ConstraintManager.runCalls ([.ind "a" (.sym 1 1), .pair "b" 1 2 "c" 3 1 (1/2)] : List (ConCall ℚ))).pair.map (fun q => q.2.corr) = [1/2] := by decide +kernel
  have := List.mem_map_of_mem (f := fun q : (String × String) × BivariateConstraint ℚ => q.2.corr) (KMap.mem_of_find h)
  rw [e, List.mem_singleton] at this
  rw [this]; norm_num

end Oxsx
