import Verif.Props.Likelihood
import Mathlib.Analysis.Convex.SpecificFunctions.Basic
import Mathlib.Tactic.Linarith
import Mathlib.Tactic.FieldSimp
set_option linter.unusedSectionVars false
set_option linter.unusedSimpArgs false
set_option linter.unusedVariables false
/-
C83 (data equal to the expectation), C84 (convexity), C85 (the fitted total): what the value of the binned likelihood means for a fit,
from the configuration of the likelihood to the value it returns.
-/
namespace Oxsx
variable {σ : Type}
open NLLH

/-- The value of the likelihood configured with these distributions, constraints, parameters and data. -/
noncomputable def fitValue (name : Nat → String) (C : FitSys σ ℝ) (objs : Nat → σ) (log : List (BinnedED ℝ × NormStatus))
    (cons : ConstraintManager ℝ) (d : BinnedED ℝ) (ps : ParamDict ℝ) : Res (Fl ℝ) :=
  NLLH.configured name C objs log cons ps d >>= fun L => L.value C CMath.real

/-- Distributions and data that can be fitted together: distinct names, directly before indirectly fitted ones (C27, C28), the same observables
and number of bins. -/
structure CanFit (log : List (BinnedED ℝ × NormStatus)) (d : BinnedED ℝ) : Prop where
  distinct : PdfLog.DistinctNames log
  order : PdfLog.Before .direct .indirect log
  obs : ∀ p ∈ log, p.1.obs.names = d.obs.names ∧ p.1.hist.nBins = d.hist.nBins ∧ p.1.hist.contents.length = d.hist.nBins
  data : d.hist.contents.length = d.hist.nBins

/-- The expected rate in a bin at a point. -/
noncomputable def rateAt (log : List (BinnedED ℝ × NormStatus)) (ps : ParamDict ℝ) (b : Nat) : ℝ :=
  expectedRate (fun n => (SMap.find ps n).getD 0) log (log.map (·.1)) b

/-- The number of events in a bin of the data. -/
noncomputable def countIn (d : BinnedED ℝ) (b : Nat) : ℝ := d.hist.contents.getD b 0

/-- A dictionary with a value for every fitted normalisation, giving a positive rate in every bin, and the constraint term there. -/
structure FitPoint (log : List (BinnedED ℝ × NormStatus)) (cons : ConstraintManager ℝ) (d : BinnedED ℝ) (ps : ParamDict ℝ) (c : ℝ) : Prop where
  nonempty : ps ≠ []
  sorted : SMap.Sorted ps
  all : ∀ n ∈ PdfLog.fitted log, (SMap.find ps n).isSome
  positive : ∀ b, b < d.hist.nBins → 0 < rateAt log ps b
  constraint : cons.evaluate (ps.filter (fun p => p.1 ∈ PdfLog.fitted log)) = .ok (some c)

/-- The Poisson sum at a point. -/
noncomputable def nllAt (log : List (BinnedED ℝ × NormStatus)) (d : BinnedED ℝ) (ps : ParamDict ℝ) : ℝ :=
  ((List.range d.hist.nBins).map (fun b => poissonTerm (countIn d b) (rateAt log ps b))).sum

theorem fitValue_eq {name : Nat → String} {C : FitSys σ ℝ} {objs : Nat → σ} {log : List (BinnedED ℝ × NormStatus)} {cons : ConstraintManager ℝ}
    {d : BinnedED ℝ} {ps : ParamDict ℝ} {c : ℝ} (h : CanFit log d) (hp : FitPoint log cons d ps c) :
    fitValue name C objs log cons d ps = .ok (some (nllAt log d ps + c)) := by
  obtain ⟨L, L', h1, h2⟩ := C31_configured_partial (name := name) (C := C) (objs := objs) h.distinct h.order hp.nonempty hp.sorted hp.all h.obs
    h.data hp.positive hp.constraint
  unfold fitValue NLLH.value
  rw [h1, Res.ok_bind, h2]
  rfl

theorem sum_le_of {l : List Nat} {f g : Nat → ℝ} (h : ∀ b ∈ l, f b ≤ g b) : (l.map f).sum ≤ (l.map g).sum := by
  induction l with
  | nil => simp
  | cons a l ih =>
    have := h a (by simp)
    have := ih (fun b hb => h b (by simp [hb]))
    simp only [List.map_cons, List.sum_cons]; linarith

theorem sum_eq_iff_of {l : List Nat} {f g : Nat → ℝ} (h : ∀ b ∈ l, f b ≤ g b) : (l.map f).sum = (l.map g).sum ↔ ∀ b ∈ l, f b = g b := by
  induction l with
  | nil => simp
  | cons a l ih =>
    have h1 := h a (by simp)
    have h2 := sum_le_of (fun b hb => h b (List.mem_cons_of_mem _ hb))
    have ih := ih (fun b hb => h b (by simp [hb]))
    simp only [List.map_cons, List.sum_cons, List.forall_mem_cons]
    constructor
    · intro e
      have e1 : f a = g a := by linarith
      exact ⟨e1, ih.1 (by linarith)⟩
    · rintro ⟨e1, e2⟩
      rw [e1, ih.2 e2]

/-- One bin: the term is least where the rate is the number of events, and only there. -/
theorem poissonTerm_min {n mu : ℝ} (hn : 0 < n) (hmu : 0 < mu) : poissonTerm n n ≤ poissonTerm n mu ∧ (poissonTerm n n = poissonTerm n mu ↔ mu = n) := by
  have key : poissonTerm n mu - poissonTerm n n = n * ((mu / n - 1) - Real.log (mu / n)) := by
    unfold poissonTerm
    rw [Real.log_div hmu.ne' hn.ne']
    field_simp; ring
  have hr : 0 < mu / n := div_pos hmu hn
  have h1 := Real.log_le_sub_one_of_pos hr
  have h2 : 0 ≤ n * ((mu / n - 1) - Real.log (mu / n)) := mul_nonneg hn.le (by linarith)
  refine ⟨by linarith, ?_, fun e => by rw [e]⟩
  intro e
  by_contra hne
  have hr1 : mu / n ≠ 1 := by intro h; rw [div_eq_one_iff_eq hn.ne'] at h; exact hne h
  have h3 := Real.log_lt_sub_one_of_pos hr hr1
  have : 0 < n * ((mu / n - 1) - Real.log (mu / n)) := mul_pos hn (by linarith)
  linarith

/-- C83. Data whose bins hold exactly the rates expected at `ps₀`: there the likelihood term is least, and it is as small at another point only if
that point predicts the same rate in every bin. `c₀` and `c` are the constraint terms. -/
theorem C83_expectation {name : Nat → String} {C : FitSys σ ℝ} {objs : Nat → σ} {log : List (BinnedED ℝ × NormStatus)}
    {cons : ConstraintManager ℝ} {d : BinnedED ℝ} {ps₀ ps : ParamDict ℝ} {c₀ c : ℝ} (h : CanFit log d) (h₀ : FitPoint log cons d ps₀ c₀)
    (hp : FitPoint log cons d ps c) (hdata : ∀ b, b < d.hist.nBins → countIn d b = rateAt log ps₀ b) :
    ∃ v₀ v, fitValue name C objs log cons d ps₀ = .ok (some v₀) ∧ fitValue name C objs log cons d ps = .ok (some v) ∧
      v₀ - c₀ ≤ v - c ∧ (v₀ - c₀ = v - c ↔ ∀ b, b < d.hist.nBins → rateAt log ps b = rateAt log ps₀ b) := by
  refine ⟨_, _, fitValue_eq h h₀, fitValue_eq h hp, ?_, ?_⟩
  · have := sum_le_of (l := List.range d.hist.nBins) (f := fun b => poissonTerm (countIn d b) (rateAt log ps₀ b))
      (g := fun b => poissonTerm (countIn d b) (rateAt log ps b)) (by
        intro b hb
        have hb := List.mem_range.1 hb
        rw [hdata b hb]
        exact (poissonTerm_min (h₀.positive b hb) (hp.positive b hb)).1)
    unfold nllAt; linarith
  · have := sum_eq_iff_of (l := List.range d.hist.nBins) (f := fun b => poissonTerm (countIn d b) (rateAt log ps₀ b))
      (g := fun b => poissonTerm (countIn d b) (rateAt log ps b)) (by
        intro b hb
        have hb := List.mem_range.1 hb
        rw [hdata b hb]
        exact (poissonTerm_min (h₀.positive b hb) (hp.positive b hb)).1)
    constructor
    · intro e b hb
      have e' := this.1 (by unfold nllAt at e; linarith) b (List.mem_range.2 hb)
      simp only [hdata b hb] at e'
      exact (poissonTerm_min (h₀.positive b hb) (hp.positive b hb)).2.1 e'
    · intro e
      have := this.2 (fun b hb => by simp only [e b (List.mem_range.1 hb)])
      unfold nllAt; linarith

/-- The rate is linear in the normalisations. -/
theorem rateAt_segment {log : List (BinnedED ℝ × NormStatus)} {ps₀ ps₁ ps : ParamDict ℝ} {s t : ℝ} (hst : s + t = 1)
    (hps : ∀ n ∈ PdfLog.fitted log, (SMap.find ps n).getD 0 = s * (SMap.find ps₀ n).getD 0 + t * (SMap.find ps₁ n).getD 0) (b : Nat) :
    rateAt log ps b = s * rateAt log ps₀ b + t * rateAt log ps₁ b := by
  unfold rateAt expectedRate
  have gen : ∀ l : List (BinnedED ℝ × NormStatus), (∀ p ∈ l, p ∈ log) →
      ((l.zip (l.map (·.1))).map (fun q => normOf (fun n => (SMap.find ps n).getD 0) q.1 * q.2.hist.contents.getD b 0)).sum =
      s * ((l.zip (l.map (·.1))).map (fun q => normOf (fun n => (SMap.find ps₀ n).getD 0) q.1 * q.2.hist.contents.getD b 0)).sum +
      t * ((l.zip (l.map (·.1))).map (fun q => normOf (fun n => (SMap.find ps₁ n).getD 0) q.1 * q.2.hist.contents.getD b 0)).sum := by
    intro l hl
    induction l with
    | nil => simp
    | cons p l ih =>
      have ih := ih (fun q hq => hl q (List.mem_cons_of_mem _ hq))
      simp only [List.map_cons, List.zip_cons_cons, List.sum_cons]
      rw [ih]
      have : normOf (fun n => (SMap.find ps n).getD 0) p = s * normOf (fun n => (SMap.find ps₀ n).getD 0) p + t * normOf (fun n => (SMap.find ps₁ n).getD 0) p := by
        unfold normOf
        by_cases hf : p.2.fittable
        · simp only [hf, if_true]
          exact hps _ (List.mem_map_of_mem (List.mem_filter.2 ⟨hl p (by simp), hf⟩))
        · simp only [hf, if_false, Bool.false_eq_true]; linarith
      rw [this]; ring
  exact gen log (fun p hp => hp)

theorem poissonTerm_convex {n x y s t : ℝ} (hn : 0 ≤ n) (hx : 0 < x) (hy : 0 < y) (hs : 0 ≤ s) (ht : 0 ≤ t) (hst : s + t = 1) :
    poissonTerm n (s * x + t * y) ≤ s * poissonTerm n x + t * poissonTerm n y := by
  have hlog := strictConcaveOn_log_Ioi.concaveOn.2 (Set.mem_Ioi.2 hx) (Set.mem_Ioi.2 hy) hs ht hst
  simp only [smul_eq_mul] at hlog
  unfold poissonTerm
  have := mul_le_mul_of_nonneg_left hlog hn
  linarith

/-- C84. On the segment between two points the likelihood term lies on or below the chord, for data with no negative bin. -/
theorem C84_convex {name : Nat → String} {C : FitSys σ ℝ} {objs : Nat → σ} {log : List (BinnedED ℝ × NormStatus)}
    {cons : ConstraintManager ℝ} {d : BinnedED ℝ} {ps₀ ps₁ ps : ParamDict ℝ} {c₀ c₁ c s t : ℝ} (h : CanFit log d)
    (hd : ∀ b, 0 ≤ countIn d b) (h₀ : FitPoint log cons d ps₀ c₀) (h₁ : FitPoint log cons d ps₁ c₁)
    (hs : 0 ≤ s) (ht : 0 ≤ t) (hst : s + t = 1) (hne : ps ≠ []) (hsort : SMap.Sorted ps)
    (hps : ∀ n ∈ PdfLog.fitted log, ∃ x y, SMap.find ps₀ n = some x ∧ SMap.find ps₁ n = some y ∧ SMap.find ps n = some (s * x + t * y))
    (hc : cons.evaluate (ps.filter (fun p => p.1 ∈ PdfLog.fitted log)) = .ok (some c)) :
    ∃ v₀ v₁ v, fitValue name C objs log cons d ps₀ = .ok (some v₀) ∧ fitValue name C objs log cons d ps₁ = .ok (some v₁) ∧
      fitValue name C objs log cons d ps = .ok (some v) ∧ v - c ≤ s * (v₀ - c₀) + t * (v₁ - c₁) := by
  have hrate := rateAt_segment (log := log) (ps₀ := ps₀) (ps₁ := ps₁) (ps := ps) hst (by
    intro n hn
    obtain ⟨x, y, e0, e1, e2⟩ := hps n hn
    rw [e0, e1, e2]; rfl)
  have hpos : ∀ b, b < d.hist.nBins → 0 < rateAt log ps b := by
    intro b hb
    rw [hrate b]
    have p0 := h₀.positive b hb
    have p1 := h₁.positive b hb
    rcases hs.lt_or_eq with h' | h'
    · have := mul_pos h' p0
      have := mul_nonneg ht p1.le
      linarith
    · have : t = 1 := by linarith
      rw [← h', this]; linarith
  have hp : FitPoint log cons d ps c := ⟨hne, hsort, fun n hn => by obtain ⟨x, y, _, _, e⟩ := hps n hn; rw [e]; rfl, hpos, hc⟩
  refine ⟨_, _, _, fitValue_eq h h₀, fitValue_eq h h₁, fitValue_eq h hp, ?_⟩
  have hsum := sum_le_of (l := List.range d.hist.nBins) (f := fun b => poissonTerm (countIn d b) (rateAt log ps b))
    (g := fun b => s * poissonTerm (countIn d b) (rateAt log ps₀ b) + t * poissonTerm (countIn d b) (rateAt log ps₁ b)) (by
      intro b hb
      have hb := List.mem_range.1 hb
      simp only [hrate b]
      exact poissonTerm_convex (hd b) (h₀.positive b hb) (h₁.positive b hb) hs ht hst)
  rw [List.sum_map_add, List.sum_map_mul_left, List.sum_map_mul_left] at hsum
  unfold nllAt
  linarith

/-! ### Constraint terms -/

/-- A parabola with different curvatures on the two sides of its minimum. -/
noncomputable def twoSided (k l v : ℝ) : ℝ := (if 0 ≤ v then k else l) * v ^ 2

theorem sq_convex {s t : ℝ} (hs : 0 ≤ s) (ht : 0 ≤ t) (hst : s + t = 1) {m : ℝ} (hm : 0 ≤ m) (p r : ℝ) :
    m * (s * p + t * r) ^ 2 ≤ s * (m * p ^ 2) + t * (m * r ^ 2) := by
  have h1 : s * (m * p ^ 2) + t * (m * r ^ 2) - m * (s * p + t * r) ^ 2 = m * (s * t * (p - r) ^ 2) := by
    have : s = 1 - t := by linarith
    rw [this]; ring
  have h2 : 0 ≤ m * (s * t * (p - r) ^ 2) := mul_nonneg hm (mul_nonneg (mul_nonneg hs ht) (sq_nonneg _))
  linarith

theorem twoSided_nonneg {k l : ℝ} (hk : 0 ≤ k) (hl : 0 ≤ l) (v : ℝ) : 0 ≤ twoSided k l v := by
  unfold twoSided; split
  · exact mul_nonneg hk (sq_nonneg _)
  · exact mul_nonneg hl (sq_nonneg _)

/-- Opposite sides: the point in between is nearer to the minimum than the weighted end on its own side. -/
theorem twoSided_mixed {k l u w s t : ℝ} (hk : 0 ≤ k) (hl : 0 ≤ l) (hs : 0 ≤ s) (ht : 0 ≤ t) (hst : s + t = 1) (h1 : 0 ≤ u) (h2 : w < 0) :
    twoSided k l (s * u + t * w) ≤ s * twoSided k l u + t * twoSided k l w := by
  have e1 : twoSided k l u = k * u ^ 2 := by unfold twoSided; rw [if_pos h1]
  have e2 : twoSided k l w = l * w ^ 2 := by unfold twoSided; rw [if_neg (not_le.2 h2)]
  have p1 : 0 ≤ s * u := mul_nonneg hs h1
  have p2 : t * w ≤ 0 := mul_nonpos_of_nonneg_of_nonpos ht h2.le
  have n1 : 0 ≤ s * (k * u ^ 2) := mul_nonneg hs (mul_nonneg hk (sq_nonneg _))
  have n2 : 0 ≤ t * (l * w ^ 2) := mul_nonneg ht (mul_nonneg hl (sq_nonneg _))
  rw [e1, e2]
  by_cases h3 : 0 ≤ s * u + t * w
  · have e3 : twoSided k l (s * u + t * w) = k * (s * u + t * w) ^ 2 := by unfold twoSided; rw [if_pos h3]
    have h5 : (s * u + t * w) ^ 2 ≤ (s * u + t * 0) ^ 2 := by
      rw [mul_zero, add_zero]; exact pow_le_pow_left₀ h3 (by linarith) 2
    have h6 := sq_convex hs ht hst hk u 0
    have h7 := mul_le_mul_of_nonneg_left h5 hk
    rw [e3]; simp only [ne_eq, OfNat.ofNat_ne_zero, not_false_eq_true, zero_pow, mul_zero, add_zero] at h6 h7 ⊢
    linarith
  · have e3 : twoSided k l (s * u + t * w) = l * (s * u + t * w) ^ 2 := by unfold twoSided; rw [if_neg h3]
    have h5 : (s * u + t * w) ^ 2 ≤ (s * 0 + t * w) ^ 2 := by
      rw [mul_zero, zero_add, ← neg_sq, ← neg_sq (t * w)]
      exact pow_le_pow_left₀ (by linarith [not_le.1 h3]) (by linarith) 2
    have h6 := sq_convex hs ht hst hl 0 w
    have h7 := mul_le_mul_of_nonneg_left h5 hl
    rw [e3]; simp only [ne_eq, OfNat.ofNat_ne_zero, not_false_eq_true, zero_pow, mul_zero, zero_add] at h6 h7 ⊢
    linarith

theorem twoSided_convex {k l u w s t : ℝ} (hk : 0 ≤ k) (hl : 0 ≤ l) (hs : 0 ≤ s) (ht : 0 ≤ t) (hst : s + t = 1) :
    twoSided k l (s * u + t * w) ≤ s * twoSided k l u + t * twoSided k l w := by
  by_cases h1 : 0 ≤ u <;> by_cases h2 : 0 ≤ w
  · have h3 : 0 ≤ s * u + t * w := add_nonneg (mul_nonneg hs h1) (mul_nonneg ht h2)
    unfold twoSided; rw [if_pos h1, if_pos h2, if_pos h3]
    exact sq_convex hs ht hst hk u w
  · exact twoSided_mixed hk hl hs ht hst h1 (not_le.1 h2)
  · have := twoSided_mixed hk hl ht hs (by linarith) h2 (not_le.1 h1)
    rw [add_comm (s * u), add_comm (s * _)]; exact this
  · have h3 : ¬ 0 ≤ s * u + t * w := by
      have h1 := not_le.1 h1
      have h2 := not_le.1 h2
      rcases hs.lt_or_eq with h' | h'
      · have := mul_neg_of_pos_of_neg h' h1
        have := mul_nonpos_of_nonneg_of_nonpos ht h2.le
        exact not_le.2 (by linarith)
      · have : t = 1 := by linarith
        rw [← h', this]; exact not_le.2 (by linarith)
    unfold twoSided; rw [if_neg h1, if_neg h2, if_neg h3]
    exact sq_convex hs ht hst hl u w

theorem quad_value (q : QuadraticConstraint ℝ) {z w : ℝ} (hw : q.evaluate z = some w) :
    w = twoSided (1 / (2 * q.width * q.width)) (if q.isAsym then 1 / (2 * q.widthLo * q.widthLo) else 1 / (2 * q.width * q.width)) (z - q.mean) := by
  unfold QuadraticConstraint.evaluate at hw
  have hz : z ≥ q.mean ↔ 0 ≤ z - q.mean := by constructor <;> intro h <;> linarith
  have div_some : ∀ a b c : ℝ, Fl.div a b = some c → c = 1 / b * a := by
    intro a b c h
    unfold Fl.div at h
    split at h
    · cases h
    · rw [← Option.some.inj h]; ring
  unfold twoSided
  by_cases hA : q.isAsym = true <;> by_cases h0 : 0 ≤ z - q.mean <;>
    simp only [hA, hz, h0, if_true, if_false, Bool.false_eq_true, not_true, not_false_eq_true, ite_true, ite_false, and_true, and_false, true_and, false_and, decide_true, decide_false, Bool.not_true, Bool.not_false] at hw ⊢ <;>
    rw [div_some _ _ _ hw] <;> ring

/-- An individual constraint term lies below its chord between any two points. -/
theorem quad_convex (q : QuadraticConstraint ℝ) {x y s t a b c : ℝ} (hs : 0 ≤ s) (ht : 0 ≤ t) (hst : s + t = 1)
    (ha : q.evaluate x = some a) (hb : q.evaluate y = some b) (hc : q.evaluate (s * x + t * y) = some c) : c ≤ s * a + t * b := by
  have sq : ∀ r : ℝ, 0 ≤ 1 / (2 * r * r) := fun r => div_nonneg zero_le_one (by nlinarith [mul_self_nonneg r])
  rw [quad_value q ha, quad_value q hb, quad_value q hc]
  have hz : s * x + t * y - q.mean = s * (x - q.mean) + t * (y - q.mean) := by linear_combination q.mean * hst
  rw [hz]
  refine twoSided_convex (sq _) ?_ hs ht hst
  split <;> exact sq _

theorem biv_convex (q : BivariateConstraint ℝ) (hr : q.corr * q.corr < 1) {x y x' y' s t a b c : ℝ} (hs : 0 ≤ s) (ht : 0 ≤ t) (hst : s + t = 1)
    (ha : q.evaluate x x' = some a) (hb : q.evaluate y y' = some b) (hc : q.evaluate (s * x + t * y) (s * x' + t * y') = some c) :
    c ≤ s * a + t * b := by
  have hd : 0 < 1 - q.corr * q.corr := by linarith
  have form : ∀ z z' w, q.evaluate z z' = some w → q.sigma1 ≠ 0 ∧ q.sigma2 ≠ 0 ∧
      w = (((z - q.mean1) / q.sigma1) ^ 2 / 2 - q.corr * ((z - q.mean1) / q.sigma1) * ((z' - q.mean2) / q.sigma2) + ((z' - q.mean2) / q.sigma2) ^ 2 / 2) /
        (1 - q.corr * q.corr) := by
    intro z z' w hw
    by_cases h1 : q.sigma1 = 0
    · unfold BivariateConstraint.evaluate Fl.div at hw
      simp [h1] at hw
    by_cases h2 : q.sigma2 = 0
    · unfold BivariateConstraint.evaluate Fl.div at hw
      simp [h2] at hw
    refine ⟨h1, h2, ?_⟩
    unfold BivariateConstraint.evaluate Fl.div at hw
    rw [if_neg (by simp [h1]), if_neg (by simp [h2]), if_neg (by simp [h1, h2])] at hw
    simp only [if_neg hd.ne'] at hw
    rw [← Option.some.inj hw]
    congr 1
    field_simp
  obtain ⟨n1, n2, ea⟩ := form _ _ _ ha
  obtain ⟨_, _, eb⟩ := form _ _ _ hb
  obtain ⟨_, _, ec⟩ := form _ _ _ hc
  set u := (x - q.mean1) / q.sigma1 with hu
  set u' := (x' - q.mean2) / q.sigma2 with hu'
  set w := (y - q.mean1) / q.sigma1 with hw
  set w' := (y' - q.mean2) / q.sigma2 with hw'
  have z1 : (s * x + t * y - q.mean1) / q.sigma1 = s * u + t * w := by
    rw [hu, hw]; field_simp; linear_combination q.mean1 * hst
  have z2 : (s * x' + t * y' - q.mean2) / q.sigma2 = s * u' + t * w' := by
    rw [hu', hw']; field_simp; linear_combination q.mean2 * hst
  rw [z1, z2] at ec
  have key : s * a + t * b - c = s * t * (((u - w) ^ 2 / 2 - q.corr * (u - w) * (u' - w') + (u' - w') ^ 2 / 2) / (1 - q.corr * q.corr)) := by
    rw [ea, eb, ec]
    have : s = 1 - t := by linarith
    rw [this]; field_simp; ring
  have pos : 0 ≤ (u - w) ^ 2 / 2 - q.corr * (u - w) * (u' - w') + (u' - w') ^ 2 / 2 := by
    nlinarith [sq_nonneg ((u - w) - q.corr * (u' - w')), sq_nonneg (u' - w')]
  have := mul_nonneg (mul_nonneg hs ht) (div_nonneg pos hd.le)
  linarith

theorem sumOver_convex {κ β : Type} {e₀ e₁ e : κ → β → Res (Fl ℝ)} {s t : ℝ} {m : List (κ × β)}
    (h : ∀ p ∈ m, ∀ a b c, e₀ p.1 p.2 = .ok (some a) → e₁ p.1 p.2 = .ok (some b) → e p.1 p.2 = .ok (some c) → c ≤ s * a + t * b)
    {x₀ x₁ x : Fl ℝ} (hx : ∀ a b c, x₀ = some a → x₁ = some b → x = some c → c ≤ s * a + t * b)
    {y₀ y₁ y : Fl ℝ} (h₀ : ConstraintManager.sumOver e₀ m x₀ = .ok y₀) (h₁ : ConstraintManager.sumOver e₁ m x₁ = .ok y₁)
    (h' : ConstraintManager.sumOver e m x = .ok y) : ∀ a b c, y₀ = some a → y₁ = some b → y = some c → c ≤ s * a + t * b := by
  induction m generalizing x₀ x₁ x with
  | nil =>
    have q0 := Res.ok.inj h₀
    have q1 := Res.ok.inj h₁
    have q := Res.ok.inj h'
    subst q0 q1 q
    exact hx
  | cons p m ih =>
    unfold ConstraintManager.sumOver at h₀ h₁ h'
    obtain ⟨z₀, g₀, h₀⟩ := Res.forFold_cons_eq_ok.1 h₀
    obtain ⟨z₁, g₁, h₁⟩ := Res.forFold_cons_eq_ok.1 h₁
    obtain ⟨z, g, h'⟩ := Res.forFold_cons_eq_ok.1 h'
    obtain ⟨r₀, i₀, g₀⟩ := Res.bind_eq_ok.1 g₀
    obtain ⟨r₁, i₁, g₁⟩ := Res.bind_eq_ok.1 g₁
    obtain ⟨r, i, g⟩ := Res.bind_eq_ok.1 g
    have g₀ := Res.ok.inj g₀
    have g₁ := Res.ok.inj g₁
    have g := Res.ok.inj g
    refine ih (fun q hq => h q (List.mem_cons_of_mem _ hq)) (x₀ := z₀) (x₁ := z₁) (x := z) ?_ h₀ h₁ h'
    intro a b c ha hb hc
    have split : ∀ {u v w : Fl ℝ} {k : ℝ}, Fl.add u v = w → w = some k → ∃ i j, u = some i ∧ v = some j ∧ k = i + j := by
      intro u v w k hw hk
      rw [hk] at hw
      cases u with
      | none => simp [Fl.add] at hw
      | some u =>
        cases v with
        | none => simp [Fl.add] at hw
        | some v => exact ⟨u, v, rfl, rfl, (Option.some.inj hw).symm⟩
    obtain ⟨a1, a2, e1, e2, e3⟩ := split g₀ ha
    obtain ⟨b1, b2, f1, f2, f3⟩ := split g₁ hb
    obtain ⟨c1, c2, d1, d2, d3⟩ := split g hc
    have k1 := hx _ _ _ e1 f1 d1
    have k2 := h p (by simp) a2 b2 c2 (by rw [i₀, e2]) (by rw [i₁, f2]) (by rw [i, d2])
    rw [e3, f3, d3]; linarith

/-- Individual (also asymmetric) and correlated pair constraints only, the correlations below one in size. -/
def GaussianOnly (m : ConstraintManager ℝ) : Prop :=
  m.ratio = [] ∧ m.frac = [] ∧ m.interp = [] ∧ m.shape = [] ∧ ∀ q ∈ m.pair, q.2.corr * q.2.corr < 1

theorem constraints_convex {m : ConstraintManager ℝ} (hm : GaussianOnly m) {p₀ p₁ p : ParamDict ℝ} {s t c₀ c₁ c : ℝ} (hs : 0 ≤ s) (ht : 0 ≤ t)
    (hst : s + t = 1) (hp : ∀ n x y z, SMap.find p₀ n = some x → SMap.find p₁ n = some y → SMap.find p n = some z → z = s * x + t * y)
    (h₀ : m.evaluate p₀ = .ok (some c₀)) (h₁ : m.evaluate p₁ = .ok (some c₁)) (h : m.evaluate p = .ok (some c)) : c ≤ s * c₀ + t * c₁ := by
  obtain ⟨r1, r2, r3, r4, hcorr⟩ := hm
  have dict : ∀ (q : ParamDict ℝ) n x, ConstraintManager.dictAt q n = .ok x → SMap.find q n = some x := by
    intro q n x hx
    unfold ConstraintManager.dictAt at hx
    split at hx
    · rename_i v hv; rw [hv, Res.ok.inj hx]
    · cases hx
  have strip : ∀ q r, m.evaluate q = .ok r → ∃ u, ConstraintManager.sumOver (fun n (c : QuadraticConstraint ℝ) => do
      let v ← ConstraintManager.dictAt q n
      pure (c.evaluate v)) m.ind (some 0) = .ok u ∧ ConstraintManager.sumOver (ConstraintManager.evalPair BivariateConstraint.evaluate q) m.pair u = .ok r := by
    intro q r hr
    unfold ConstraintManager.evaluate at hr
    rw [r1, r2, r3, r4] at hr
    obtain ⟨u, hu, hr⟩ := Res.bind_eq_ok.1 hr
    obtain ⟨u2, hu2, hr⟩ := Res.bind_eq_ok.1 hr
    have : u2 = r := by
      have hr : (Res.ok u2 : Res (Fl ℝ)) = .ok r := hr
      exact Res.ok.inj hr
    subst this
    exact ⟨u, hu, hu2⟩
  obtain ⟨u₀, a₀, b₀⟩ := strip _ _ h₀
  obtain ⟨u₁, a₁, b₁⟩ := strip _ _ h₁
  obtain ⟨u, a, b⟩ := strip _ _ h
  have first := sumOver_convex (s := s) (t := t) (m := m.ind) (by
    intro q hq x y z hx hy hz
    obtain ⟨v0, i0, hx⟩ := Res.bind_eq_ok.1 hx
    obtain ⟨v1, i1, hy⟩ := Res.bind_eq_ok.1 hy
    obtain ⟨v, i, hz⟩ := Res.bind_eq_ok.1 hz
    have hv := hp _ _ _ _ (dict _ _ _ i0) (dict _ _ _ i1) (dict _ _ _ i)
    subst hv
    exact quad_convex q.2 hs ht hst (Res.ok.inj hx) (Res.ok.inj hy) (Res.ok.inj hz))
    (by intro x y z hx hy hz; rw [← Option.some.inj hx, ← Option.some.inj hy, ← Option.some.inj hz]; simp) a₀ a₁ a
  exact sumOver_convex (s := s) (t := t) (m := m.pair) (by
    intro q hq x y z hx hy hz
    obtain ⟨v0, i0, hx⟩ := Res.bind_eq_ok.1 hx
    obtain ⟨w0, j0, hx⟩ := Res.bind_eq_ok.1 hx
    obtain ⟨v1, i1, hy⟩ := Res.bind_eq_ok.1 hy
    obtain ⟨w1, j1, hy⟩ := Res.bind_eq_ok.1 hy
    obtain ⟨v, i, hz⟩ := Res.bind_eq_ok.1 hz
    obtain ⟨w, j, hz⟩ := Res.bind_eq_ok.1 hz
    have hv := hp _ _ _ _ (dict _ _ _ i0) (dict _ _ _ i1) (dict _ _ _ i)
    have hw := hp _ _ _ _ (dict _ _ _ j0) (dict _ _ _ j1) (dict _ _ _ j)
    subst hv hw
    exact biv_convex q.2 (hcorr q hq) hs ht hst (Res.ok.inj hx) (Res.ok.inj hy) (Res.ok.inj hz)) first b₀ b₁ b _ _ _ rfl rfl rfl

theorem find_filter_fitted {ps : ParamDict ℝ} (hs : SMap.Sorted ps) (P : String × ℝ → Bool) {n : String} {x : ℝ} (h : SMap.find (ps.filter P) n = some x) :
    SMap.find ps n = some x ∧ P (n, x) = true := by
  have := List.mem_filter.1 (SMap.find_mem h)
  exact ⟨SMap.find_of_mem hs this.1, this.2⟩

/-- C84. The whole value, constraints included, when these are Gaussian: convex on the segment between two points. -/
theorem C84_constrained {name : Nat → String} {C : FitSys σ ℝ} {objs : Nat → σ} {log : List (BinnedED ℝ × NormStatus)}
    {cons : ConstraintManager ℝ} {d : BinnedED ℝ} {ps₀ ps₁ ps : ParamDict ℝ} {c₀ c₁ c s t : ℝ} (h : CanFit log d)
    (hg : GaussianOnly cons) (hd : ∀ b, 0 ≤ countIn d b) (h₀ : FitPoint log cons d ps₀ c₀) (h₁ : FitPoint log cons d ps₁ c₁)
    (hs : 0 ≤ s) (ht : 0 ≤ t) (hst : s + t = 1) (hne : ps ≠ []) (hsort : SMap.Sorted ps)
    (hps : ∀ n ∈ PdfLog.fitted log, ∃ x y, SMap.find ps₀ n = some x ∧ SMap.find ps₁ n = some y ∧ SMap.find ps n = some (s * x + t * y))
    (hc : cons.evaluate (ps.filter (fun p => p.1 ∈ PdfLog.fitted log)) = .ok (some c)) :
    ∃ v₀ v₁ v, fitValue name C objs log cons d ps₀ = .ok (some v₀) ∧ fitValue name C objs log cons d ps₁ = .ok (some v₁) ∧
      fitValue name C objs log cons d ps = .ok (some v) ∧ v ≤ s * v₀ + t * v₁ := by
  obtain ⟨v₀, v₁, v, e₀, e₁, e, hv⟩ := C84_convex (name := name) (C := C) (objs := objs) h hd h₀ h₁ hs ht hst hne hsort hps hc
  refine ⟨v₀, v₁, v, e₀, e₁, e, ?_⟩
  have := constraints_convex hg hs ht hst (by
    intro n x y z hx hy hz
    obtain ⟨hx, hf⟩ := find_filter_fitted h₀.sorted _ hx
    obtain ⟨hy, _⟩ := find_filter_fitted h₁.sorted _ hy
    obtain ⟨hz, _⟩ := find_filter_fitted hsort _ hz
    obtain ⟨x', y', k0, k1, k⟩ := hps n (by simpa using hf)
    rw [hx] at k0; rw [hy] at k1; rw [hz] at k
    rw [Option.some.inj k, ← Option.some.inj k0, ← Option.some.inj k1]) h₀.constraint h₁.constraint hc
  linarith

/-- C84. No false minima: if on the way from `ps₀` to `ps₁` some point is no better than `ps₀`, neither is `ps₁`. -/
theorem C84_local_is_global {name : Nat → String} {C : FitSys σ ℝ} {objs : Nat → σ} {log : List (BinnedED ℝ × NormStatus)}
    {cons : ConstraintManager ℝ} {d : BinnedED ℝ} {ps₀ ps₁ ps : ParamDict ℝ} {c₀ c₁ c s t v₀ v₁ v : ℝ} (h : CanFit log d)
    (hg : GaussianOnly cons) (hd : ∀ b, 0 ≤ countIn d b) (h₀ : FitPoint log cons d ps₀ c₀) (h₁ : FitPoint log cons d ps₁ c₁)
    (hs : 0 ≤ s) (ht : 0 < t) (hst : s + t = 1) (hne : ps ≠ []) (hsort : SMap.Sorted ps)
    (hps : ∀ n ∈ PdfLog.fitted log, ∃ x y, SMap.find ps₀ n = some x ∧ SMap.find ps₁ n = some y ∧ SMap.find ps n = some (s * x + t * y))
    (hc : cons.evaluate (ps.filter (fun p => p.1 ∈ PdfLog.fitted log)) = .ok (some c))
    (e₀ : fitValue name C objs log cons d ps₀ = .ok (some v₀)) (e₁ : fitValue name C objs log cons d ps₁ = .ok (some v₁))
    (e : fitValue name C objs log cons d ps = .ok (some v)) (hle : v₀ ≤ v) : v₀ ≤ v₁ := by
  obtain ⟨w₀, w₁, w, f₀, f₁, f, hw⟩ := C84_constrained (name := name) (C := C) (objs := objs) h hg hd h₀ h₁ hs ht.le hst hne hsort hps hc
  rw [e₀] at f₀; rw [e₁] at f₁; rw [e] at f
  have a₀ := Option.some.inj (Res.ok.inj f₀)
  have a₁ := Option.some.inj (Res.ok.inj f₁)
  have a := Option.some.inj (Res.ok.inj f)
  subst a₀ a₁ a
  have h1 : s = 1 - t := by linarith
  rw [h1] at hw
  have : 0 ≤ t * (v₁ - v₀) := by nlinarith
  have := nonneg_of_mul_nonneg_right this ht
  linarith

/-- The rate scales with the normalisations when all of them are fitted. -/
theorem rateAt_scale {log : List (BinnedED ℝ × NormStatus)} {ps₀ ps : ParamDict ℝ} {k : ℝ} (hfit : ∀ p ∈ log, p.2.fittable = true)
    (hps : ∀ n ∈ PdfLog.fitted log, (SMap.find ps n).getD 0 = k * (SMap.find ps₀ n).getD 0) (b : Nat) :
    rateAt log ps b = k * rateAt log ps₀ b := by
  unfold rateAt expectedRate
  have gen : ∀ l : List (BinnedED ℝ × NormStatus), (∀ p ∈ l, p ∈ log) →
      ((l.zip (l.map (·.1))).map (fun q => normOf (fun n => (SMap.find ps n).getD 0) q.1 * q.2.hist.contents.getD b 0)).sum =
      k * ((l.zip (l.map (·.1))).map (fun q => normOf (fun n => (SMap.find ps₀ n).getD 0) q.1 * q.2.hist.contents.getD b 0)).sum := by
    intro l hl
    induction l with
    | nil => simp
    | cons p l ih =>
      have ih := ih (fun q hq => hl q (List.mem_cons_of_mem _ hq))
      simp only [List.map_cons, List.zip_cons_cons, List.sum_cons]
      rw [ih]
      have hf := hfit p (hl p (by simp))
      have : normOf (fun n => (SMap.find ps n).getD 0) p = k * normOf (fun n => (SMap.find ps₀ n).getD 0) p := by
        unfold normOf
        simp only [hf, if_true]
        exact hps _ (List.mem_map_of_mem (List.mem_filter.2 ⟨hl p (by simp), hf⟩))
      rw [this]; ring
  exact gen log (fun p hp => hp)

/-- The number of events expected in all bins, and the number seen. -/
noncomputable def totalRate (log : List (BinnedED ℝ × NormStatus)) (d : BinnedED ℝ) (ps : ParamDict ℝ) : ℝ :=
  ((List.range d.hist.nBins).map (fun b => rateAt log ps b)).sum
noncomputable def totalCount (d : BinnedED ℝ) : ℝ := ((List.range d.hist.nBins).map (fun b => countIn d b)).sum

theorem sum_affine (l : List Nat) (f g n : Nat → ℝ) (a c : ℝ) :
    (l.map (fun b => f b + (a * g b - n b * c))).sum = (l.map f).sum + (a * (l.map g).sum - (l.map n).sum * c) := by
  induction l with
  | nil => simp
  | cons x l ih => simp only [List.map_cons, List.sum_cons, ih]; ring

theorem poissonTerm_scale {n mu k : ℝ} (hmu : 0 < mu) (hk : 0 < k) :
    poissonTerm n (k * mu) = poissonTerm n mu + ((k - 1) * mu - n * Real.log k) := by
  unfold poissonTerm
  rw [Real.log_mul hk.ne' hmu.ne']; ring

/-- C85. All normalisations fitted: multiplying them all by (events seen)/(events expected) never raises the likelihood term, and lowers it
unless the two numbers agree already. So at the best fit the expected total is the number of events in the data. -/
theorem C85_total {name : Nat → String} {C : FitSys σ ℝ} {objs : Nat → σ} {log : List (BinnedED ℝ × NormStatus)}
    {cons : ConstraintManager ℝ} {d : BinnedED ℝ} {ps₀ ps : ParamDict ℝ} {c₀ c : ℝ} (h : CanFit log d) (hfit : ∀ p ∈ log, p.2.fittable = true)
    (hbins : 0 < d.hist.nBins) (hN : 0 < totalCount d) (h₀ : FitPoint log cons d ps₀ c₀) (hne : ps ≠ []) (hsort : SMap.Sorted ps)
    (hps : ∀ n ∈ PdfLog.fitted log, ∃ x, SMap.find ps₀ n = some x ∧ SMap.find ps n = some (totalCount d / totalRate log d ps₀ * x))
    (hc : cons.evaluate (ps.filter (fun p => p.1 ∈ PdfLog.fitted log)) = .ok (some c)) :
    ∃ v₀ v, fitValue name C objs log cons d ps₀ = .ok (some v₀) ∧ fitValue name C objs log cons d ps = .ok (some v) ∧
      totalRate log d ps = totalCount d ∧ v - c ≤ v₀ - c₀ ∧ (v - c = v₀ - c₀ ↔ totalRate log d ps₀ = totalCount d) := by
  have hL : 0 < totalRate log d ps₀ := by
    unfold totalRate
    apply List.sum_pos
    · intro x hx
      obtain ⟨b, hb, rfl⟩ := List.mem_map.1 hx
      exact h₀.positive b (List.mem_range.1 hb)
    · simp; omega
  set N := totalCount d with hNdef
  set Λ := totalRate log d ps₀ with hΛ
  have hk : 0 < N / Λ := div_pos hN hL
  have hrate := rateAt_scale (log := log) (ps₀ := ps₀) (ps := ps) (k := N / Λ) hfit (by
    intro n hn
    obtain ⟨x, e0, e1⟩ := hps n hn
    rw [e0, e1]; rfl)
  have hp : FitPoint log cons d ps c := ⟨hne, hsort, fun n hn => by obtain ⟨x, _, e⟩ := hps n hn; rw [e]; rfl,
    fun b hb => by rw [hrate b]; exact mul_pos hk (h₀.positive b hb), hc⟩
  have htot : totalRate log d ps = N := by
    have : totalRate log d ps = N / Λ * Λ := by
      simp only [hΛ, totalRate, hrate, List.sum_map_mul_left]
    rw [this]; field_simp
  have hnll : nllAt log d ps = nllAt log d ps₀ + ((N / Λ - 1) * Λ - N * Real.log (N / Λ)) := by
    have := sum_affine (List.range d.hist.nBins) (fun b => poissonTerm (countIn d b) (rateAt log ps₀ b)) (rateAt log ps₀) (countIn d)
      (N / Λ - 1) (Real.log (N / Λ))
    unfold nllAt
    refine Eq.trans ?_ this
    congr 1
    apply List.map_congr_left
    intro b hb
    rw [hrate b]
    exact poissonTerm_scale (h₀.positive b (List.mem_range.1 hb)) hk
  have hmin := poissonTerm_min hN hL
  have heq : nllAt log d ps - nllAt log d ps₀ = poissonTerm N N - poissonTerm N Λ := by
    rw [hnll]; unfold poissonTerm
    rw [Real.log_div hN.ne' hL.ne']
    field_simp; ring
  refine ⟨_, _, fitValue_eq h h₀, fitValue_eq h hp, htot, by linarith [hmin.1], ?_⟩
  constructor
  · intro e
    exact hmin.2.1 (by linarith)
  · intro e
    have := hmin.2.2 e
    linarith

/-! ### A signal and a background on two bins -/

noncomputable def exTwo : List (BinnedED ℝ × NormStatus) := [(exRealPdf "s" (1/2) (1/2), .direct), (exRealPdf "b" (1/4) (3/4), .indirect)]

theorem exTwo_canFit (x y : ℝ) : CanFit exTwo (exRealPdf "d" x y) where
  distinct := by show (["s", "b"] : List String).Nodup; decide
  order := by show ([NormStatus.direct, NormStatus.indirect]).Pairwise _; decide
  obs := by
    intro p hp
    simp only [exTwo, List.mem_cons, List.not_mem_nil, or_false] at hp
    rcases hp with rfl | rfl <;> exact ⟨rfl, rfl, rfl⟩
  data := rfl

theorem exTwo_rate (b s : ℝ) : rateAt exTwo [("b", b), ("s", s)] 0 = s / 2 + b / 4 ∧ rateAt exTwo [("b", b), ("s", s)] 1 = s / 2 + 3 * b / 4 := by
  constructor <;> simp [rateAt, exTwo, expectedRate, normOf, exRealPdf, NormStatus.fittable, SMap.find, show ("b" : String) ≠ "s" by decide] <;> ring

theorem exTwo_point (x y : ℝ) {b s : ℝ} (hb : 0 < b) (hs : 0 < s) : FitPoint exTwo .empty (exRealPdf "d" x y) [("b", b), ("s", s)] 0 where
  nonempty := by simp
  sorted := by
    show List.Pairwise _ _
    simp only [List.pairwise_cons, List.mem_singleton, forall_eq, List.not_mem_nil, false_implies, implies_true, List.Pairwise.nil, and_true]
    decide +kernel
  all := by
    intro n hn
    have : n ∈ (["s", "b"] : List String) := hn
    simp only [List.mem_cons, List.not_mem_nil, or_false] at this
    rcases this with rfl | rfl <;> rfl
  positive := by
    intro k hk
    have : k < 2 := hk
    have hk' : k = 0 ∨ k = 1 := by omega
    rcases hk' with rfl | rfl
    · rw [(exTwo_rate b s).1]; positivity
    · rw [(exTwo_rate b s).2]; positivity
  constraint := rfl

-- data as expected for b = 3, s = 2: any other point is strictly worse
example (C : FitSys σ ℝ) (objs : Nat → σ) (b s : ℝ) (hb : 0 < b) (hs : 0 < s) (hne : b ≠ 3 ∨ s ≠ 2) :
    ∃ v₀ v, fitValue exSysName C objs exTwo .empty (exRealPdf "d" (7/4) (13/4)) [("b", 3), ("s", 2)] = .ok (some v₀) ∧
      fitValue exSysName C objs exTwo .empty (exRealPdf "d" (7/4) (13/4)) [("b", b), ("s", s)] = .ok (some v) ∧ v₀ < v := by
  obtain ⟨v₀, v, h1, h2, h3, h4⟩ := C83_expectation (name := exSysName) (C := C) (objs := objs) (exTwo_canFit (7/4) (13/4))
    (exTwo_point _ _ (b := 3) (s := 2) (by norm_num) (by norm_num)) (exTwo_point _ _ hb hs) (by
      intro k hk
      have : k < 2 := hk
      have hk' : k = 0 ∨ k = 1 := by omega
      rcases hk' with rfl | rfl
      · rw [(exTwo_rate 3 2).1]; simp [countIn, exRealPdf]; norm_num
      · rw [(exTwo_rate 3 2).2]; simp [countIn, exRealPdf]; norm_num)
  refine ⟨v₀, v, h1, h2, lt_of_le_of_ne (by linarith) (fun e => ?_)⟩
  have hr := h4.1 (by linarith)
  have r0 := hr 0 (by show 0 < 2; omega)
  have r1 := hr 1 (by show 1 < 2; omega)
  rw [(exTwo_rate b s).1, (exTwo_rate 3 2).1] at r0
  rw [(exTwo_rate b s).2, (exTwo_rate 3 2).2] at r1
  rcases hne with h | h
  · exact h (by linarith)
  · exact h (by linarith)

-- the middle of two points
example (C : FitSys σ ℝ) (objs : Nat → σ) : ∃ v₀ v₁ v, fitValue exSysName C objs exTwo .empty (exRealPdf "d" 4 5) [("b", 3), ("s", 2)] = .ok (some v₀) ∧
    fitValue exSysName C objs exTwo .empty (exRealPdf "d" 4 5) [("b", 1), ("s", 6)] = .ok (some v₁) ∧
    fitValue exSysName C objs exTwo .empty (exRealPdf "d" 4 5) [("b", 2), ("s", 4)] = .ok (some v) ∧ v ≤ (v₀ + v₁) / 2 := by
  obtain ⟨v₀, v₁, v, h1, h2, h3, h4⟩ := C84_convex (name := exSysName) (C := C) (objs := objs) (ps := [("b", 2), ("s", 4)]) (s := 1/2) (t := 1/2)
    (exTwo_canFit 4 5) (by
      intro k
      rcases k with _ | _ | k <;> simp [countIn, exRealPdf])
    (exTwo_point 4 5 (b := 3) (s := 2) (by norm_num) (by norm_num)) (exTwo_point 4 5 (b := 1) (s := 6) (by norm_num) (by norm_num))
    (by norm_num) (by norm_num) (by norm_num) (exTwo_point 4 5 (b := 2) (s := 4) (by norm_num) (by norm_num)).nonempty
    (exTwo_point 4 5 (b := 2) (s := 4) (by norm_num) (by norm_num)).sorted (by
      intro n hn
      have : n ∈ (["s", "b"] : List String) := hn
      simp only [List.mem_cons, List.not_mem_nil, or_false] at this
      rcases this with rfl | rfl
      · exact ⟨2, 6, rfl, rfl, by simp [SMap.find, show ("b" : String) ≠ "s" by decide]; norm_num⟩
      · exact ⟨3, 1, rfl, rfl, by simp [SMap.find]; norm_num⟩) (c := 0) rfl
  exact ⟨v₀, v₁, v, h1, h2, h3, by linarith⟩

-- 5 expected, 9 seen: scaling by 9/5 is strictly better
example (C : FitSys σ ℝ) (objs : Nat → σ) : ∃ v₀ v, fitValue exSysName C objs exTwo .empty (exRealPdf "d" 4 5) [("b", 3), ("s", 2)] = .ok (some v₀) ∧
    fitValue exSysName C objs exTwo .empty (exRealPdf "d" 4 5) [("b", 27/5), ("s", 18/5)] = .ok (some v) ∧ v < v₀ := by
  have hN : totalCount (exRealPdf "d" 4 5) = 9 := by
    show ((List.range 2).map _).sum = _
    simp [countIn, exRealPdf, List.range_succ]; norm_num
  have hL : totalRate exTwo (exRealPdf "d" 4 5) [("b", 3), ("s", 2)] = 5 := by
    show ((List.range 2).map _).sum = _
    simp only [List.range_succ, List.range_zero, List.nil_append, List.cons_append, List.map_cons, List.map_nil, List.sum_cons, List.sum_nil]
    rw [(exTwo_rate 3 2).1, (exTwo_rate 3 2).2]; norm_num
  obtain ⟨v₀, v, h1, h2, _, h3, h4⟩ := C85_total (name := exSysName) (C := C) (objs := objs) (ps := [("b", 27/5), ("s", 18/5)])
    (exTwo_canFit 4 5) (by
      intro p hp
      simp only [exTwo, List.mem_cons, List.not_mem_nil, or_false] at hp
      rcases hp with rfl | rfl <;> rfl) (by show 0 < 2; omega) (by rw [hN]; norm_num)
    (exTwo_point 4 5 (b := 3) (s := 2) (by norm_num) (by norm_num))
    (exTwo_point 4 5 (b := 27/5) (s := 18/5) (by norm_num) (by norm_num)).nonempty
    (exTwo_point 4 5 (b := 27/5) (s := 18/5) (by norm_num) (by norm_num)).sorted (by
      intro n hn
      rw [hN, hL]
      have : n ∈ (["s", "b"] : List String) := hn
      simp only [List.mem_cons, List.not_mem_nil, or_false] at this
      rcases this with rfl | rfl
      · exact ⟨2, rfl, by simp [SMap.find, show ("b" : String) ≠ "s" by decide]; norm_num⟩
      · exact ⟨3, rfl, by simp [SMap.find]; norm_num⟩) (c := 0) rfl
  refine ⟨v₀, v, h1, h2, lt_of_le_of_ne (by linarith) (fun e => ?_)⟩
  have := h4.1 (by linarith)
  rw [hN, hL] at this
  norm_num at this

/-- A constraint on `b` (asymmetric) and a correlated one on both normalisations. -/
noncomputable def exGauss : ConstraintManager ℝ :=
  { ConstraintManager.empty with
    ind := [("b", .asym 2 1 2)]
    pair := [(("b", "s"), ⟨1, 1, 2, 3, 1/2⟩)] }

theorem exGauss_ok : GaussianOnly exGauss := by
  refine ⟨rfl, rfl, rfl, rfl, ?_⟩
  intro q hq
  simp only [exGauss, List.mem_singleton] at hq
  subst hq
  norm_num

theorem exGauss_value (b s : ℝ) : ∃ c, exGauss.evaluate (([("b", b), ("s", s)] : ParamDict ℝ).filter (fun p => p.1 ∈ PdfLog.fitted exTwo)) = .ok (some c) := by
  have hf : (([("b", b), ("s", s)] : ParamDict ℝ).filter (fun p => p.1 ∈ PdfLog.fitted exTwo)) = [("b", b), ("s", s)] := by
    have : PdfLog.fitted exTwo = ["s", "b"] := rfl
    rw [this]
    simp [List.filter_cons]
  rw [hf]
  have hb : SMap.find ([("b", b), ("s", s)] : ParamDict ℝ) "b" = some b := by simp [SMap.find]
  have hs : SMap.find ([("b", b), ("s", s)] : ParamDict ℝ) "s" = some s := by simp [SMap.find, show ("b" : String) ≠ "s" by decide]
  obtain ⟨x, hx⟩ : ∃ x, (QuadraticConstraint.asym 2 1 2 : QuadraticConstraint ℝ).evaluate b = some x := by
    unfold QuadraticConstraint.evaluate QuadraticConstraint.asym Fl.div
    by_cases h : b ≥ 2 <;> simp [h]
  obtain ⟨y, hy⟩ : ∃ y, (⟨1, 1, 2, 3, 1/2⟩ : BivariateConstraint ℝ).evaluate b s = some y := by
    unfold BivariateConstraint.evaluate Fl.div
    norm_num
  refine ⟨0 + x + y, ?_⟩
  simp only [ConstraintManager.evaluate, exGauss, ConstraintManager.empty, ConstraintManager.sumOver, Res.forFold, ConstraintManager.dictAt, ConstraintManager.evalPair,
    hb, hs, hx, hy, Res.ok_bind, Fl.add, Res.pure_eq]

-- with these constraints: the middle is no worse than the mean of the ends
example (C : FitSys σ ℝ) (objs : Nat → σ) : ∃ v₀ v₁ v, fitValue exSysName C objs exTwo exGauss (exRealPdf "d" 4 5) [("b", 3), ("s", 2)] = .ok (some v₀) ∧
    fitValue exSysName C objs exTwo exGauss (exRealPdf "d" 4 5) [("b", 1), ("s", 6)] = .ok (some v₁) ∧
    fitValue exSysName C objs exTwo exGauss (exRealPdf "d" 4 5) [("b", 2), ("s", 4)] = .ok (some v) ∧ v ≤ (v₀ + v₁) / 2 := by
  obtain ⟨c₀, k₀⟩ := exGauss_value 3 2
  obtain ⟨c₁, k₁⟩ := exGauss_value 1 6
  obtain ⟨c, k⟩ := exGauss_value 2 4
  have q₀ := exTwo_point 4 5 (b := 3) (s := 2) (by norm_num) (by norm_num)
  have q₁ := exTwo_point 4 5 (b := 1) (s := 6) (by norm_num) (by norm_num)
  obtain ⟨v₀, v₁, v, h1, h2, h3, h4⟩ := C84_constrained (name := exSysName) (C := C) (objs := objs) (cons := exGauss) (ps := [("b", 2), ("s", 4)])
    (s := 1/2) (t := 1/2) (exTwo_canFit 4 5) exGauss_ok (by
      intro k
      rcases k with _ | _ | k <;> simp [countIn, exRealPdf])
    ⟨q₀.nonempty, q₀.sorted, q₀.all, q₀.positive, k₀⟩ ⟨q₁.nonempty, q₁.sorted, q₁.all, q₁.positive, k₁⟩
    (by norm_num) (by norm_num) (by norm_num) (exTwo_point 4 5 (b := 2) (s := 4) (by norm_num) (by norm_num)).nonempty
    (exTwo_point 4 5 (b := 2) (s := 4) (by norm_num) (by norm_num)).sorted (by
      intro n hn
      have : n ∈ (["s", "b"] : List String) := hn
      simp only [List.mem_cons, List.not_mem_nil, or_false] at this
      rcases this with rfl | rfl
      · exact ⟨2, 6, rfl, rfl, by simp [SMap.find, show ("b" : String) ≠ "s" by decide]; norm_num⟩
      · exact ⟨3, 1, rfl, rfl, by simp [SMap.find]; norm_num⟩) k
  exact ⟨v₀, v₁, v, h1, h2, h3, by linarith⟩

end Oxsx
