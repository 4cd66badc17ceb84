import Verif.Props.Gaussian
import Mathlib.Probability.Distributions.Gaussian.Real
import Mathlib.MeasureTheory.Integral.Pi
set_option linter.unusedSectionVars false
set_option linter.unusedSimpArgs false
set_option linter.unusedVariables false
/-
C77: values and integrals of a Gaussian.
-/
namespace Oxsx
open MeasureTheory ProbabilityTheory

section generic
variable {α : Type} [Field α] [LinearOrder α] [IsStrictOrderedRing α]

/-- Reading a list with the one default that is never needed. -/
theorem at_getD {l : List α} {i : Nat} (h : i < l.length) : at_ l i = .ok (l.getD i 0) := by
  unfold at_; rw [List.getElem?_eq_getElem h, List.getD_eq_getElem?_getD, List.getElem?_eq_getElem h]; rfl

theorem idx_getD {l : List α} {i : Nat} (h : i < l.length) : idx l i = .ok (l.getD i 0) := by
  unfold idx; rw [List.getElem?_eq_getElem h, List.getD_eq_getElem?_getD, List.getElem?_eq_getElem h]; rfl

/-- The cumulative function with the cut-off: one beyond `c` widths above the mean, nought beyond `c` widths below. -/
def clipped (phi : α → α → α) (c m s v : α) : α :=
  if (v - m) / s > c then 1 else if (v - m) / s < -c then 0 else phi (v - m) s

theorem Gaussian.cdf_eq (phi : α → α → α) {g : Gaussian α} (h : g.Ok) {i : Nat} (hi : i < g.nDims) (v : α) :
    g.cdf phi i v = .ok (clipped phi g.cutOff (g.means.getD i 0) (g.stdDevs.getD i 0) v) := by
  unfold cdf getMean getStDev clipped
  rw [at_getD (by rw [h.means]; exact hi), at_getD (by rw [h.sds]; exact hi)]
  simp only [Res.mapExc, Res.ok_bind, neg_mul, one_mul]
  split
  · rfl
  · split <;> rfl

/-- A loop multiplying. -/
theorem forFold_mul (f : Nat → α) (st : α → Nat → Res α) (n : Nat) (hst : ∀ a i, i < n → st a i = .ok (a * f i)) (a : α) :
    Res.forFold st a (List.range n) = .ok (a * ∏ i ∈ Finset.range n, f i) := by
  induction n with
  | zero => simp [Res.forFold]
  | succ n ih =>
    rw [List.range_succ, Res.forFold_append, ih (fun a i hi => hst a i (by omega))]
    simp only [Res.bind, Res.forFold]
    rw [hst _ n (by omega), Finset.prod_range_succ, mul_assoc]

/-- A loop adding. -/
theorem forFold_add (f : Nat → α) (st : α → Nat → Res α) (n : Nat) (hst : ∀ a i, i < n → st a i = .ok (a + f i)) (a : α) :
    Res.forFold st a (List.range n) = .ok (a + ∑ i ∈ Finset.range n, f i) := by
  induction n with
  | zero => simp [Res.forFold]
  | succ n ih =>
    rw [List.range_succ, Res.forFold_append, ih (fun a i hi => hst a i (by omega))]
    simp only [Res.bind, Res.forFold]
    rw [hst _ n (by omega), Finset.sum_range_succ, add_assoc]

/-- C77, box integrals: the product over the dimensions of the differences of the cut-off cumulative function; intervals of the wrong
dimension are refused. -/
theorem C77_integral (phi : α → α → α) {g : Gaussian α} (h : g.Ok) (mins maxs : List α) :
    g.integral phi mins maxs = if mins.length = g.nDims ∧ maxs.length = g.nDims then
      .ok (∏ i ∈ Finset.range g.nDims,
        (clipped phi g.cutOff (g.means.getD i 0) (g.stdDevs.getD i 0) (maxs.getD i 0) -
          clipped phi g.cutOff (g.means.getD i 0) (g.stdDevs.getD i 0) (mins.getD i 0))) else .throw .dimension := by
  unfold Gaussian.integral
  by_cases hl : mins.length = g.nDims ∧ maxs.length = g.nDims
  · rw [if_pos hl, if_neg (by tauto), hl.1, forFold_mul (fun i => clipped phi g.cutOff (g.means.getD i 0) (g.stdDevs.getD i 0) (maxs.getD i 0) -
          clipped phi g.cutOff (g.means.getD i 0) (g.stdDevs.getD i 0) (mins.getD i 0)), one_mul]
    intro a i hi
    unfold Gaussian.integralStep
    rw [idx_getD (by omega), idx_getD (by omega)]
    simp only [Res.ok_bind]
    rw [Gaussian.cdf_eq phi h hi, Gaussian.cdf_eq phi h hi]
    rfl
  · rw [if_neg hl, if_pos (by tauto)]

/-- C77, additivity: cutting a box in two along one dimension splits its integral, exactly, whatever the cumulative function. -/
theorem C77_additive (phi : α → α → α) {g : Gaussian α} (h : g.Ok) {mins maxs : List α} (h1 : mins.length = g.nDims) (h2 : maxs.length = g.nDims)
    {k : Nat} (hk : k < g.nDims) (c : α) : ∃ a b t, g.integral phi mins (maxs.set k c) = .ok a ∧ g.integral phi (mins.set k c) maxs = .ok b ∧
      g.integral phi mins maxs = .ok t ∧ a + b = t := by
  refine ⟨_, _, _, by rw [C77_integral phi h, if_pos (by simp [h1, h2])], by rw [C77_integral phi h, if_pos (by simp [h1, h2])],
    by rw [C77_integral phi h, if_pos ⟨h1, h2⟩], ?_⟩
  have hkm : k ∈ Finset.range g.nDims := Finset.mem_range.2 hk
  rw [← Finset.mul_prod_erase _ _ hkm, ← Finset.mul_prod_erase _ _ hkm, ← Finset.mul_prod_erase _ _ hkm]
  have e1 : ∀ (l : List α), l.length = g.nDims → (l.set k c).getD k 0 = c := by
    intro l hl; rw [List.getD_eq_getElem?_getD, List.getElem?_set, if_pos rfl, if_pos (by omega)]; rfl
  have e2 : ∀ (l : List α) (i : Nat), i ≠ k → (l.set k c).getD i 0 = l.getD i 0 := by
    intro l i hi; rw [List.getD_eq_getElem?_getD, List.getElem?_set, if_neg (Ne.symm hi), List.getD_eq_getElem?_getD]
  rw [e1 _ h1, e1 _ h2]
  have p1 : ∀ F : Nat → α → α → α, ∏ i ∈ (Finset.range g.nDims).erase k, F i ((maxs.set k c).getD i 0) (mins.getD i 0) =
      ∏ i ∈ (Finset.range g.nDims).erase k, F i (maxs.getD i 0) (mins.getD i 0) :=
    fun F => Finset.prod_congr rfl (fun i hi => by rw [e2 _ _ (Finset.ne_of_mem_erase hi)])
  have p2 : ∀ F : Nat → α → α → α, ∏ i ∈ (Finset.range g.nDims).erase k, F i (maxs.getD i 0) ((mins.set k c).getD i 0) =
      ∏ i ∈ (Finset.range g.nDims).erase k, F i (maxs.getD i 0) (mins.getD i 0) :=
    fun F => Finset.prod_congr rfl (fun i hi => by rw [e2 _ _ (Finset.ne_of_mem_erase hi)])
  rw [p1 (fun i x y => clipped phi g.cutOff (g.means.getD i 0) (g.stdDevs.getD i 0) x - clipped phi g.cutOff (g.means.getD i 0) (g.stdDevs.getD i 0) y),
    p2 (fun i x y => clipped phi g.cutOff (g.means.getD i 0) (g.stdDevs.getD i 0) x - clipped phi g.cutOff (g.means.getD i 0) (g.stdDevs.getD i 0) y),
    ← add_mul]
  congr 1
  ring

/-- The cut-off cumulative function of a monotone function with values in [0, 1] is monotone with values in [0, 1]. -/
theorem clipped_mono {phi : α → α → α} (hm : ∀ s x y, 0 < s → x ≤ y → phi x s ≤ phi y s) (h0 : ∀ s x, 0 < s → 0 ≤ phi x s) (h1 : ∀ s x, 0 < s → phi x s ≤ 1)
    {c m s : α} (hs : 0 < s) {x y : α} (hxy : x ≤ y) :
    clipped phi c m s x ≤ clipped phi c m s y ∧ 0 ≤ clipped phi c m s x ∧ clipped phi c m s y ≤ 1 := by
  have hd : (x - m) / s ≤ (y - m) / s := div_le_div_of_nonneg_right (by linarith) hs.le
  unfold clipped
  refine ⟨?_, ?_, ?_⟩
  · by_cases a : (x - m) / s > c
    · rw [if_pos a, if_pos (lt_of_lt_of_le a hd)]
    · rw [if_neg a]
      by_cases b : (y - m) / s > c
      · rw [if_pos b]
        split
        · exact zero_le_one
        · exact h1 _ _ hs
      · rw [if_neg b]
        by_cases a2 : (x - m) / s < -c
        · rw [if_pos a2]
          split
          · exact le_refl _
          · exact h0 _ _ hs
        · rw [if_neg a2, if_neg (by push Not at a2 ⊢; exact le_trans a2 hd)]
          exact hm _ _ _ hs (by linarith)
  · split
    · exact zero_le_one
    · split
      · exact le_refl _
      · exact h0 _ _ hs
  · split
    · exact le_refl _
    · split
      · exact zero_le_one
      · exact h1 _ _ hs

/-- C77: a box with ordered edges has an integral between nought and one, and a larger box a larger one. -/
theorem C77_range {phi : α → α → α} (hm : ∀ s x y, 0 < s → x ≤ y → phi x s ≤ phi y s) (h0 : ∀ s x, 0 < s → 0 ≤ phi x s) (h1 : ∀ s x, 0 < s → phi x s ≤ 1)
    {g : Gaussian α} (h : g.Ok) (hs : ∀ s ∈ g.stdDevs, 0 < s) {mins maxs mins' maxs' : List α}
    (l1 : mins.length = g.nDims) (l2 : maxs.length = g.nDims) (l3 : mins'.length = g.nDims) (l4 : maxs'.length = g.nDims)
    (ho : ∀ i < g.nDims, mins'.getD i 0 ≤ mins.getD i 0 ∧ mins.getD i 0 ≤ maxs.getD i 0 ∧ maxs.getD i 0 ≤ maxs'.getD i 0) :
    ∃ a b, g.integral phi mins maxs = .ok a ∧ g.integral phi mins' maxs' = .ok b ∧ 0 ≤ a ∧ a ≤ b ∧ b ≤ 1 := by
  have hsd : ∀ i < g.nDims, 0 < g.stdDevs.getD i 0 := by
    intro i hi
    have : i < g.stdDevs.length := by rw [h.sds]; exact hi
    rw [List.getD_eq_getElem?_getD, List.getElem?_eq_getElem this]
    exact hs _ (List.getElem_mem this)
  refine ⟨_, _, by rw [C77_integral phi h, if_pos ⟨l1, l2⟩], by rw [C77_integral phi h, if_pos ⟨l3, l4⟩], ?_, ?_, ?_⟩
  · apply Finset.prod_nonneg
    intro i hi
    have hi := Finset.mem_range.1 hi
    have := (clipped_mono hm h0 h1 (c := g.cutOff) (m := g.means.getD i 0) (hsd i hi) (ho i hi).2.1).1
    linarith
  · apply Finset.prod_le_prod
    · intro i hi
      have hi := Finset.mem_range.1 hi
      have := (clipped_mono hm h0 h1 (c := g.cutOff) (m := g.means.getD i 0) (hsd i hi) (ho i hi).2.1).1
      linarith
    · intro i hi
      have hi := Finset.mem_range.1 hi
      have a1 := (clipped_mono hm h0 h1 (c := g.cutOff) (m := g.means.getD i 0) (hsd i hi) (ho i hi).1).1
      have a2 := (clipped_mono hm h0 h1 (c := g.cutOff) (m := g.means.getD i 0) (hsd i hi) (ho i hi).2.2).1
      linarith
  · apply Finset.prod_le_one
    · intro i hi
      have hi := Finset.mem_range.1 hi
      have := (clipped_mono hm h0 h1 (c := g.cutOff) (m := g.means.getD i 0) (hsd i hi) (le_trans (ho i hi).1 (le_trans (ho i hi).2.1 (ho i hi).2.2))).1
      linarith
    · intro i hi
      have hi := Finset.mem_range.1 hi
      have a := clipped_mono hm h0 h1 (c := g.cutOff) (m := g.means.getD i 0) (hsd i hi) (le_trans (ho i hi).1 (le_trans (ho i hi).2.1 (ho i hi).2.2))
      linarith [a.2.1, a.2.2]

end generic

/-- The square of a width, as the variance of Mathlib's normal density. -/
noncomputable def variance (s : ℝ) : NNReal := ⟨s ^ 2, sq_nonneg s⟩

/-- `gsl_cdf_gaussian_P(x, s)`: the mass below `x` of the normal density of mean 0 and width `s`. -/
noncomputable def normalCdf (x s : ℝ) : ℝ := ∫ t in Set.Iic x, gaussianPDFReal 0 (variance s) t

theorem variance_ne {s : ℝ} (hs : 0 < s) : variance s ≠ 0 := by
  intro h
  have : s ^ 2 = 0 := congrArg Subtype.val h
  have := pow_pos hs 2
  linarith

/-- One factor. -/
theorem normal_factor {m s x : ℝ} (hs : 0 < s) : Real.exp (-(1 / 2) * ((x - m) / s * ((x - m) / s))) / (√(2 * Real.pi) * s) =
    gaussianPDFReal m (variance s) x := by
  unfold gaussianPDFReal
  have hv : ((variance s : NNReal) : ℝ) = s ^ 2 := rfl
  rw [hv, Real.sqrt_mul (x := 2 * Real.pi) (by positivity) (s ^ 2), Real.sqrt_sq hs.le, div_eq_inv_mul]
  congr 2
  field_simp

/-- C77, values: in the right dimension the product of one-dimensional normal densities (in particular positive), otherwise refused. -/
theorem C77_value {g : Gaussian ℝ} (h : g.Ok) (hs : ∀ s ∈ g.stdDevs, 0 < s) (xs : List ℝ) :
    g.eval Real.exp √(2 * Real.pi) xs = if xs.length = g.nDims then
      .ok (∏ i ∈ Finset.range g.nDims, gaussianPDFReal (g.means.getD i 0) (variance (g.stdDevs.getD i 0)) (xs.getD i 0)) else .throw .dimension := by
  unfold Gaussian.eval
  by_cases hl : xs.length = g.nDims
  · rw [if_neg (by simpa using hl), if_pos hl]
    rw [forFold_add (fun i => (xs.getD i 0 - g.means.getD i 0) / g.stdDevs.getD i 0 * ((xs.getD i 0 - g.means.getD i 0) / g.stdDevs.getD i 0))]
    · simp only [Res.ok_bind, zero_add]
      rw [forFold_mul (fun i => √(2 * Real.pi) * g.stdDevs.getD i 0)]
      · simp only [Res.ok_bind, one_mul]
        congr 1
        rw [Finset.mul_sum, Real.exp_sum, ← Finset.prod_div_distrib]
        apply Finset.prod_congr rfl
        intro i hi
        have hi := Finset.mem_range.1 hi
        apply normal_factor
        have : i < g.stdDevs.length := by rw [h.sds]; exact hi
        rw [List.getD_eq_getElem?_getD, List.getElem?_eq_getElem this]
        exact hs _ (List.getElem_mem this)
      · intro a i hi
        rw [at_getD (by rw [h.sds]; exact hi)]; rfl
    · intro a i hi
      unfold Gaussian.evalStep
      rw [at_getD (by rw [h.means]; exact hi), at_getD (by rw [h.sds]; exact hi), at_getD (by omega)]; rfl
  · rw [if_pos hl, if_neg hl]

/-- Shifting the cumulative function to a mean. -/
theorem normalCdf_shift (m s x : ℝ) : normalCdf (x - m) s = ∫ t in Set.Iic x, gaussianPDFReal m (variance s) t := by
  unfold normalCdf
  have h := (MeasureTheory.measurePreserving_sub_right volume m).setIntegral_preimage_emb
    (Homeomorph.subRight m).measurableEmbedding (gaussianPDFReal 0 (variance s)) (Set.Iic (x - m))
  rw [← h]
  congr 1
  · congr 1
    ext t; simp
  · funext t
    have := gaussianPDFReal_sub (μ := 0) (v := variance s) t m
    simpa using this

theorem normalCdf_diff {m s a b : ℝ} (hab : a ≤ b) : normalCdf (b - m) s - normalCdf (a - m) s = ∫ t in Set.Ioc a b, gaussianPDFReal m (variance s) t := by
  rw [normalCdf_shift, normalCdf_shift, ← intervalIntegral.integral_of_le hab]
  exact intervalIntegral.integral_Iic_sub_Iic (integrable_gaussianPDFReal _ _).integrableOn (integrable_gaussianPDFReal _ _).integrableOn

/-- C77, integrals: as long as no edge lies beyond the cut-off, the integral returned for a box is the Lebesgue integral over it of the
values returned. -/
theorem C77_integral_of_values {g : Gaussian ℝ} (h : g.Ok) (hs : ∀ s ∈ g.stdDevs, 0 < s) {mins maxs : List ℝ}
    (l1 : mins.length = g.nDims) (l2 : maxs.length = g.nDims) (ho : ∀ i < g.nDims, mins.getD i 0 ≤ maxs.getD i 0)
    (hc : ∀ i < g.nDims, ∀ x, x = mins.getD i 0 ∨ x = maxs.getD i 0 → |(x - g.means.getD i 0) / g.stdDevs.getD i 0| ≤ g.cutOff) :
    ∃ f : (Fin g.nDims → ℝ) → ℝ, (∀ x, g.eval Real.exp √(2 * Real.pi) (List.ofFn x) = .ok (f x)) ∧
      g.integral normalCdf mins maxs = .ok (∫ x in Set.univ.pi (fun i : Fin g.nDims => Set.Ioc (mins.getD i 0) (maxs.getD i 0)), f x) := by
  refine ⟨fun x => ∏ i : Fin g.nDims, gaussianPDFReal (g.means.getD i 0) (variance (g.stdDevs.getD i 0)) (x i), ?_, ?_⟩
  · intro x
    rw [C77_value h hs, if_pos (by simp), ← Fin.prod_univ_eq_prod_range (fun i => gaussianPDFReal (g.means.getD i 0) (variance (g.stdDevs.getD i 0)) ((List.ofFn x).getD i 0))]
    congr 1
    apply Finset.prod_congr rfl
    intro i _
    congr 1
    rw [List.getD_eq_getElem?_getD, List.getElem?_eq_getElem (by simp)]
    simp
  · rw [C77_integral normalCdf h, if_pos ⟨l1, l2⟩]
    congr 1
    rw [volume_pi, Measure.restrict_pi_pi, integral_fintype_prod_eq_prod (fun (i : Fin g.nDims) => gaussianPDFReal (g.means.getD i 0) (variance (g.stdDevs.getD i 0)))]
    rw [← Fin.prod_univ_eq_prod_range (fun i => clipped normalCdf g.cutOff (g.means.getD i 0) (g.stdDevs.getD i 0) (maxs.getD i 0) -
          clipped normalCdf g.cutOff (g.means.getD i 0) (g.stdDevs.getD i 0) (mins.getD i 0))]
    apply Finset.prod_congr rfl
    intro i _
    have e : ∀ x, |(x - g.means.getD i 0) / g.stdDevs.getD i 0| ≤ g.cutOff →
        clipped normalCdf g.cutOff (g.means.getD i 0) (g.stdDevs.getD i 0) x = normalCdf (x - g.means.getD i 0) (g.stdDevs.getD i 0) := by
      intro x hx
      obtain ⟨p, q⟩ := abs_le.1 hx
      unfold clipped
      rw [if_neg (not_lt.2 q), if_neg (not_lt.2 p)]
    rw [e _ (hc i i.2 _ (Or.inr rfl)), e _ (hc i i.2 _ (Or.inl rfl))]
    exact normalCdf_diff (ho i i.2)

/-- C77: the values integrate to one over all space, which is what `Integral()` returns. -/
theorem C77_total {g : Gaussian ℝ} (h : g.Ok) (hs : ∀ s ∈ g.stdDevs, 0 < s) :
    ∃ f : (Fin g.nDims → ℝ) → ℝ, (∀ x, g.eval Real.exp √(2 * Real.pi) (List.ofFn x) = .ok (f x)) ∧ ∫ x, f x = 1 := by
  refine ⟨fun x => ∏ i : Fin g.nDims, gaussianPDFReal (g.means.getD i 0) (variance (g.stdDevs.getD i 0)) (x i), ?_, ?_⟩
  · intro x
    rw [C77_value h hs, if_pos (by simp), ← Fin.prod_univ_eq_prod_range (fun i => gaussianPDFReal (g.means.getD i 0) (variance (g.stdDevs.getD i 0)) ((List.ofFn x).getD i 0))]
    congr 1
    apply Finset.prod_congr rfl
    intro i _
    congr 1
    rw [List.getD_eq_getElem?_getD, List.getElem?_eq_getElem (by simp)]
    simp
  · rw [volume_pi, integral_fintype_prod_eq_prod (fun (i : Fin g.nDims) => gaussianPDFReal (g.means.getD i 0) (variance (g.stdDevs.getD i 0)))]
    apply Finset.prod_eq_one
    intro i _
    apply integral_gaussianPDFReal_eq_one
    apply variance_ne
    have : (i : Nat) < g.stdDevs.length := by rw [h.sds]; exact i.2
    rw [List.getD_eq_getElem?_getD, List.getElem?_eq_getElem this]
    exact hs _ (List.getElem_mem this)

/-- The cumulative function of the normal density is what `C77_range` asks for. -/
theorem normalCdf_spec : (∀ s x y, 0 < s → x ≤ y → normalCdf x s ≤ normalCdf y s) ∧ (∀ s x, 0 < s → 0 ≤ normalCdf x s) ∧ (∀ s x, 0 < s → normalCdf x s ≤ 1) := by
  refine ⟨?_, ?_, ?_⟩
  · intro s x y _ hxy
    unfold normalCdf
    apply setIntegral_mono_set (integrable_gaussianPDFReal _ _).integrableOn
    · exact Filter.Eventually.of_forall (fun t => gaussianPDFReal_nonneg _ _ _)
    · exact (Set.Iic_subset_Iic.2 hxy).eventuallyLE
  · intro s x _
    exact integral_nonneg (fun t => gaussianPDFReal_nonneg _ _ _)
  · intro s x hs
    unfold normalCdf
    rw [← integral_gaussianPDFReal_eq_one 0 (variance_ne hs)]
    exact setIntegral_le_integral (integrable_gaussianPDFReal _ _) (Filter.Eventually.of_forall (fun t => gaussianPDFReal_nonneg _ _ _))

/-- C77, the cut-off: beyond it the value returned differs from the true one by no more than the mass of a tail beyond the cut-off. -/
theorem C77_cutoff {g : Gaussian ℝ} (h : g.Ok) (hs : ∀ s ∈ g.stdDevs, 0 < s) {i : Nat} (hi : i < g.nDims) (v : ℝ) :
    ∃ y, g.cdf normalCdf i v = .ok y ∧
      |y - normalCdf (v - g.means.getD i 0) (g.stdDevs.getD i 0)| ≤
        max (1 - normalCdf (g.cutOff * g.stdDevs.getD i 0) (g.stdDevs.getD i 0)) (normalCdf (-g.cutOff * g.stdDevs.getD i 0) (g.stdDevs.getD i 0)) := by
  obtain ⟨m1, m2, m3⟩ := normalCdf_spec
  have hpos : 0 < g.stdDevs.getD i 0 := by
    have : i < g.stdDevs.length := by rw [h.sds]; exact hi
    rw [List.getD_eq_getElem?_getD, List.getElem?_eq_getElem this]
    exact hs _ (List.getElem_mem this)
  refine ⟨_, Gaussian.cdf_eq normalCdf h hi v, ?_⟩
  unfold clipped
  by_cases a : (v - g.means.getD i 0) / g.stdDevs.getD i 0 > g.cutOff
  · rw [if_pos a]
    have hx : g.cutOff * g.stdDevs.getD i 0 ≤ v - g.means.getD i 0 := ((lt_div_iff₀ hpos).1 a).le
    have := m1 _ _ _ hpos hx
    have := m3 (g.stdDevs.getD i 0) (v - g.means.getD i 0) hpos
    rw [abs_of_nonneg (by linarith)]
    exact le_max_of_le_left (by linarith)
  · rw [if_neg a]
    by_cases b : (v - g.means.getD i 0) / g.stdDevs.getD i 0 < -g.cutOff
    · rw [if_pos b]
      have hx : v - g.means.getD i 0 ≤ -g.cutOff * g.stdDevs.getD i 0 := ((div_lt_iff₀ hpos).1 b).le
      have h1 := m1 _ _ _ hpos hx
      have h2 := m2 (g.stdDevs.getD i 0) (v - g.means.getD i 0) hpos
      rw [zero_sub, abs_neg, abs_of_nonneg h2]
      exact le_max_of_le_right h1
    · rw [if_neg b, sub_self, abs_zero]
      exact le_max_of_le_right (m2 _ _ hpos)

/-- A two-dimensional Gaussian over the reals for the examples. -/
noncomputable def gauss2r : Gaussian ℝ := ⟨[1, 2], [3, 4], 6, 2, "g", ["means_0", "means_1"], ["stddevs_0", "stddevs_1"]⟩

theorem gauss2r_ok : gauss2r.Ok ∧ ∀ s ∈ gauss2r.stdDevs, 0 < s := ⟨⟨rfl, rfl, rfl, rfl⟩, by simp [gauss2r]⟩

example : ∃ f : (Fin 2 → ℝ) → ℝ, (∀ x, gauss2r.eval Real.exp √(2 * Real.pi) (List.ofFn x) = .ok (f x)) ∧
    gauss2r.integral normalCdf [0, 0] [1, 1] = .ok (∫ x in Set.univ.pi (fun i : Fin 2 => Set.Ioc ([(0 : ℝ), 0].getD i 0) ([(1 : ℝ), 1].getD i 0)), f x) := by
  apply C77_integral_of_values gauss2r_ok.1 gauss2r_ok.2 rfl rfl
  · intro i hi
    have : i = 0 ∨ i = 1 := by simp only [gauss2r] at hi; omega
    rcases this with rfl | rfl <;> simp
  · intro i hi x hx
    have : i = 0 ∨ i = 1 := by simp only [gauss2r] at hi; omega
    rcases this with rfl | rfl <;> simp [gauss2r] at hx ⊢ <;> rcases hx with rfl | rfl <;> rw [abs_le] <;> constructor <;> norm_num

example : ∃ a b t, gauss2r.integral normalCdf [0, 0] [1, 1] = .ok a ∧ gauss2r.integral normalCdf [0, 1] [1, 5] = .ok b ∧
    gauss2r.integral normalCdf [0, 0] [1, 5] = .ok t ∧ a + b = t :=
  C77_additive normalCdf gauss2r_ok.1 (mins := [0, 0]) (maxs := [1, 5]) rfl rfl (k := 1) (by decide) 1

example : ∃ a b, gauss2r.integral normalCdf [0, 0] [1, 1] = .ok a ∧ gauss2r.integral normalCdf [-1, 0] [1, 100] = .ok b ∧ 0 ≤ a ∧ a ≤ b ∧ b ≤ 1 := by
  obtain ⟨m1, m2, m3⟩ := normalCdf_spec
  apply C77_range m1 m2 m3 gauss2r_ok.1 gauss2r_ok.2 rfl rfl rfl rfl
  intro i hi
  have : i = 0 ∨ i = 1 := by simp only [gauss2r] at hi; omega
  rcases this with rfl | rfl <;> simp

/-- C77, the ways to say which Gaussian is meant: the unit Gaussian has the product of standard normal densities as its value and a cut-off of 6; replacing all the
means or widths by as many new ones gives exactly these, leaving the rest, and as many parameters as before; the cut-off changes nothing but itself. -/
theorem C77_setters {g : Gaussian ℝ} (h : g.Ok) (n : Nat) (name : String) :
    (∃ u : Gaussian ℝ, Gaussian.makeUnit n name = .ok u ∧ u.Ok ∧ u.cutOff = 6 ∧ u.name = (if name = "" then "gaussian" else name) ∧
      u.getParameterCount = 2 * n ∧ (∀ i, i < n → u.getMean i = .ok 0 ∧ u.getStDev i = .ok 1) ∧
      ∀ xs, u.eval Real.exp √(2 * Real.pi) xs = if xs.length = n then .ok (∏ i ∈ Finset.range n, gaussianPDFReal 0 1 (xs.getD i 0)) else .throw .dimension) ∧
    (∀ l : List ℝ, l.length = g.nDims → (g.setMeans l).Ok ∧ (g.setStDevs l).Ok ∧ ∀ (i : Nat) x, l[i]? = some x →
      (g.setMeans l).getMean i = .ok x ∧ (g.setMeans l).getStDev i = g.getStDev i ∧ (g.setStDevs l).getStDev i = .ok x ∧ (g.setStDevs l).getMean i = g.getMean i) ∧
    (∀ c, (g.setCdfCutOff c).Ok ∧ (g.setCdfCutOff c).cutOff = c ∧ (∀ i, (g.setCdfCutOff c).getMean i = g.getMean i ∧ (g.setCdfCutOff c).getStDev i = g.getStDev i) ∧
      ∀ xs, (g.setCdfCutOff c).eval Real.exp √(2 * Real.pi) xs = g.eval Real.exp √(2 * Real.pi) xs) ∧
    g.getParameterCount = 2 * g.nDims := by
  refine ⟨?_, ?_, ?_, ?_⟩
  · obtain ⟨u, hu⟩ := (C61_make (means := List.replicate n (0 : ℝ)) (sds := List.replicate n (1 : ℝ)) (name := name)).1.2 ⟨by simp, by simp⟩
    obtain ⟨h1, h2, h3, h4⟩ := C61_make.2 u hu
    have hform : u.cutOff = 6 ∧ u.name = (if name = "" then "gaussian" else name) := by
      unfold Gaussian.make at hu
      obtain ⟨_, _, hu⟩ := Res.bind_eq_ok.1 hu
      rw [← Res.ok.inj hu]; exact ⟨rfl, rfl⟩
    have hd : u.nDims = n := by rw [h4]; simp
    refine ⟨u, hu, h1, hform.1, hform.2, ?_, ?_, ?_⟩
    · unfold Gaussian.getParameterCount; rw [h1.meanNames, h1.sdNames, hd]; omega
    · intro i hi
      constructor
      · unfold Gaussian.getMean; rw [h2, at_of_lt (by simpa using hi)]; simp [Res.mapExc]
      · unfold Gaussian.getStDev; rw [h3, at_of_lt (by simpa using hi)]; simp [Res.mapExc]
    · intro xs
      rw [C77_value h1 (by rw [h3]; simp), hd]
      split
      · congr 1
        apply Finset.prod_congr rfl
        intro i hi
        have hi := Finset.mem_range.1 hi
        have e1 : u.means.getD i 0 = 0 := by rw [h2]; simp [List.getD_eq_getElem?_getD, List.getElem?_replicate, hi]
        have e2 : u.stdDevs.getD i 0 = 1 := by rw [h3]; simp [List.getD_eq_getElem?_getD, List.getElem?_replicate, hi]
        have e3 : variance 1 = 1 := by apply NNReal.eq; show (1 : ℝ) ^ 2 = 1; norm_num
        rw [e1, e2, e3]
      · rfl
  · intro l hl
    refine ⟨⟨hl, h.sds, h.meanNames, h.sdNames⟩, ⟨h.means, hl, h.meanNames, h.sdNames⟩, fun i x hx => ⟨?_, rfl, ?_, rfl⟩⟩
    · unfold Gaussian.getMean Gaussian.setMeans; simp only; rw [at_ok.2 hx]; rfl
    · unfold Gaussian.getStDev Gaussian.setStDevs; simp only; rw [at_ok.2 hx]; rfl
  · intro c
    exact ⟨⟨h.means, h.sds, h.meanNames, h.sdNames⟩, rfl, fun i => ⟨rfl, rfl⟩, fun xs => rfl⟩
  · unfold Gaussian.getParameterCount; rw [h.meanNames, h.sdNames]; omega

/-- C77 fails for a replacement of another length: it is accepted, and evaluation then looks for a mean that is not there. -/
theorem C77_setMeans_wrong {g : Gaussian ℝ} (hn : 0 < g.nDims) (xs : List ℝ) (hx : xs.length = g.nDims) :
    (g.setMeans []).eval Real.exp √(2 * Real.pi) xs = .throw .outOfRange := by
  unfold Gaussian.eval
  rw [if_neg (by simpa [Gaussian.setMeans] using hx)]
  obtain ⟨k, hk⟩ : ∃ k, g.nDims = k + 1 := ⟨g.nDims - 1, by omega⟩
  show (Res.forFold _ 0 (List.range g.nDims) >>= _) = _
  rw [hk, List.range_succ_eq_map]
  rfl

example : (⟨[1], [2], 6, 1, "g", ["m"], ["s"]⟩ : Gaussian ℝ).Ok := ⟨rfl, rfl, rfl, rfl⟩

end Oxsx
