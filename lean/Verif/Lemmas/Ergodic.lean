import Mathlib.MeasureTheory.Integral.Prod
import Mathlib.MeasureTheory.Constructions.Pi
import Mathlib.MeasureTheory.Integral.Bochner.Basic
import Mathlib.Analysis.SpecificLimits.Basic
set_option linter.unusedSectionVars false
set_option linter.unusedSimpArgs false
set_option linter.unusedVariables false
/-
A chain of random maps that from every point of a set reaches every part of it with at least a fixed share of a fixed distribution: it forgets its
starting point at a geometric rate, and averages along it converge. Nothing here depends on the code.
-/
namespace Oxsx.Ergodic
open MeasureTheory
open scoped ENNReal

variable {X W : Type} [MeasurableSpace X] [MeasurableSpace W]

/-- A step `T` with random numbers of law `Q`, a set `B` it stays in, a distribution `π` on `B` it leaves as it is, and the least share `ε` of
a distribution that one step has from everywhere in `B`. -/
structure Chain (T : X → W → X) (Q : Measure W) (B : Set X) (π : Measure X) (ε : ℝ) : Prop where
  meas : Measurable (Function.uncurry T)
  box : MeasurableSet B
  stays : ∀ x ∈ B, ∀ w, T x w ∈ B
  pos : 0 < ε
  le : ε ≤ 1
  minor : ∃ ρ : Measure X, IsProbabilityMeasure ρ ∧ ρ Bᶜ = 0 ∧ ∀ x ∈ B, ∀ A, MeasurableSet A → ENNReal.ofReal ε * ρ A ≤ Q {w | T x w ∈ A}
  supp : π Bᶜ = 0
  stat : ∀ f : X → ℝ≥0∞, Measurable f → ∫⁻ x, ∫⁻ w, f (T x w) ∂Q ∂π = ∫⁻ x, f x ∂π

/-- The mean of `f` after one step. -/
noncomputable def mean (T : X → W → X) (Q : Measure W) (f : X → ℝ) (x : X) : ℝ := ∫ w, f (T x w) ∂Q

theorem integrable_of_bound {Ω : Type} [MeasurableSpace Ω] {μ : Measure Ω} [IsFiniteMeasure μ] {f : Ω → ℝ} {K : ℝ} (hf : Measurable f) (hK : ∀ x, |f x| ≤ K) :
    Integrable f μ :=
  Integrable.of_bound hf.aestronglyMeasurable K (Filter.Eventually.of_forall fun x => by rw [Real.norm_eq_abs]; exact hK x)

namespace Chain
variable {T : X → W → X} {Q : Measure W} [IsProbabilityMeasure Q] {B : Set X} {π : Measure X} [IsProbabilityMeasure π] {ε : ℝ}

theorem meas1 (h : Chain T Q B π ε) (x : X) : Measurable (T x) := h.meas.comp measurable_prodMk_left

theorem mean_meas (h : Chain T Q B π ε) {f : X → ℝ} (hf : Measurable f) : Measurable (mean T Q f) :=
  (StronglyMeasurable.integral_prod_right' (ν := Q) (hf.comp h.meas).stronglyMeasurable).measurable

theorem mean_bound (h : Chain T Q B π ε) {f : X → ℝ} (hf : Measurable f) {K : ℝ} (hK : ∀ x, |f x| ≤ K) (x : X) : |mean T Q f x| ≤ K := by
  unfold mean
  have := norm_integral_le_of_norm_le_const (μ := Q) (f := fun w => f (T x w)) (C := K) (Filter.Eventually.of_forall fun w => by
    rw [Real.norm_eq_abs]; exact hK _)
  simpa using this

theorem mean_stat (h : Chain T Q B π ε) {f : X → ℝ} (hf : Measurable f) {K : ℝ} (hK : ∀ x, |f x| ≤ K) :
    ∫ x, mean T Q f x ∂π = ∫ x, f x ∂π := by
  have hmap : (π.prod Q).map (Function.uncurry T) = π := by
    refine Measure.ext_of_lintegral _ fun g hg => ?_
    have hgm : Measurable fun p : X × W => g (Function.uncurry T p) := hg.comp h.meas
    rw [lintegral_map hg h.meas, lintegral_prod _ hgm.aemeasurable]
    exact h.stat g hg
  unfold mean
  have hi : Integrable (fun p : X × W => f (Function.uncurry T p)) (π.prod Q) := integrable_of_bound (hf.comp h.meas) fun p => hK _
  have := integral_prod _ hi
  simp only [Function.uncurry_apply_pair] at this
  rw [← this]
  conv_rhs => rw [← hmap]
  rw [integral_map h.meas.aemeasurable hf.aestronglyMeasurable]

/-- One step narrows the range of the values a function takes on the set. -/
theorem contract (h : Chain T Q B π ε) {f : X → ℝ} (hf : Measurable f) {K : ℝ} (hK : ∀ x, |f x| ≤ K) {a b : ℝ} (hab : ∀ x ∈ B, a ≤ f x ∧ f x ≤ b) :
    ∃ a' b', b' - a' = (1 - ε) * (b - a) ∧ ∀ x ∈ B, a' ≤ mean T Q f x ∧ mean T Q f x ≤ b' := by
  obtain ⟨ρ, hρ, hρB, hmin⟩ := h.minor
  set r := ∫ x, f x ∂ρ with hr
  have hfρ : Integrable f ρ := integrable_of_bound hf hK
  have key : ∀ x ∈ B, ∀ g : X → ℝ, Measurable g → (∃ K, ∀ x, |g x| ≤ K) → (∀ x ∈ B, 0 ≤ g x) → ε * ∫ y, g y ∂ρ ≤ ∫ w, g (T x w) ∂Q := by
    intro x hx g hg ⟨K', hK'⟩ h0
    have hle : (ENNReal.ofReal ε) • ρ ≤ Q.map (T x) := by
      refine Measure.le_iff.2 fun A hA => ?_
      rw [Measure.smul_apply, smul_eq_mul, Measure.map_apply (h.meas1 x) hA]
      exact hmin x hx A hA
    have : IsProbabilityMeasure (Q.map (T x)) := Measure.isProbabilityMeasure_map (h.meas1 x).aemeasurable
    have hnn : 0 ≤ᵐ[Q.map (T x)] g := by
      refine (ae_map_iff (h.meas1 x).aemeasurable (measurableSet_le measurable_const hg)).2 (Filter.Eventually.of_forall fun w => h0 _ (h.stays x hx w))
    have e := integral_mono_measure hle hnn (integrable_of_bound hg hK')
    rw [integral_smul_measure, ENNReal.toReal_ofReal h.pos.le, smul_eq_mul, integral_map (h.meas1 x).aemeasurable hg.aestronglyMeasurable] at e
    exact e
  refine ⟨(1 - ε) * a + ε * r, (1 - ε) * b + ε * r, by ring, fun x hx => ?_⟩
  have hfi : Integrable (fun w => f (T x w)) Q := integrable_of_bound (hf.comp (h.meas1 x)) fun w => hK _
  constructor
  · have := key x hx (fun y => f y - a) (hf.sub_const a) ⟨K + |a|, fun y => (abs_sub _ _).trans (add_le_add (hK y) le_rfl)⟩ (fun y hy => sub_nonneg.2 (hab y hy).1)
    rw [integral_sub hfρ (integrable_const _), integral_sub hfi (integrable_const _)] at this
    simp only [integral_const, probReal_univ, one_smul] at this
    unfold mean; nlinarith
  · have := key x hx (fun y => b - f y) (hf.const_sub b) ⟨|b| + K, fun y => (abs_sub _ _).trans (add_le_add le_rfl (hK y))⟩ (fun y hy => sub_nonneg.2 (hab y hy).2)
    rw [integral_sub (integrable_const _) hfρ, integral_sub (integrable_const _) hfi] at this
    simp only [integral_const, probReal_univ, one_smul] at this
    unfold mean; nlinarith

theorem iterate_facts (h : Chain T Q B π ε) {f : X → ℝ} (hf : Measurable f) {K : ℝ} (hK : ∀ x, |f x| ≤ K) {a b : ℝ} (hab : ∀ x ∈ B, a ≤ f x ∧ f x ≤ b) (N : Nat) :
    Measurable ((mean T Q)^[N] f) ∧ (∀ x, |(mean T Q)^[N] f x| ≤ K) ∧ ∫ x, (mean T Q)^[N] f x ∂π = ∫ x, f x ∂π ∧
      ∃ a' b', b' - a' = (1 - ε) ^ N * (b - a) ∧ ∀ x ∈ B, a' ≤ (mean T Q)^[N] f x ∧ (mean T Q)^[N] f x ≤ b' := by
  induction N with
  | zero => exact ⟨hf, hK, rfl, a, b, by simp, hab⟩
  | succ N ih =>
    obtain ⟨h1, h2, h3, a', b', h4, h5⟩ := ih
    obtain ⟨a'', b'', h6, h7⟩ := h.contract h1 h2 h5
    rw [Function.iterate_succ_apply']
    exact ⟨h.mean_meas h1, h.mean_bound h1 h2, (h.mean_stat h1 h2).trans h3, a'', b'', by rw [h6, h4]; ring, h7⟩

/-- After `N` steps, from anywhere in the set, the mean of `f` differs from its mean under the stationary distribution by at most
`(1 - ε) ^ N` times the range of `f`. -/
theorem converge (h : Chain T Q B π ε) {f : X → ℝ} (hf : Measurable f) {K : ℝ} (hK : ∀ x, |f x| ≤ K) {a b : ℝ} (hab : ∀ x ∈ B, a ≤ f x ∧ f x ≤ b) (N : Nat) {x : X} (hx : x ∈ B) :
    |(mean T Q)^[N] f x - ∫ y, f y ∂π| ≤ (1 - ε) ^ N * (b - a) := by
  obtain ⟨h1, h2, h3, a', b', h4, h5⟩ := h.iterate_facts hf hK hab N
  have hB : ∀ᵐ y ∂π, y ∈ B := by rw [ae_iff]; exact h.supp
  have hi : Integrable ((mean T Q)^[N] f) π := integrable_of_bound h1 h2
  have e1 : a' ≤ ∫ y, f y ∂π := by
    rw [← h3]
    have := integral_mono_ae (integrable_const a') hi (by filter_upwards [hB] with y hy using (h5 y hy).1)
    simpa using this
  have e2 : ∫ y, f y ∂π ≤ b' := by
    rw [← h3]
    have := integral_mono_ae hi (integrable_const b') (by filter_upwards [hB] with y hy using (h5 y hy).2)
    simpa using this
  have := h5 x hx
  rw [abs_le]; constructor <;> linarith

/-! ### Averages along the chain -/

end Chain

/-- The points the chain visits. -/
def points (T : X → W → X) : X → List W → List X
  | _, [] => []
  | x, w :: ws => T x w :: points T (T x w) ws

/-- The sum of a function over the points visited, weighted by their number in the run. -/
def wsum (T : X → W → X) (g : X → ℝ) : (N : Nat) → (Nat → ℝ) → X → (Fin N → W) → ℝ
  | 0, _, _, _ => 0
  | N + 1, c, x, ω => c 0 * g (T x (ω 0)) + wsum T g N (fun i => c (i + 1)) (T x (ω 0)) (Fin.tail ω)

theorem wsum_eq (T : X → W → X) (g : X → ℝ) (N : Nat) (c : Nat → ℝ) (x : X) (ω : Fin N → W) (k : Nat) :
    wsum T g N (fun i => c (i + k)) x ω = (((points T x (List.ofFn ω)).zipIdx k).map fun p => c p.2 * g p.1).sum := by
  induction N generalizing x k with
  | zero => simp [wsum, points]
  | succ N ih =>
    rw [List.ofFn_succ]
    simp only [wsum, points, List.zipIdx_cons, List.map_cons, List.sum_cons, zero_add]
    congr 1
    have := ih (T x (ω 0)) (Fin.tail ω) (k + 1)
    have e : (fun i => c (i + 1 + k)) = fun i => c (i + (k + 1)) := by funext i; congr 1; omega
    rw [e, this]; rfl

namespace Chain
variable {T : X → W → X} {Q : Measure W} [IsProbabilityMeasure Q] {B : Set X} {π : Measure X} [IsProbabilityMeasure π] {ε : ℝ}

theorem wsum_meas (h : Chain T Q B π ε) {g : X → ℝ} (hg : Measurable g) (N : Nat) (c : Nat → ℝ) :
    Measurable fun p : X × (Fin N → W) => wsum T g N c p.1 p.2 := by
  induction N generalizing c with
  | zero => exact measurable_const
  | succ N ih =>
    have h0 : Measurable fun p : X × (Fin (N + 1) → W) => T p.1 (p.2 0) :=
      h.meas.comp (measurable_fst.prodMk ((measurable_pi_apply 0).comp measurable_snd))
    have h1 : Measurable fun p : X × (Fin (N + 1) → W) => (T p.1 (p.2 0), Fin.tail p.2) :=
      h0.prodMk (measurable_pi_iff.2 fun i => (measurable_pi_apply i.succ).comp measurable_snd)
    exact ((hg.comp h0).const_mul (c 0)).add ((ih fun i => c (i + 1)).comp h1)

theorem wsum_bound {g : X → ℝ} {K : ℝ} (hK : ∀ x, |g x| ≤ K) (N : Nat) (c : Nat → ℝ) (hc : ∀ i, 0 ≤ c i ∧ c i ≤ 1) (x : X) (ω : Fin N → W) :
    |wsum T g N c x ω| ≤ N * K := by
  induction N generalizing c x with
  | zero => simp [wsum]
  | succ N ih =>
    have h1 := ih (fun i => c (i + 1)) (fun i => hc _) (T x (ω 0)) (Fin.tail ω)
    have h2 : |c 0 * g (T x (ω 0))| ≤ K := by
      rw [abs_mul, abs_of_nonneg (hc 0).1]
      have := hK (T x (ω 0))
      nlinarith [abs_nonneg (g (T x (ω 0))), (hc 0).2, (hc 0).1]
    unfold wsum
    refine (abs_add_le _ _).trans ?_
    push_cast; linarith

/-- The mean over the first random number and over the rest. -/
theorem integral_succ {N : Nat} {F : W → (Fin N → W) → ℝ} (hF : Measurable (Function.uncurry F)) {K : ℝ} (hK : ∀ w ω, |F w ω| ≤ K) :
    ∫ ω, F (ω 0) (Fin.tail ω) ∂(Measure.pi fun _ : Fin (N + 1) => Q) = ∫ w, ∫ ω, F w ω ∂(Measure.pi fun _ : Fin N => Q) ∂Q := by
  have e := measurePreserving_piFinSuccAbove (fun _ : Fin (N + 1) => Q) 0
  have hi : Integrable (Function.uncurry F) (Q.prod (Measure.pi fun _ : Fin N => Q)) := integrable_of_bound hF fun p => hK _ _
  have h1 := integral_prod _ hi
  simp only [Function.uncurry_apply_pair] at h1
  rw [← h1, ← e.map_eq, integral_map e.measurable.aemeasurable (by rw [e.map_eq]; exact hF.aestronglyMeasurable)]
  rfl

variable {g : X → ℝ} {K : ℝ}

theorem wsum_succ_meas (h : Chain T Q B π ε) (hg : Measurable g) (N : Nat) (c : Nat → ℝ) (x : X) :
    Measurable (Function.uncurry fun (w : W) (ω : Fin N → W) => c 0 * g (T x w) + wsum T g N (fun i => c (i + 1)) (T x w) ω) := by
  have h0 : Measurable fun p : W × (Fin N → W) => T x p.1 := (h.meas1 x).comp measurable_fst
  exact ((hg.comp h0).const_mul (c 0)).add ((h.wsum_meas hg N fun i => c (i + 1)).comp (h0.prodMk measurable_snd))

theorem wsum_meas1 (h : Chain T Q B π ε) (hg : Measurable g) (N : Nat) (c : Nat → ℝ) (x : X) : Measurable (wsum T g N c x) :=
  (h.wsum_meas hg N c).comp measurable_prodMk_left

theorem wsum_succ_bound (hK : ∀ x, |g x| ≤ K) (N : Nat) (c : Nat → ℝ) (hc : ∀ i, 0 ≤ c i ∧ c i ≤ 1) (x : X) (w : W) (ω : Fin N → W) :
    |c 0 * g (T x w) + wsum T g N (fun i => c (i + 1)) (T x w) ω| ≤ (N + 1 : ℕ) * K := by
  have := wsum_bound (T := T) hK (N + 1) c hc x (Fin.cons w ω)
  unfold wsum at this
  simpa using this

/-- The mean of the weighted sum. -/
theorem wsum_mean (h : Chain T Q B π ε) (hg : Measurable g) (hK : ∀ x, |g x| ≤ K) (N : Nat) (c : Nat → ℝ) (hc : ∀ i, 0 ≤ c i ∧ c i ≤ 1) (x : X) :
    ∫ ω, wsum T g N c x ω ∂(Measure.pi fun _ : Fin N => Q) = ∑ i ∈ Finset.range N, c i * (mean T Q)^[i + 1] g x := by
  induction N generalizing c x with
  | zero => simp [wsum]
  | succ N ih =>
    unfold wsum
    rw [integral_succ (F := fun w ω => c 0 * g (T x w) + wsum T g N (fun i => c (i + 1)) (T x w) ω) (h.wsum_succ_meas hg N c x) (fun w ω => wsum_succ_bound hK N c hc x w ω)]
    have e1 : ∀ w, ∫ ω, (c 0 * g (T x w) + wsum T g N (fun i => c (i + 1)) (T x w) ω) ∂(Measure.pi fun _ : Fin N => Q) =
        c 0 * g (T x w) + ∑ i ∈ Finset.range N, c (i + 1) * (mean T Q)^[i + 1] g (T x w) := by
      intro w
      rw [integral_add (integrable_const _) (integrable_of_bound (h.wsum_meas1 hg N _ _) fun ω => wsum_bound hK N _ (fun i => hc _) _ ω), ih _ (fun i => hc _)]
      simp
    simp only [e1]
    have hit : ∀ i, Measurable ((mean T Q)^[i] g) ∧ ∀ x, |(mean T Q)^[i] g x| ≤ K := by
      intro i
      obtain ⟨a, b, _⟩ := h.iterate_facts hg hK (a := -K) (b := K) (fun x _ => abs_le.1 (hK x)) i
      exact ⟨a, b⟩
    have hint : ∀ i (d : ℝ), Integrable (fun w => d * (mean T Q)^[i] g (T x w)) Q := fun i d =>
      (integrable_of_bound ((hit i).1.comp (h.meas1 x)) fun w => (hit i).2 _).const_mul d
    have hint0 : Integrable (fun w => c 0 * g (T x w)) Q := hint 0 (c 0)
    rw [integral_add hint0 (integrable_finsetSum _ fun i _ => hint (i + 1) (c (i + 1))), integral_finsetSum _ fun i _ => hint (i + 1) (c (i + 1)),
      Finset.sum_range_succ', add_comm]
    congr 1
    · refine Finset.sum_congr rfl fun i _ => ?_
      rw [integral_const_mul, Function.iterate_succ_apply' _ (i + 1)]; rfl
    · rw [integral_const_mul]; rfl

/-- The mean square of the weighted sum of a function with mean zero and values in [-1, 1] grows no faster than the number of terms. -/
theorem wsum_square (h : Chain T Q B π ε) (hg : Measurable g) (hK : ∀ x, |g x| ≤ 1) (hrange : ∃ a b, b - a ≤ 1 ∧ ∀ x ∈ B, a ≤ g x ∧ g x ≤ b)
    (h0 : ∫ x, g x ∂π = 0) (N : Nat) (c : Nat → ℝ) (hc : ∀ i, 0 ≤ c i ∧ c i ≤ 1) {x : X} (hx : x ∈ B) :
    ∫ ω, (wsum T g N c x ω) ^ 2 ∂(Measure.pi fun _ : Fin N => Q) ≤ (∑ i ∈ Finset.range N, c i) * (1 + 2 / ε) := by
  have hm : ∀ (N : Nat) (c : Nat → ℝ), (∀ i, 0 ≤ c i ∧ c i ≤ 1) → ∀ x ∈ B, |∫ ω, wsum T g N c x ω ∂(Measure.pi fun _ : Fin N => Q)| ≤ 1 / ε := by
    intro N c hc x hx
    rw [h.wsum_mean hg hK N c hc x]
    obtain ⟨a, b, hab, hr⟩ := hrange
    have h1 : ∀ i, |c i * (mean T Q)^[i + 1] g x| ≤ (1 - ε) ^ i := by
      intro i
      have := h.converge hg hK hr (i + 1) hx
      rw [h0, sub_zero] at this
      have e0 : 0 ≤ 1 - ε := by linarith [h.le]
      have e1 : (1 - ε) ^ (i + 1) * (b - a) ≤ (1 - ε) ^ (i + 1) * 1 := mul_le_mul_of_nonneg_left hab (pow_nonneg e0 _)
      have e2 : (1 - ε) ^ (i + 1) ≤ (1 - ε) ^ i := pow_le_pow_of_le_one e0 (by linarith [h.pos]) (Nat.le_succ i)
      rw [abs_mul, abs_of_nonneg (hc i).1]
      have e3 := abs_nonneg ((mean T Q)^[i + 1] g x)
      nlinarith [(hc i).1, (hc i).2]
    calc |∑ i ∈ Finset.range N, c i * (mean T Q)^[i + 1] g x| ≤ ∑ i ∈ Finset.range N, (1 - ε) ^ i :=
          (Finset.abs_sum_le_sum_abs _ _).trans (Finset.sum_le_sum fun i _ => h1 i)
      _ ≤ 1 / ε := by
          have e0 : 0 ≤ 1 - ε := by linarith [h.le]
          rw [geom_sum_eq (by linarith [h.pos])]
          have hp := h.pos
          have : ((1 - ε) ^ N - 1) / (1 - ε - 1) = (1 - (1 - ε) ^ N) / ε := by
            rw [show 1 - ε - 1 = -ε by ring, div_neg, ← neg_div, neg_sub]
          rw [this]
          exact div_le_div_of_nonneg_right (by linarith [pow_nonneg e0 N]) hp.le
  induction N generalizing c x with
  | zero => simp [wsum]
  | succ N ih =>
    unfold wsum
    have hmeas := h.wsum_succ_meas hg N c x
    rw [integral_succ (F := fun w ω => (c 0 * g (T x w) + wsum T g N (fun i => c (i + 1)) (T x w) ω) ^ 2) (hmeas.pow_const 2)
      (K := (((N + 1 : ℕ) : ℝ) * 1) ^ 2) (fun w ω => by
        rw [abs_pow]; exact pow_le_pow_left₀ (abs_nonneg _) (wsum_succ_bound hK N c hc x w ω) 2)]
    have e1 : ∀ w, ∫ ω, (c 0 * g (T x w) + wsum T g N (fun i => c (i + 1)) (T x w) ω) ^ 2 ∂(Measure.pi fun _ : Fin N => Q) ≤
        (∑ i ∈ Finset.range (N + 1), c i) * (1 + 2 / ε) := by
      intro w
      have hy := h.stays x hx w
      set y := T x w
      have hSm := h.wsum_meas1 hg N (fun i => c (i + 1)) y
      have hSi : Integrable (wsum T g N (fun i => c (i + 1)) y) (Measure.pi fun _ : Fin N => Q) :=
        integrable_of_bound hSm fun ω => wsum_bound hK N _ (fun i => hc _) _ ω
      have hSi2 : Integrable (fun ω => (wsum T g N (fun i => c (i + 1)) y ω) ^ 2) (Measure.pi fun _ : Fin N => Q) :=
        integrable_of_bound (hSm.pow_const 2) (K := ((N : ℝ) * 1) ^ 2) fun ω => by
          rw [abs_pow]; exact pow_le_pow_left₀ (abs_nonneg _) (wsum_bound hK N _ (fun i => hc _) _ ω) 2
      have e2 : ∫ ω, (c 0 * g y + wsum T g N (fun i => c (i + 1)) y ω) ^ 2 ∂(Measure.pi fun _ : Fin N => Q) =
          (c 0 * g y) ^ 2 + 2 * (c 0 * g y) * ∫ ω, wsum T g N (fun i => c (i + 1)) y ω ∂(Measure.pi fun _ : Fin N => Q) +
            ∫ ω, (wsum T g N (fun i => c (i + 1)) y ω) ^ 2 ∂(Measure.pi fun _ : Fin N => Q) := by
        have : ∀ ω, (c 0 * g y + wsum T g N (fun i => c (i + 1)) y ω) ^ 2 = ((c 0 * g y) ^ 2 + 2 * (c 0 * g y) * wsum T g N (fun i => c (i + 1)) y ω) +
          (wsum T g N (fun i => c (i + 1)) y ω) ^ 2 := fun ω => by ring
        simp only [this]
        have hadd : Integrable (fun ω => (c 0 * g y) ^ 2 + 2 * (c 0 * g y) * wsum T g N (fun i => c (i + 1)) y ω) (Measure.pi fun _ : Fin N => Q) :=
          (integrable_const _).add (hSi.const_mul _)
        rw [integral_add hadd hSi2, integral_add (integrable_const _) (hSi.const_mul _), integral_const_mul]
        simp
      rw [e2, Finset.sum_range_succ']
      have e3 := ih (fun i => c (i + 1)) (fun i => hc _) hy
      have e4 := hm N (fun i => c (i + 1)) (fun i => hc _) y hy
      set M := ∫ ω, wsum T g N (fun i => c (i + 1)) y ω ∂(Measure.pi fun _ : Fin N => Q)
      have e5 := hK y
      have e6 : (c 0 * g y) ^ 2 ≤ c 0 := by
        have : (g y) ^ 2 ≤ 1 := by rw [← sq_abs]; exact pow_le_one₀ (abs_nonneg _) e5
        have hc0 := hc 0
        rw [mul_pow]
        nlinarith [sq_nonneg (g y), sq_nonneg (c 0)]
      have e7 : 2 * (c 0 * g y) * M ≤ c 0 * (2 / ε) := by
        have : g y * M ≤ 1 / ε := by
          have h1 : g y * M ≤ |g y| * |M| := by rw [← abs_mul]; exact le_abs_self _
          have h2 : |g y| * |M| ≤ 1 * (1 / ε) := mul_le_mul e5 e4 (abs_nonneg _) zero_le_one
          linarith
        have hc0 := (hc 0).1
        calc 2 * (c 0 * g y) * M = c 0 * (2 * (g y * M)) := by ring
          _ ≤ c 0 * (2 * (1 / ε)) := mul_le_mul_of_nonneg_left (by linarith) hc0
          _ = c 0 * (2 / ε) := by ring
      nlinarith
    have hi : Integrable (fun w => ∫ ω, (c 0 * g (T x w) + wsum T g N (fun i => c (i + 1)) (T x w) ω) ^ 2 ∂(Measure.pi fun _ : Fin N => Q)) Q := by
      refine integrable_of_bound ?_ (K := (((N + 1 : ℕ) : ℝ) * 1) ^ 2) ?_
      · exact (StronglyMeasurable.integral_prod_right' (ν := Measure.pi fun _ : Fin N => Q) (hmeas.pow_const 2).stronglyMeasurable).measurable
      · intro w
        have := norm_integral_le_of_norm_le_const (μ := Measure.pi fun _ : Fin N => Q)
          (f := fun ω => (c 0 * g (T x w) + wsum T g N (fun i => c (i + 1)) (T x w) ω) ^ 2) (C := (((N + 1 : ℕ) : ℝ) * 1) ^ 2)
          (Filter.Eventually.of_forall fun ω => by
            rw [Real.norm_eq_abs, abs_pow]; exact pow_le_pow_left₀ (abs_nonneg _) (wsum_succ_bound hK N c hc x w ω) 2)
        simpa using this
    have := integral_mono hi (integrable_const _) e1
    simpa using this

/-- Averages along the chain: take any of the points visited (those with weight 1), from any start in the set; the mean square of the difference
between the average of `f` over them and its mean under the stationary distribution is at most `(1 + 2 / ε)` over their number. -/
theorem average (h : Chain T Q B π ε) {f : X → ℝ} (hf : Measurable f) (h01 : ∀ x, 0 ≤ f x ∧ f x ≤ 1) (N : Nat) (c : Nat → ℝ) (hc : ∀ i, 0 ≤ c i ∧ c i ≤ 1)
    {n : ℝ} (hn : ∑ i ∈ Finset.range N, c i = n) (hn0 : 0 < n) {x : X} (hx : x ∈ B) :
    Integrable (fun ω => ((((points T x (List.ofFn ω)).zipIdx.map fun p => c p.2 * f p.1).sum) / n - ∫ y, f y ∂π) ^ 2) (Measure.pi fun _ : Fin N => Q) ∧
    ∫ ω, ((((points T x (List.ofFn ω)).zipIdx.map fun p => c p.2 * f p.1).sum) / n - ∫ y, f y ∂π) ^ 2 ∂(Measure.pi fun _ : Fin N => Q) ≤ (1 + 2 / ε) / n := by
  set q := ∫ y, f y ∂π with hq
  have hfi : Integrable f π := integrable_of_bound hf (K := 1) fun x => by rw [abs_le]; constructor <;> linarith [(h01 x).1, (h01 x).2]
  have q0 : 0 ≤ q := integral_nonneg fun x => (h01 x).1
  have q1 : q ≤ 1 := by
    have := integral_mono hfi (integrable_const (1 : ℝ)) fun x => (h01 x).2
    simpa using this
  have hg : Measurable fun x => f x - q := hf.sub_const q
  have hK : ∀ x, |f x - q| ≤ 1 := fun x => by rw [abs_le]; constructor <;> linarith [(h01 x).1, (h01 x).2]
  have h0 : ∫ x, (f x - q) ∂π = 0 := by
    rw [integral_sub hfi (integrable_const _)]; simp [hq]
  have key := h.wsum_square hg hK ⟨-q, 1 - q, by linarith, fun x _ => ⟨by linarith [(h01 x).1], by linarith [(h01 x).2]⟩⟩ h0 N c hc hx
  have e : ∀ ω : Fin N → W, wsum T (fun x => f x - q) N c x ω = ((points T x (List.ofFn ω)).zipIdx.map fun p => c p.2 * f p.1).sum - n * q := by
    intro ω
    have gen : ∀ (N : Nat) (c : Nat → ℝ) (x : X) (ω : Fin N → W), wsum T (fun x => f x - q) N c x ω = wsum T f N c x ω - (∑ i ∈ Finset.range N, c i) * q := by
      intro N
      induction N with
      | zero => intro c x ω; simp [wsum]
      | succ N ih =>
        intro c x ω
        unfold wsum
        rw [ih, Finset.sum_range_succ']; ring
    rw [gen, hn, ← wsum_eq T f N c x ω 0]; rfl
  rw [hn] at key
  have e2 : ∀ ω : Fin N → W, ((((points T x (List.ofFn ω)).zipIdx.map fun p => c p.2 * f p.1).sum) / n - q) ^ 2 =
      (wsum T (fun x => f x - q) N c x ω) ^ 2 * (1 / n ^ 2) := by
    intro ω
    rw [e ω]; field_simp
  simp only [e2]
  refine ⟨Integrable.mul_const (integrable_of_bound (K := ((N : ℝ) * 1) ^ 2) ((h.wsum_meas1 hg N c x).pow_const 2) fun ω => ?_) _, ?_⟩
  · have := wsum_bound (T := T) hK N c hc x ω
    rw [abs_pow]
    exact pow_le_pow_left₀ (abs_nonneg _) this 2
  rw [integral_mul_const]
  calc _ ≤ n * (1 + 2 / ε) * (1 / n ^ 2) := mul_le_mul_of_nonneg_right key (by positivity)
    _ = (1 + 2 / ε) / n := by field_simp

end Chain

/-- Chebyshev's inequality in the form used here. -/
theorem unlikely {Ω : Type} [MeasurableSpace Ω] {μ : Measure Ω} [IsProbabilityMeasure μ] {f : Ω → ℝ} {K δ : ℝ} (hi : Integrable (fun ω => f ω ^ 2) μ)
    (hK : ∫ ω, f ω ^ 2 ∂μ ≤ K) (hδ : 0 < δ) : μ.real {ω | δ ≤ |f ω|} ≤ K / δ ^ 2 := by
  have h := mul_meas_ge_le_integral_of_nonneg (μ := μ) (f := fun ω => f ω ^ 2) (Filter.Eventually.of_forall fun ω => sq_nonneg _) hi (δ ^ 2)
  have e : {ω | δ ^ 2 ≤ f ω ^ 2} = {ω | δ ≤ |f ω|} := by
    ext ω
    simp only [Set.mem_ofPred_eq]
    rw [← sq_abs (f ω)]
    exact pow_le_pow_iff_left₀ hδ.le (abs_nonneg _) (by norm_num)
  rw [e] at h
  rw [le_div_iff₀ (by positivity), mul_comm]
  exact h.trans hK

end Oxsx.Ergodic
