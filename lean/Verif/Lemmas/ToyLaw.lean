import Mathlib.Algebra.MvPolynomial.Basic
import Mathlib.Algebra.MvPolynomial.CommRing
import Mathlib.Data.Nat.Choose.Multinomial
import Mathlib.Data.Real.Basic
import Mathlib.Algebra.BigOperators.Field
import Mathlib.Tactic.FieldSimp
import Mathlib.Tactic.Ring
import Mathlib.Probability.ProductMeasure
import Mathlib.Probability.Distributions.Poisson.Basic
set_option linter.unusedSectionVars false
set_option linter.unusedSimpArgs false
set_option linter.unusedVariables false
/-
Lemmas for C107: the counts of independent draws, with a Poisson number of draws from each of several sources.
-/
namespace Oxsx.Toy
open Finset MvPolynomial

/-- The generating polynomial of one draw. -/
noncomputable def gen {K : ℕ} (p : Fin K → ℝ) : MvPolynomial (Fin K) ℝ := ∑ b, C (p b) * X b

/-- The exponent with these counts. -/
noncomputable def ex {K : ℕ} (n : Fin K → ℕ) : Fin K →₀ ℕ := Finsupp.equivFunOnFinite.symm n

theorem ex_apply {K : ℕ} (n : Fin K → ℕ) (b : Fin K) : ex n b = n b := rfl

theorem ex_inj {K : ℕ} {n n' : Fin K → ℕ} (h : ex n = ex n') : n = n' := Finsupp.equivFunOnFinite.symm.injective h

/-- How often each bin occurs. -/
def occ {M K : ℕ} (f : Fin M → Fin K) (b : Fin K) : ℕ := #{j | f j = b}

theorem monomial_draws {M K : ℕ} (q : Fin M → Fin K → ℝ) (f : Fin M → Fin K) :
    ∏ j, (C (q j (f j)) * X (f j) : MvPolynomial (Fin K) ℝ) = monomial (ex (occ f)) (∏ j, q j (f j)) := by
  rw [Finset.prod_mul_distrib, ← map_prod, MvPolynomial.monomial_eq]
  congr 1
  rw [Finsupp.prod_fintype _ _ (by simp)]
  simp only [ex_apply, occ]
  rw [← Finset.prod_fiberwise' (s := univ) (g := f) (f := fun b => (X b : MvPolynomial (Fin K) ℝ))]
  refine Finset.prod_congr rfl (fun b _ => ?_)
  rw [Finset.prod_const]

/-- The coefficient of a product of generating polynomials: the sum over the ways to reach the counts. -/
theorem coeff_gens {M K : ℕ} (q : Fin M → Fin K → ℝ) (n : Fin K → ℕ) :
    coeff (ex n) (∏ j, gen (q j)) = ∑ f : Fin M → Fin K with occ f = n, ∏ j, q j (f j) := by
  classical
  unfold gen
  rw [Finset.prod_univ_sum, Fintype.piFinset_univ, coeff_sum, Finset.sum_filter]
  refine Finset.sum_congr rfl (fun f _ => ?_)
  rw [monomial_draws, coeff_monomial]
  by_cases h : occ f = n
  · rw [if_pos (by rw [h]), if_pos h]
  · rw [if_neg (fun e => h (ex_inj e)), if_neg h]

theorem occ_sum {M K : ℕ} (f : Fin M → Fin K) : ∑ b, occ f b = M := by
  unfold occ
  have := Finset.card_eq_sum_card_fiberwise (s := (univ : Finset (Fin M))) (t := (univ : Finset (Fin K))) (f := f) (by intro _ _; simp)
  simpa using this.symm

/-- The power of a linear form, coefficient by coefficient. -/
theorem coeff_gen_pow {K : ℕ} (l : Fin K → ℝ) (n : Fin K → ℕ) :
    coeff (ex n) (gen l ^ (∑ b, n b)) = (Nat.multinomial univ n : ℝ) * ∏ b, l b ^ n b := by
  classical
  unfold gen
  rw [Finset.sum_pow_eq_sum_piAntidiag, coeff_sum]
  have hterm : ∀ k : Fin K → ℕ, ((Nat.multinomial univ k : ℕ) : MvPolynomial (Fin K) ℝ) * ∏ b, (C (l b) * X b) ^ k b =
      monomial (ex k) ((Nat.multinomial univ k : ℝ) * ∏ b, l b ^ k b) := by
    intro k
    rw [MvPolynomial.monomial_eq, Finsupp.prod_fintype _ _ (by simp)]
    simp only [mul_pow, Finset.prod_mul_distrib, ex_apply, map_mul, map_prod, map_pow, map_natCast]
    ring
  simp only [hterm, coeff_monomial]
  rw [Finset.sum_eq_single n]
  · rw [if_pos rfl]
  · intro k _ hk; rw [if_neg (fun e => hk (ex_inj e))]
  · intro h; exfalso; apply h; simp

theorem sum_gen {D K : ℕ} (r : Fin D → ℝ) (p : Fin D → Fin K → ℝ) :
    ∑ i, C (r i) * gen (p i) = gen (fun b => ∑ i, r i * p i b) := by
  unfold gen
  simp only [Finset.mul_sum, map_sum, Finset.sum_mul]
  rw [Finset.sum_comm]
  refine Finset.sum_congr rfl (fun b _ => Finset.sum_congr rfl (fun i _ => ?_))
  rw [map_mul]; ring

/-- Summed over the numbers of draws from the sources, weighted as Poisson counts, the counts in the bins have Poisson weights. -/
theorem mixture {D K : ℕ} (r : Fin D → ℝ) (p : Fin D → Fin K → ℝ) (n : Fin K → ℕ) :
    ∑ N ∈ piAntidiag univ (∑ b, n b), (∏ i, r i ^ N i / (N i).factorial) * coeff (ex n) (∏ i, gen (p i) ^ N i) =
      ∏ b, (∑ i, r i * p i b) ^ n b / (n b).factorial := by
  classical
  set m := ∑ b, n b with hm
  have hmf : (m.factorial : ℝ) ≠ 0 := by exact_mod_cast m.factorial_ne_zero
  have h1 : coeff (ex n) ((∑ i, C (r i) * gen (p i)) ^ m) = (Nat.multinomial univ n : ℝ) * ∏ b, (∑ i, r i * p i b) ^ n b := by
    rw [sum_gen, hm, coeff_gen_pow]
  rw [Finset.sum_pow_eq_sum_piAntidiag, coeff_sum] at h1
  have hspec : ∀ {J : ℕ} (k : Fin J → ℕ), ∑ i, k i = m → (Nat.multinomial univ k : ℝ) = m.factorial / ∏ i, ((k i).factorial : ℝ) := by
    intro J k hk
    have := Nat.multinomial_spec univ k
    rw [hk] at this
    rw [eq_div_iff (Finset.prod_ne_zero_iff.2 (fun i _ => by exact_mod_cast (k i).factorial_ne_zero))]
    rw [mul_comm]; exact_mod_cast this
  have h2 : ∀ N ∈ piAntidiag (univ : Finset (Fin D)) m,
      coeff (ex n) (((Nat.multinomial univ N : ℕ) : MvPolynomial (Fin K) ℝ) * ∏ i, (C (r i) * gen (p i)) ^ N i) =
      m.factorial * ((∏ i, r i ^ N i / (N i).factorial) * coeff (ex n) (∏ i, gen (p i) ^ N i)) := by
    intro N hN
    have hs : ∑ i, N i = m := by simpa using (mem_piAntidiag.1 hN).1
    have e : ((Nat.multinomial univ N : ℕ) : MvPolynomial (Fin K) ℝ) * ∏ i, (C (r i) * gen (p i)) ^ N i =
        C ((Nat.multinomial univ N : ℝ) * ∏ i, r i ^ N i) * ∏ i, gen (p i) ^ N i := by
      simp only [mul_pow, Finset.prod_mul_distrib, map_mul, map_prod, map_pow, map_natCast]; ring
    rw [e, coeff_C_mul, hspec N hs, Finset.prod_div_distrib]; ring
  rw [Finset.sum_congr rfl h2, ← Finset.mul_sum, hspec n hm.symm] at h1
  rw [Finset.prod_div_distrib]
  apply mul_left_cancel₀ hmf
  rw [h1]; ring

open MeasureTheory ProbabilityTheory
open scoped NNReal ENNReal Nat

theorem coeff_gens_nonneg {M K : ℕ} (q : Fin M → Fin K → ℝ) (hq : ∀ j b, 0 ≤ q j b) (n : Fin K → ℕ) : 0 ≤ coeff (ex n) (∏ j, gen (q j)) := by
  rw [coeff_gens]; exact Finset.sum_nonneg (fun f _ => Finset.prod_nonneg (fun j _ => hq _ _))

theorem coeff_gens_ne {M K : ℕ} (q : Fin M → Fin K → ℝ) (n : Fin K → ℕ) (h : ∑ b, n b ≠ M) : coeff (ex n) (∏ j, gen (q j)) = 0 := by
  rw [coeff_gens, Finset.filter_eq_empty_iff.2 (fun f _ e => h (by rw [← e]; exact occ_sum f)), Finset.sum_empty]

/-- An infinite sequence of independent numbers with law `μ`, the j-th put in the bin `b` when it is in `I j b`: the probability of the counts. -/
theorem draws_law (μ : Measure ℝ) [IsProbabilityMeasure μ] {M K : ℕ} (I : Fin M → Fin K → Set ℝ) (q : Fin M → Fin K → ℝ)
    (hI : ∀ j b, MeasurableSet (I j b)) (hdis : ∀ j b b' u, u ∈ I j b → u ∈ I j b' → b = b') (hq0 : ∀ j b, 0 ≤ q j b)
    (hq1 : ∀ j, ∑ b, q j b = 1) (hq : ∀ j b, μ (I j b) = ENNReal.ofReal (q j b)) (c : (ℕ → ℝ) → Fin K → ℕ)
    (hc : ∀ us f, (∀ j : Fin M, us j ∈ I j (f j)) → c us = occ f) (n : Fin K → ℕ) :
    (Measure.infinitePi (fun _ : ℕ => μ)) {us | c us = n} = ENNReal.ofReal (coeff (ex n) (∏ j, gen (q j))) := by
  classical
  set ν := Measure.infinitePi (fun _ : ℕ => μ) with hν
  set B : (Fin M → Fin K) → Set (ℕ → ℝ) := fun f => {us | ∀ j : Fin M, us j ∈ I j (f j)} with hB
  have hbox : ∀ f, B f = Set.pi (↑(Finset.range M)) (fun k => if h : k < M then I ⟨k, h⟩ (f ⟨k, h⟩) else Set.univ) := by
    intro f
    ext us
    simp only [hB, Set.mem_setOf_eq, Set.mem_pi, Finset.coe_range, Set.mem_Iio]
    constructor
    · intro h k hk; rw [dif_pos hk]; exact h ⟨k, hk⟩
    · intro h j; have := h j.1 j.2; rw [dif_pos j.2] at this; exact this
  have hmt : ∀ f : Fin M → Fin K, ∀ k ∈ Finset.range M, MeasurableSet (if h : k < M then I ⟨k, h⟩ (f ⟨k, h⟩) else Set.univ) := by
    intro f k hk
    rw [dif_pos (Finset.mem_range.1 hk)]; exact hI _ _
  have hBm : ∀ f, MeasurableSet (B f) := by
    intro f; rw [hbox]; exact MeasurableSet.pi (Set.to_countable _) (fun k hk => hmt f k hk)
  have hBv : ∀ f, ν (B f) = ENNReal.ofReal (∏ j, q j (f j)) := by
    intro f
    rw [hbox, hν, Measure.infinitePi_pi _ (hmt f), Finset.prod_range, ENNReal.ofReal_prod_of_nonneg (fun j _ => hq0 _ _)]
    refine Finset.prod_congr rfl (fun j _ => ?_)
    rw [dif_pos j.2]; exact hq _ _
  have hBd : ∀ s : Finset (Fin M → Fin K), ν (⋃ f ∈ s, B f) = ENNReal.ofReal (∑ f ∈ s, ∏ j, q j (f j)) := by
    intro s
    rw [measure_biUnion_finset, ENNReal.ofReal_sum_of_nonneg (fun f _ => Finset.prod_nonneg (fun j _ => hq0 _ _))]
    · exact Finset.sum_congr rfl (fun f _ => hBv f)
    · intro f _ f' _ hne
      refine Set.disjoint_left.2 (fun us h h' => hne (funext fun j => hdis j _ _ _ (h j) (h' j)))
    · exact fun f _ => hBm f
  have hall : ν (⋃ f ∈ (univ : Finset (Fin M → Fin K)), B f) = 1 := by
    rw [hBd, ← Fintype.piFinset_univ, ← Finset.prod_univ_sum]
    simp [hq1]
  have hnull : ν (⋃ f ∈ (univ : Finset (Fin M → Fin K)), B f)ᶜ = 0 := by
    rw [measure_compl (Finset.measurableSet_biUnion _ (fun f _ => hBm f)) (by rw [hall]; simp), hall]; simp
  rw [coeff_gens, ← hBd]
  refine measure_congr ?_
  refine (ae_iff.2 ?_ : ∀ᵐ us ∂ν, ({us | c us = n} : Set (ℕ → ℝ)) us = (⋃ f ∈ ({f | occ f = n} : Finset (Fin M → Fin K)), B f) us)
  refine measure_mono_null ?_ hnull
  intro us hus
  rw [Set.mem_compl_iff]
  intro hin
  apply hus
  simp only [Set.mem_iUnion, Finset.mem_univ, exists_prop, true_and] at hin
  obtain ⟨f, hf⟩ := hin
  have e := hc us f hf
  apply propext
  show c us = n ↔ us ∈ (⋃ f ∈ ({f | occ f = n} : Finset (Fin M → Fin K)), B f)
  simp only [Set.mem_iUnion, Finset.mem_filter, Finset.mem_univ, true_and, exists_prop]
  constructor
  · intro h; exact ⟨f, by rw [← e, h], hf⟩
  · rintro ⟨f', h1, h2⟩
    have : f = f' := funext fun j => hdis j _ _ _ (hf j) (h2 j)
    rw [e, this, h1]

/-- Poisson numbers of draws from each source and independent draws: independent Poisson counts in the bins. -/
theorem mixture_law {Ω : Type} [MeasurableSpace Ω] (ν : Measure Ω) [IsProbabilityMeasure ν] {D K : ℕ} (r : Fin D → ℝ) (hr : ∀ i, 0 ≤ r i)
    (p : Fin D → Fin K → ℝ) (hp0 : ∀ i b, 0 ≤ p i b) (hp1 : ∀ i, ∑ b, p i b = 1) (c : (Fin D → ℕ) × Ω → (Fin K → ℕ)) (hc : Measurable c)
    (h : ∀ N n, ν {ω | c (N, ω) = n} = ENNReal.ofReal (coeff (ex n) (∏ i, gen (p i) ^ N i)))
    (h0 : ∀ (N : Fin D → ℕ) (n : Fin K → ℕ), 0 ≤ coeff (ex n) (∏ i, gen (p i) ^ N i)) (h1 : ∀ (N : Fin D → ℕ) (n : Fin K → ℕ), ∑ b, n b ≠ ∑ i, N i → coeff (ex n) (∏ i, gen (p i) ^ N i) = 0) :
    ((Measure.pi fun i => poissonMeasure (r i).toNNReal).prod ν).map c =
      Measure.pi (fun b => poissonMeasure (∑ i, r i * p i b).toNNReal) := by
  classical
  have : IsProbabilityMeasure (((Measure.pi fun i => poissonMeasure (r i).toNNReal).prod ν).map c) := Measure.isProbabilityMeasure_map hc.aemeasurable
  refine Measure.ext_of_singleton (fun n => ?_)
  have hlam : ∀ b, 0 ≤ ∑ i, r i * p i b := fun b => Finset.sum_nonneg (fun i _ => mul_nonneg (hr i) (hp0 i b))
  have hpre : c ⁻¹' {n} = {z | c z = n} := rfl
  have hms : MeasurableSet (c ⁻¹' {n}) := hc (measurableSet_singleton n)
  rw [Measure.map_apply hc (measurableSet_singleton n), Measure.prod_apply hms, lintegral_countable', Measure.pi_singleton]
  have hterm : ∀ N : Fin D → ℕ, ν (Prod.mk N ⁻¹' (c ⁻¹' {n})) * (Measure.pi fun i => poissonMeasure (r i).toNNReal) {N} =
      ENNReal.ofReal (coeff (ex n) (∏ i, gen (p i) ^ N i) * ∏ i, (Real.exp (-r i) * (r i ^ N i / (N i).factorial))) := by
    intro N
    rw [Measure.pi_singleton, ENNReal.ofReal_mul (h0 N n), ENNReal.ofReal_prod_of_nonneg]
    · congr 1
      · exact h N n
      · refine Finset.prod_congr rfl (fun i _ => ?_)
        rw [poissonMeasure_singleton, Real.coe_toNNReal _ (hr i)]
        congr 1; ring
    · intro i _
      exact mul_nonneg (Real.exp_pos _).le (div_nonneg (pow_nonneg (hr i) _) (by positivity))
  simp only [hterm]
  rw [tsum_eq_sum (s := piAntidiag univ (∑ b, n b)), ← ENNReal.ofReal_sum_of_nonneg]
  · have hexp : ∏ i, Real.exp (-r i) = ∏ b, Real.exp (-(∑ i, r i * p i b)) := by
      rw [← Real.exp_sum, ← Real.exp_sum]
      congr 1
      rw [Finset.sum_neg_distrib, Finset.sum_neg_distrib, Finset.sum_comm]
      congr 1
      refine Finset.sum_congr rfl (fun i _ => ?_)
      rw [← Finset.mul_sum, hp1, mul_one]
    have e : ∑ N ∈ piAntidiag univ (∑ b, n b), coeff (ex n) (∏ i, gen (p i) ^ N i) * ∏ i, (Real.exp (-r i) * (r i ^ N i / (N i).factorial)) =
        ∏ b, (Real.exp (-(∑ i, r i * p i b)) * ((∑ i, r i * p i b) ^ n b / (n b).factorial)) := by
      rw [Finset.prod_mul_distrib, ← hexp, ← mixture, Finset.mul_sum]
      refine Finset.sum_congr rfl (fun N _ => ?_)
      rw [Finset.prod_mul_distrib]; ring
    rw [e, ENNReal.ofReal_prod_of_nonneg]
    · refine Finset.prod_congr rfl (fun b _ => ?_)
      rw [poissonMeasure_singleton, Real.coe_toNNReal _ (hlam b)]
      congr 1; ring
    · intro b _
      exact mul_nonneg (Real.exp_pos _).le (div_nonneg (pow_nonneg (hlam b) _) (by positivity))
  · intro N _
    exact mul_nonneg (h0 N n) (Finset.prod_nonneg (fun i _ => mul_nonneg (Real.exp_pos _).le (div_nonneg (pow_nonneg (hr i) _) (by positivity))))
  · intro N hN
    have : ∑ b, n b ≠ ∑ i, N i := by
      intro e; apply hN; simp [e]
    rw [h1 N n this, zero_mul, ENNReal.ofReal_zero]

end Oxsx.Toy
