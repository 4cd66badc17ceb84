import Verif.Props.BinnedEDGenerator
import Verif.Props.Poisson
import Verif.Lemmas.ToyLaw
set_option linter.unusedSectionVars false
set_option linter.unusedSimpArgs false
set_option linter.unusedVariables false
/-
C107: fake distributions with Poisson fluctuations have the law of the model: independent Poisson counts in the bins, with the rates
the likelihood expects. The random numbers are those of the code: one Poisson number per distribution, with its rate as mean, and a
sequence of independent numbers uniform on (0, 1].
-/
namespace Oxsx
open MeasureTheory ProbabilityTheory BinnedEDGenerator AxisCollection
variable {σ : Type}

/-- The law of a uniform random number. -/
noncomputable def unitLaw : Measure ℝ := volume.restrict (Set.Ioc 0 1)

instance : IsProbabilityMeasure unitLaw := ⟨by simp [unitLaw]⟩

/-- The law of the random numbers used for a fake distribution: one Poisson number for each distribution, whose mean is its rate, and
independent uniform numbers. -/
noncomputable def toyLaw (rates : List ℝ) : Measure ((Fin rates.length → ℕ) × (ℕ → ℝ)) :=
  (Measure.pi fun i : Fin rates.length => poissonMeasure (rates[i]).toNNReal).prod (Measure.infinitePi fun _ : ℕ => unitLaw)

instance (rates : List ℝ) : IsProbabilityMeasure (toyLaw rates) := by unfold toyLaw; infer_instance

/-- The fake distribution generated with these random numbers. -/
noncomputable def toyOf (g : BinnedEDGenerator ℝ) (name : String) (z : (Fin g.rates.length → ℕ) × (ℕ → ℝ)) : Res (BinnedED ℝ) :=
  g.poissonFluctuatedED (fun k => if h : k < g.rates.length then z.1 ⟨k, h⟩ else 0) z.2 name

/-- The number of events expected in bin `b`: from each distribution its rate times the share of its content that is in the bin. -/
noncomputable def toyRate (g : BinnedEDGenerator ℝ) (b : Nat) : ℝ :=
  ((g.pdfs.zip g.rates).map (fun p => p.2 * (p.1.hist.contents.getD b 0 / p.1.hist.contents.sum))).sum

namespace Toy

/-- The distribution of each draw. -/
def owners (g : BinnedEDGenerator ℝ) (N : Nat → ℕ) : List (BinnedED ℝ) :=
  (g.pdfs.zip ((List.range g.pdfs.length).map N)).flatMap (fun p => List.replicate p.2 p.1)

/-- The numbers that give a bin. -/
noncomputable def slot (d : BinnedED ℝ) (b : Nat) : Set ℝ := Set.Ioc (fraction d.hist b) (fraction d.hist (b + 1))

/-- How many of the numbers give each bin. -/
noncomputable def tally (K : ℕ) (L : List (BinnedED ℝ)) (us : ℕ → ℝ) (b : Fin K) : ℕ := ∑ j : Fin L.length, (slot L[j] b).indicator 1 (us j)

/-- The share of the content. -/
noncomputable def share (K : ℕ) (d : BinnedED ℝ) (b : Fin K) : ℝ := d.hist.contents.getD b 0 / d.hist.contents.sum

variable {as : List (BinAxis ℝ)}

theorem fraction_share {d : BinnedED ℝ} (hd : d.Usable as) {K : ℕ} (hK : K = (shape as).prod) (b : Fin K) :
    fraction d.hist (b + 1) - fraction d.hist b = share K d b := by
  have hlen : d.hist.contents.length = K := by rw [hd.valid.len, hK]
  have hx := List.getElem?_eq_getElem (l := d.hist.contents) (i := b) (by rw [hlen]; exact b.2)
  rw [fraction_succ hx]
  unfold share
  rw [List.getD_eq_getElem?_getD, hx]; simp

theorem share_nonneg {d : BinnedED ℝ} (hd : d.Usable as) {K : ℕ} (b : Fin K) : 0 ≤ share K d b := by
  unfold share
  refine div_nonneg ?_ hd.pos.le
  rw [List.getD_eq_getElem?_getD]
  cases h : d.hist.contents[b.1]? with
  | none => simp
  | some x => exact hd.nonneg x (List.mem_of_getElem? h)

theorem fraction_last {d : BinnedED ℝ} (hd : d.Usable as) {K : ℕ} (hK : K = (shape as).prod) : fraction d.hist K = 1 := by
  unfold fraction
  rw [List.take_of_length_le (by rw [hd.valid.len, hK]), div_self hd.pos.ne']

theorem fraction_mono {d : BinnedED ℝ} (hd : d.Usable as) {K : ℕ} (hK : K = (shape as).prod) {i j : ℕ} (hij : i ≤ j) (hj : j ≤ K) :
    fraction d.hist i ≤ fraction d.hist j := by
  induction j, hij using Nat.le_induction with
  | base => exact le_refl _
  | succ j hij ih =>
    have := fraction_share hd hK ⟨j, by omega⟩
    have h0 := share_nonneg hd (K := K) ⟨j, by omega⟩
    simp only at this
    linarith [ih (by omega)]

theorem share_sum {d : BinnedED ℝ} (hd : d.Usable as) {K : ℕ} (hK : K = (shape as).prod) : ∑ b, share K d b = 1 := by
  have h : ∀ b : Fin K, share K d b = fraction d.hist (b + 1) - fraction d.hist b := fun b => (fraction_share hd hK b).symm
  simp only [h]
  rw [← Finset.sum_range (fun b => fraction d.hist (b + 1) - fraction d.hist b), Finset.sum_range_sub, fraction_last hd hK, fraction_zero, sub_zero]

theorem slot_measure {d : BinnedED ℝ} (hd : d.Usable as) {K : ℕ} (hK : K = (shape as).prod) (b : Fin K) :
    unitLaw (slot d b) = ENNReal.ofReal (share K d b) := by
  have h0 : 0 ≤ fraction d.hist b := by have := fraction_mono hd hK (Nat.zero_le b.1) b.2.le; rwa [fraction_zero] at this
  have h1 : fraction d.hist (b + 1) ≤ 1 := by have := fraction_mono hd hK (show b.1 + 1 ≤ K from b.2) (le_refl _); rwa [fraction_last hd hK] at this
  unfold unitLaw slot
  rw [Measure.restrict_apply measurableSet_Ioc, Set.inter_eq_left.2 (Set.Ioc_subset_Ioc h0 h1), Real.volume_Ioc, fraction_share hd hK]

theorem slot_disjoint {d : BinnedED ℝ} (hd : d.Usable as) {K : ℕ} (hK : K = (shape as).prod) (b b' : Fin K) (u : ℝ) (h : u ∈ slot d b)
    (h' : u ∈ slot d b') : b = b' := by
  unfold slot at h h'
  rw [Set.mem_Ioc] at h h'
  rcases Nat.lt_trichotomy b.1 b'.1 with hb | hb | hb
  · have := fraction_mono hd hK (show b.1 + 1 ≤ b'.1 from hb) b'.2.le; linarith
  · exact Fin.ext hb
  · have := fraction_mono hd hK (show b'.1 + 1 ≤ b.1 from hb) b.2.le; linarith

theorem tally_occ {K : ℕ} (hK : K = (shape as).prod) {L : List (BinnedED ℝ)} (hL : ∀ d ∈ L, d.Usable as) (us : ℕ → ℝ) (f : Fin L.length → Fin K)
    (h : ∀ j : Fin L.length, us j ∈ slot L[j] (f j)) : tally K L us = occ f := by
  classical
  funext b
  unfold tally occ
  rw [Finset.card_filter]
  refine Finset.sum_congr rfl (fun j _ => ?_)
  by_cases e : f j = b
  · rw [if_pos e, Set.indicator_of_mem (by rw [← e]; exact h j)]; rfl
  · rw [if_neg e]
    exact Set.indicator_of_notMem (fun hm => e (slot_disjoint (hL L[j] (List.getElem_mem _)) hK _ _ _ (h j) hm)) _

theorem count_eq_sum (l : List ℕ) (b : ℕ) : l.count b = ∑ j : Fin l.length, if l[j] = b then 1 else 0 := by
  induction l with
  | nil => simp
  | cons x l ih =>
    rw [List.count_cons, ih]
    show _ = ∑ j : Fin (l.length + 1), _
    rw [Fin.sum_univ_succ, add_comm]
    by_cases e : x = b <;> simp [e]

theorem count_tally {K : ℕ} (hK : K = (shape as).prod) {L : List (BinnedED ℝ)} (hL : ∀ d ∈ L, d.Usable as) {us : ℕ → ℝ}
    (hu : ∀ k, 0 < us k ∧ us k ≤ 1) {bins : List Nat} (h : DrawnFrom us L bins) (b : Fin K) : bins.count b.1 = tally K L us b := by
  obtain ⟨hl, hd⟩ := h
  rw [count_eq_sum]
  unfold tally
  have : ∀ j : Fin bins.length, (if bins[j] = b.1 then 1 else 0 : ℕ) = (slot (L[j.1]'(by rw [← hl]; exact j.2)) b).indicator 1 (us j) := by
    intro j
    have hj : j.1 < L.length := by rw [← hl]; exact j.2
    have hU := hL L[j.1] (List.getElem_mem hj)
    have hb := hd j L[j.1] bins[j.1] (List.getElem?_eq_getElem hj) (List.getElem?_eq_getElem j.2)
    have hiff := (C58_bin hU (hu j).1 (hu j).2).2.1 b.1 (by rw [hU.valid.nb, ← hK]; exact b.2)
    by_cases e : bins[j] = b.1
    · rw [if_pos e, Set.indicator_of_mem]
      · rfl
      · have e' : bins[j.1] = b.1 := e
        rw [e'] at hb; exact hiff.1 hb
    · rw [if_neg e, Set.indicator_of_notMem]
      intro hm
      have := hiff.2 hm
      rw [hb] at this
      exact e (Res.ok.inj this)
  simp only [this]
  exact Fintype.sum_equiv (finCongr hl) _ _ (fun j => rfl)

theorem owners_usable {g : BinnedEDGenerator ℝ} (hp : ∀ d ∈ g.pdfs, d.Usable as) (N : Nat → ℕ) : ∀ d ∈ owners g N, d.Usable as := by
  intro d hd
  unfold owners at hd
  rw [List.mem_flatMap] at hd
  obtain ⟨p, h1, h2⟩ := hd
  rw [List.eq_of_mem_replicate h2]
  exact hp _ (List.of_mem_zip h1).1

theorem owners_prod {K : ℕ} {g : BinnedEDGenerator ℝ} {D : ℕ} (hl : g.pdfs.length = D) (N : Nat → ℕ) (P : BinnedED ℝ → MvPolynomial (Fin K) ℝ) :
    ∏ j : Fin (owners g N).length, P (owners g N)[j] = ∏ i : Fin D, P (g.pdfs[i.1]'(by rw [hl]; exact i.2)) ^ N i := by
  have h1 : ∏ j : Fin (owners g N).length, P (owners g N)[j] = ((owners g N).map P).prod := by
    rw [← List.prod_ofFn]
    congr 1
    apply List.ext_getElem <;> simp
  have h2 : ∀ l : List (BinnedED ℝ × ℕ), ((l.flatMap (fun p => List.replicate p.2 p.1)).map P).prod = (l.map (fun p => P p.1 ^ p.2)).prod := by
    intro l
    induction l with
    | nil => rfl
    | cons p l ih => rw [List.flatMap_cons, List.map_append, List.prod_append, ih, List.map_replicate, List.prod_replicate, List.map_cons, List.prod_cons]
  rw [h1]
  unfold owners
  rw [h2, ← List.prod_ofFn]
  congr 1
  apply List.ext_getElem
  · simp [hl]
  · intro i a b; simp

theorem owners_length {g : BinnedEDGenerator ℝ} {D : ℕ} (hl : g.pdfs.length = D) (N : Nat → ℕ) : (owners g N).length = ∑ i : Fin D, N i := by
  have h2 : ∀ l : List (BinnedED ℝ × ℕ), (l.flatMap (fun p => List.replicate p.2 p.1)).length = (l.map (·.2)).sum := by
    intro l
    induction l with
    | nil => rfl
    | cons p l ih => rw [List.flatMap_cons, List.length_append, ih, List.length_replicate, List.map_cons, List.sum_cons]
  unfold owners
  rw [h2, ← List.sum_ofFn]
  congr 1
  apply List.ext_getElem
  · simp [hl]
  · intro i a b; simp

theorem unit_ae : ∀ᵐ us ∂(Measure.infinitePi fun _ : ℕ => unitLaw), ∀ k, 0 < us k ∧ us k ≤ 1 := by
  rw [ae_all_iff]
  intro k
  have hm : MeasurableSet (Set.pi (↑({k} : Finset ℕ)) (fun _ : ℕ => Set.Ioc (0 : ℝ) 1)) :=
    MeasurableSet.pi (Set.to_countable _) (fun _ _ => measurableSet_Ioc)
  have h := Measure.infinitePi_pi (μ := fun _ : ℕ => unitLaw) (s := {k}) (t := fun _ => Set.Ioc (0 : ℝ) 1) (fun _ _ => measurableSet_Ioc)
  rw [Finset.prod_singleton] at h
  have h1 : unitLaw (Set.Ioc (0 : ℝ) 1) = 1 := by simp [unitLaw]
  rw [h1, prob_compl_eq_zero_iff hm |>.symm] at h
  rw [ae_iff]
  refine measure_mono_null ?_ h
  intro us hus
  rw [Set.mem_compl_iff]
  intro hin
  exact hus (hin k (by simp))

end Toy
open Toy

/-- C107. The fake distributions generated with Poisson fluctuations: almost surely one is generated, over the bins of the distributions, and the numbers of
events in its bins are independent Poisson numbers whose means are the sums, over the distributions, of rate times share of the content. -/
theorem C107_law {as : List (BinAxis ℝ)} {g : BinnedEDGenerator ℝ} (hne : g.pdfs ≠ []) (hp : ∀ d ∈ g.pdfs, d.Usable as)
    (hl : g.pdfs.length = g.rates.length) (hr : ∀ r ∈ g.rates, 0 ≤ r) (name : String) :
    ∃ c : (Fin g.rates.length → ℕ) × (ℕ → ℝ) → (Fin (shape as).prod → ℕ), Measurable c ∧
      (∀ᵐ z ∂(toyLaw g.rates), ∃ out, toyOf g name z = .ok out ∧ out.hist.Valid as ∧
        out.obs = (g.pdfs.head hne).obs ∧ ∀ b, out.hist.getBinContent b.1 = .ok (c z b : ℝ)) ∧
      (toyLaw g.rates).map c = Measure.pi (fun b : Fin (shape as).prod => poissonMeasure (toyRate g b).toNNReal) := by
  classical
  set K := (shape as).prod with hK
  set ext : (Fin g.rates.length → ℕ) → Nat → ℕ := fun N k => if h : k < g.rates.length then N ⟨k, h⟩ else 0 with hext
  have hexti : ∀ N (i : Fin g.rates.length), ext N i = N i := by intro N i; simp only [hext]; rw [dif_pos i.2]
  set q : Fin g.rates.length → BinnedED ℝ := fun i => g.pdfs[i.1]'(by rw [hl]; exact i.2) with hq
  have hqU : ∀ i, (q i).Usable as := fun i => hp _ (List.getElem_mem _)
  set c : (Fin g.rates.length → ℕ) × (ℕ → ℝ) → (Fin K → ℕ) := fun z => tally K (owners g (ext z.1)) z.2 with hc
  have hcm : Measurable c := by
    refine measurable_from_prod_countable_right (fun N => ?_)
    refine measurable_pi_lambda _ (fun b => ?_)
    simp only [hc]
    unfold tally
    refine Finset.measurable_sum _ (fun j _ => ?_)
    exact (measurable_one.indicator measurableSet_Ioc).comp (measurable_pi_apply _)
  refine ⟨c, hcm, ?_, ?_⟩
  · have h := (Measure.quasiMeasurePreserving_snd (μ := Measure.pi fun i : Fin g.rates.length => poissonMeasure (g.rates[i]).toNNReal)
      (ν := Measure.infinitePi fun _ : ℕ => unitLaw)).ae unit_ae
    unfold toyLaw
    filter_upwards [h] with z hz
    obtain ⟨out, bins, h1, h2, h3, h4, -, -, h5⟩ := (C58_both hne hp hl hz name).1 (ext z.1)
    refine ⟨out, h1, h2, h5, fun b => ?_⟩
    rw [h4 b.1 (by rw [h2.nb]; exact b.2)]
    congr 2
    exact_mod_cast count_tally hK (owners_usable hp _) hz h3 b
  · have hprod : ∀ N : Fin g.rates.length → ℕ, ∏ j : Fin (owners g (ext N)).length, gen (share K (owners g (ext N))[j]) =
        ∏ i, gen (share K (q i)) ^ N i := by
      intro N
      rw [owners_prod hl (ext N) (fun d => gen (share K d))]
      simp only [hexti, hq]
    have hnn : ∀ (N : Fin g.rates.length → ℕ) (j : Fin (owners g (ext N)).length) b, 0 ≤ share K (owners g (ext N))[j] b :=
      fun N j b => share_nonneg (owners_usable hp _ _ (List.getElem_mem _)) b
    have key := mixture_law (Measure.infinitePi fun _ : ℕ => unitLaw) (fun i : Fin g.rates.length => g.rates[i]) (fun i => hr _ (List.getElem_mem _))
      (fun i => share K (q i)) (fun i b => share_nonneg (hqU i) b) (fun i => share_sum (hqU i) hK) c hcm
      (by
        intro N n
        rw [← hprod]
        refine draws_law unitLaw (fun j b => slot (owners g (ext N))[j] b) (fun j => share K (owners g (ext N))[j]) (fun _ _ => measurableSet_Ioc)
          (fun j b b' u => slot_disjoint (owners_usable hp _ _ (List.getElem_mem _)) hK b b' u) (hnn N)
          (fun j => share_sum (owners_usable hp _ _ (List.getElem_mem _)) hK)
          (fun j b => slot_measure (owners_usable hp _ _ (List.getElem_mem _)) hK b) (fun us => c (N, us)) ?_ n
        intro us f hf
        exact tally_occ hK (owners_usable hp _) us f hf)
      (by intro N n; rw [← hprod]; exact coeff_gens_nonneg _ (hnn N) n)
      (by
        intro N n hn
        rw [← hprod]
        refine coeff_gens_ne _ n ?_
        rw [owners_length hl]; simp only [hexti]; exact hn)
    unfold toyLaw
    rw [key]
    congr 1
    funext b
    congr 2
    unfold toyRate
    rw [← List.sum_ofFn]
    congr 1
    apply List.ext_getElem
    · simp [hl]
    · intro i a b'; simp [share, hq]

/-- C107. The other way to generate, from the rounded rates: with `ns` events from the distributions, the average over the random numbers of the content of
each bin is the sum of events times share of the content. -/
theorem C107_expected_rates {as : List (BinAxis ℝ)} {g : BinnedEDGenerator ℝ} (hne : g.pdfs ≠ []) (hp : ∀ d ∈ g.pdfs, d.Usable as)
    (hl : g.pdfs.length = g.rates.length) {ns : List Nat}
    (hns : List.Forall₂ (fun (rate : ℝ) (n : Nat) => 0 ≤ rate ∧ rate + 1 / 2 < 2 ^ 32 ∧ (n : ℝ) ≤ rate + 1 / 2 ∧ rate + 1 / 2 < n + 1) g.rates ns)
    (name : String) :
    ∃ c : (ℕ → ℝ) → (Fin (shape as).prod → ℕ), Measurable c ∧
      (∀ᵐ us ∂(Measure.infinitePi fun _ : ℕ => unitLaw), ∃ out, g.expectedRatesED us name = .ok out ∧ out.hist.Valid as ∧
        out.hist.integral = (ns.sum : Nat) ∧ ∀ b, out.hist.getBinContent b.1 = .ok (c us b : ℝ)) ∧
      ∀ b : Fin (shape as).prod, ∫ us, (c us b : ℝ) ∂(Measure.infinitePi fun _ : ℕ => unitLaw) =
        ((g.pdfs.zip ns).map (fun p => (p.2 : ℝ) * (p.1.hist.contents.getD b 0 / p.1.hist.contents.sum))).sum := by
  classical
  set K := (shape as).prod with hK
  set L := (g.pdfs.zip ns).flatMap (fun p => List.replicate p.2 p.1) with hL
  have hU : ∀ d ∈ L, d.Usable as := by
    intro d hd
    rw [hL, List.mem_flatMap] at hd
    obtain ⟨p, h1, h2⟩ := hd
    rw [List.eq_of_mem_replicate h2]
    exact hp _ (List.of_mem_zip h1).1
  refine ⟨tally K L, ?_, ?_, ?_⟩
  · refine measurable_pi_lambda _ (fun b => ?_)
    unfold tally
    refine Finset.measurable_sum _ (fun j _ => ?_)
    exact (measurable_one.indicator measurableSet_Ioc).comp (measurable_pi_apply _)
  · filter_upwards [unit_ae] with us hus
    obtain ⟨out, bins, h1, h2, h3, h4, h5, -⟩ := (C58_both hne hp hl hus name).2 ns hns
    refine ⟨out, h1, h2, h5, fun b => ?_⟩
    rw [h4 b.1 (by rw [h2.nb]; exact b.2)]
    congr 2
    exact_mod_cast count_tally hK hU hus h3 b
  · intro b
    have hslot : ∀ (d : BinnedED ℝ) (k : ℕ), d.Usable as → Integrable (fun us : ℕ → ℝ => (((slot d b).indicator 1 (us k) : ℕ) : ℝ)) (Measure.infinitePi fun _ : ℕ => unitLaw) ∧
        ∫ us : ℕ → ℝ, (((slot d b).indicator 1 (us k) : ℕ) : ℝ) ∂(Measure.infinitePi fun _ : ℕ => unitLaw) = share K d b := by
      intro d k hd
      have hm : MeasurableSet ((fun us : ℕ → ℝ => us k) ⁻¹' (slot d b)) := measurable_pi_apply k measurableSet_Ioc
      have e : (fun us : ℕ → ℝ => (((slot d b).indicator 1 (us k) : ℕ) : ℝ)) = ((fun us : ℕ → ℝ => us k) ⁻¹' (slot d b)).indicator 1 := by
        funext us
        by_cases h : us k ∈ slot d b
        · rw [Set.indicator_of_mem h, Set.indicator_of_mem (show us ∈ (fun us : ℕ → ℝ => us k) ⁻¹' (slot d b) from h)]; simp
        · rw [Set.indicator_of_notMem h, Set.indicator_of_notMem (show us ∉ (fun us : ℕ → ℝ => us k) ⁻¹' (slot d b) from h)]; simp
      have hv : (Measure.infinitePi fun _ : ℕ => unitLaw) ((fun us : ℕ → ℝ => us k) ⁻¹' (slot d b)) = ENNReal.ofReal (share K d b) := by
        have h := Measure.infinitePi_pi (μ := fun _ : ℕ => unitLaw) (s := {k}) (t := fun _ => slot d b) (fun _ _ => measurableSet_Ioc)
        rw [Finset.prod_singleton, slot_measure hd hK] at h
        rw [← h]
        congr 1
        ext us
        simp
      rw [e]
      refine ⟨(integrable_indicator_iff hm).2 (integrable_const (1 : ℝ)).integrableOn, ?_⟩
      rw [integral_indicator_one hm, measureReal_def, hv, ENNReal.toReal_ofReal (share_nonneg hd b)]
    have : ∀ us : ℕ → ℝ, (tally K L us b : ℝ) = ∑ j : Fin L.length, (((slot L[j] b).indicator 1 (us j) : ℕ) : ℝ) := by
      intro us; unfold tally; push_cast; rfl
    simp only [this]
    rw [integral_finsetSum _ (fun (j : Fin L.length) _ => (hslot L[j] j (hU _ (List.getElem_mem _))).1)]
    rw [Finset.sum_congr rfl (fun (j : Fin L.length) _ => (hslot L[j] j (hU _ (List.getElem_mem _))).2)]
    have h1 : ∑ j : Fin L.length, share K L[j] b = (L.map (fun d => share K d b)).sum := by
      rw [← List.sum_ofFn]
      congr 1
      apply List.ext_getElem <;> simp
    have h2 : ∀ l : List (BinnedED ℝ × ℕ), ((l.flatMap (fun p => List.replicate p.2 p.1)).map (fun d => share K d b)).sum =
        (l.map (fun p => (p.2 : ℝ) * share K p.1 b)).sum := by
      intro l
      induction l with
      | nil => rfl
      | cons p l ih =>
        rw [List.flatMap_cons, List.map_append, List.sum_append, ih, List.map_replicate, List.sum_replicate, List.map_cons, List.sum_cons, nsmul_eq_mul]
    rw [h1, hL, h2]
    rfl

/-- The generator for the model with these distributions at the point `ps`: the rate of each is the number of events it contributes to the expectation. -/
noncomputable def generatorAt (log : List (BinnedED ℝ × NormStatus)) (ps : ParamDict ℝ) : BinnedEDGenerator ℝ :=
  ⟨log.map (·.1), log.map (fun p => normOf (fun n => (SMap.find ps n).getD 0) p * p.1.hist.contents.sum)⟩

theorem toyRate_generatorAt {as : List (BinAxis ℝ)} {log : List (BinnedED ℝ × NormStatus)} (hp : ∀ p ∈ log, p.1.Usable as) (ps : ParamDict ℝ) (b : Nat) :
    toyRate (generatorAt log ps) b = rateAt log ps b := by
  unfold toyRate generatorAt rateAt expectedRate
  induction log with
  | nil => rfl
  | cons p log ih =>
    simp only [List.map_cons, List.zip_cons_cons, List.sum_cons] at ih ⊢
    rw [ih (fun q hq => hp q (List.mem_cons_of_mem _ hq))]
    have := (hp p List.mem_cons_self).pos.ne'
    congr 1
    field_simp

/-- C107. Fake data for a model: generated from its distributions with the numbers of events they contribute at a point, the counts have exactly the law by
which the statistic is minus the logarithm of the probability of the data at that point (C97). -/
theorem C107_model {as : List (BinAxis ℝ)} {log : List (BinnedED ℝ × NormStatus)} (hne : log ≠ []) (hp : ∀ p ∈ log, p.1.Usable as) {ps : ParamDict ℝ}
    (hn : ∀ p ∈ log, 0 ≤ normOf (fun n => (SMap.find ps n).getD 0) p) (name : String) :
    ∃ c : (Fin (generatorAt log ps).rates.length → ℕ) × (ℕ → ℝ) → (Fin (shape as).prod → ℕ), Measurable c ∧
      (∀ᵐ z ∂(toyLaw (generatorAt log ps).rates), ∃ out, toyOf (generatorAt log ps) name z = .ok out ∧ out.hist.Valid as ∧
        out.obs = (log.head hne).1.obs ∧ ∀ b, out.hist.getBinContent b.1 = .ok (c z b : ℝ)) ∧
      (toyLaw (generatorAt log ps).rates).map c = dataLaw log ps (shape as).prod := by
  have h := C107_law (g := generatorAt log ps) (by simpa [generatorAt] using hne) (as := as)
    (by intro d hd; simp only [generatorAt, List.mem_map] at hd; obtain ⟨p, hp', rfl⟩ := hd; exact hp p hp') (by simp [generatorAt])
    (by
      intro r hr
      simp only [generatorAt, List.mem_map] at hr
      obtain ⟨p, hp', rfl⟩ := hr
      exact mul_nonneg (hn p hp') (hp p hp').pos.le) name
  obtain ⟨c, h1, h2, h3⟩ := h
  refine ⟨c, h1, ?_, ?_⟩
  · filter_upwards [h2] with z hz
    obtain ⟨out, a1, a2, a3, a4⟩ := hz
    exact ⟨out, a1, a2, by rw [a3]; simp [generatorAt], a4⟩
  · rw [h3]
    unfold dataLaw
    congr 1
    funext b
    rw [toyRate_generatorAt hp]

/-- C107. Fits to fake data. The fake distributions generated at the point `ps₀` are given to the fit as its data: almost surely the fit has a value at `ps₀`
and at any other point with positive expected rates; both have an average over the fake data; and, apart from the constraint terms, the average at
`ps₀` is the smaller, strictly unless the expected rates are the same in every bin. -/
theorem C107_fits {name : Nat → String} {C : FitSys σ ℝ} {objs : Nat → σ} {as : List (BinAxis ℝ)} {log : List (BinnedED ℝ × NormStatus)}
    {cons : ConstraintManager ℝ} {ps₀ ps : ParamDict ℝ} {c₀ c : ℝ} (hne : log ≠ []) (hp : ∀ p ∈ log, p.1.Usable as) (h : CanFit log (log.head hne).1)
    (hn : ∀ p ∈ log, 0 ≤ normOf (fun n => (SMap.find ps₀ n).getD 0) p) (h₀ : FitPoint log cons (log.head hne).1 ps₀ c₀)
    (h₁ : FitPoint log cons (log.head hne).1 ps c) (toyName : String) :
    ∃ V₀ V : (Fin (generatorAt log ps₀).rates.length → ℕ) × (ℕ → ℝ) → ℝ,
      (∀ᵐ z ∂(toyLaw (generatorAt log ps₀).rates), ∃ out, toyOf (generatorAt log ps₀) toyName z = .ok out ∧
        fitValue name C objs log cons out ps₀ = .ok (some (V₀ z)) ∧ fitValue name C objs log cons out ps = .ok (some (V z))) ∧
      Integrable V₀ (toyLaw (generatorAt log ps₀).rates) ∧ Integrable V (toyLaw (generatorAt log ps₀).rates) ∧
      (∫ z, V₀ z ∂(toyLaw (generatorAt log ps₀).rates)) - c₀ ≤ (∫ z, V z ∂(toyLaw (generatorAt log ps₀).rates)) - c ∧
      ((∫ z, V₀ z ∂(toyLaw (generatorAt log ps₀).rates)) - c₀ = (∫ z, V z ∂(toyLaw (generatorAt log ps₀).rates)) - c ↔
        ∀ b, b < (shape as).prod → rateAt log ps b = rateAt log ps₀ b) := by
  have hm := C107_model hne hp hn toyName
  set d := (log.head hne).1 with hd
  have hdU : d.Usable as := hp _ (List.head_mem hne)
  have hnb : d.hist.nBins = (shape as).prod := hdU.valid.nb
  obtain ⟨W₀, W, w1, w2, w3, w4, w5⟩ := C98_average (name := name) (C := C) (objs := objs) h h₀ h₁
  rw [← hnb] at hm ⊢
  obtain ⟨cnt, m1, m2, m3⟩ := hm
  have hcan : ∀ n, CanFit log (withCounts d n) := fun n => ⟨h.distinct, h.order, h.obs, by simp [withCounts]⟩
  have hpt : ∀ {out : BinnedED ℝ} {qs : ParamDict ℝ} {e : ℝ}, out.hist.nBins = d.hist.nBins → FitPoint log cons d qs e → FitPoint log cons out qs e :=
    fun ho hq => ⟨hq.nonempty, hq.sorted, hq.all, by rw [ho]; exact hq.positive, hq.constraint⟩
  have hW : ∀ {qs : ParamDict ℝ} {e : ℝ} {n : Fin d.hist.nBins → ℕ} {v : ℝ}, FitPoint log cons d qs e →
      fitValue name C objs log cons (withCounts d n) qs = .ok (some v) → v = nllAt log (withCounts d n) qs + e := by
    intro qs e n v hq hv
    rw [fitValue_eq (hcan n) (hpt rfl hq)] at hv
    exact (Option.some.inj (Res.ok.inj hv)).symm
  refine ⟨W₀ ∘ cnt, W ∘ cnt, ?_, ?_, ?_, ?_, ?_⟩
  · filter_upwards [m2] with z hz
    obtain ⟨out, a1, a2, a3, a4⟩ := hz
    have onb : out.hist.nBins = d.hist.nBins := by rw [a2.nb, hnb]
    have ocan : CanFit log out := by
      refine ⟨h.distinct, h.order, fun p hp' => ?_, by rw [a2.len, a2.nb]⟩
      obtain ⟨o1, o2, o3⟩ := h.obs p hp'
      exact ⟨by rw [o1, a3], by rw [o2, onb], by rw [o3, onb]⟩
    have hn' : ∀ qs : ParamDict ℝ, nllAt log out qs = nllAt log (withCounts d (cnt z)) qs := by
      intro qs
      unfold nllAt
      rw [show (withCounts d (cnt z)).hist.nBins = out.hist.nBins from onb.symm]
      congr 1
      apply List.map_congr_left
      intro b hb
      have hb' : b < d.hist.nBins := by rw [← onb]; exact List.mem_range.1 hb
      have e1 := (Histogram.getBinContent_ok_iff.1 (a4 ⟨b, hb'⟩)).2
      have : countIn out b = countIn (withCounts d (cnt z)) b := by
        unfold countIn withCounts
        simp only [List.getD_eq_getElem?_getD] at e1 ⊢
        rw [e1, List.getElem?_ofFn, dif_pos hb']
      rw [this]
    refine ⟨out, a1, ?_, ?_⟩
    · rw [fitValue_eq ocan (hpt onb h₀), hn', Function.comp, ← hW h₀ (w1 (cnt z)).1]
    · rw [fitValue_eq ocan (hpt onb h₁), hn', Function.comp, ← hW h₁ (w1 (cnt z)).2]
  · rw [← m3] at w2; exact w2.comp_measurable m1
  · rw [← m3] at w3; exact w3.comp_measurable m1
  all_goals
    have i₀ : ∫ z, (W₀ ∘ cnt) z ∂(toyLaw (generatorAt log ps₀).rates) = ∫ n, W₀ n ∂(dataLaw log ps₀ d.hist.nBins) := by
      rw [← m3, integral_map m1.aemeasurable (by rw [m3]; exact w2.aestronglyMeasurable)]; rfl
    have i₁ : ∫ z, (W ∘ cnt) z ∂(toyLaw (generatorAt log ps₀).rates) = ∫ n, W n ∂(dataLaw log ps₀ d.hist.nBins) := by
      rw [← m3, integral_map m1.aemeasurable (by rw [m3]; exact w3.aestronglyMeasurable)]; rfl
    rw [i₀, i₁]
  · exact w4
  · exact w5

/-! Concrete cases. -/

/-- The axis of the examples. -/
noncomputable def exToyAxis : BinAxis ℝ := ⟨"x", "", 2, 0, 2, [0, 1], [1, 2], [1/2, 3/2], [1, 1]⟩

theorem exRealPdf_usable (nm : String) {x y : ℝ} (hx : 0 ≤ x) (hy : 0 ≤ y) (hxy : 0 < x + y) : (exRealPdf nm x y).Usable [exToyAxis] := by
  refine ⟨⟨?_, by simp, rfl, rfl, rfl⟩, ?_, ?_⟩
  · refine ⟨rfl, rfl, rfl, ?_, rfl, ?_⟩ <;> simp [exRealPdf, exToyAxis, shape]
  · intro z hz
    simp only [exRealPdf, List.mem_cons, List.not_mem_nil, or_false] at hz
    rcases hz with rfl | rfl <;> assumption
  · simpa [exRealPdf] using hxy

theorem exTwo_usable : ∀ p ∈ exTwo, p.1.Usable [exToyAxis] := by
  intro p hp
  simp only [exTwo, List.mem_cons, List.not_mem_nil, or_false] at hp
  rcases hp with rfl | rfl
  · exact exRealPdf_usable _ (by norm_num) (by norm_num) (by norm_num)
  · exact exRealPdf_usable _ (by norm_num) (by norm_num) (by norm_num)

-- two distributions, rates 10 and 4: the counts are Poisson with means 6 and 8
example : ∃ c : (Fin 2 → ℕ) × (ℕ → ℝ) → (Fin 2 → ℕ),
    (toyLaw [10, 4]).map c = Measure.pi ![poissonMeasure 6, poissonMeasure 8] := by
  obtain ⟨c, _, _, h⟩ := C107_law (as := [exToyAxis]) (g := ⟨[exRealPdf "s" (1/2) (1/2), exRealPdf "b" (1/4) (3/4)], [10, 4]⟩) (by simp)
    (by
      intro d hd
      simp only [List.mem_cons, List.not_mem_nil, or_false] at hd
      rcases hd with rfl | rfl
      · exact exRealPdf_usable _ (by norm_num) (by norm_num) (by norm_num)
      · exact exRealPdf_usable _ (by norm_num) (by norm_num) (by norm_num)) rfl
    (by intro r hr; simp only [List.mem_cons, List.not_mem_nil, or_false] at hr; rcases hr with rfl | rfl <;> norm_num) "toy"
  refine ⟨c, h.trans ?_⟩
  show Measure.pi (fun b : Fin 2 => poissonMeasure (toyRate _ b).toNNReal) = _
  congr 1
  funext b
  have e0 : toyRate ⟨[exRealPdf "s" (1/2) (1/2), exRealPdf "b" (1/4) (3/4)], [10, 4]⟩ 0 = 6 := by
    simp [toyRate, exRealPdf]; norm_num
  have e1 : toyRate ⟨[exRealPdf "s" (1/2) (1/2), exRealPdf "b" (1/4) (3/4)], [10, 4]⟩ 1 = 8 := by
    simp [toyRate, exRealPdf]; norm_num
  fin_cases b
  · show poissonMeasure (toyRate _ 0).toNNReal = poissonMeasure 6
    rw [e0]; congr 1; norm_num
  · show poissonMeasure (toyRate _ 1).toNNReal = poissonMeasure 8
    rw [e1]; congr 1; norm_num

-- rates 10.4 and 3.8: 10 and 4 events, on average 6 and 8 in the bins
example : ∃ c : (ℕ → ℝ) → (Fin 2 → ℕ), ∫ us, (c us 0 : ℝ) ∂(Measure.infinitePi fun _ : ℕ => unitLaw) = 6 ∧
    ∫ us, (c us 1 : ℝ) ∂(Measure.infinitePi fun _ : ℕ => unitLaw) = 8 := by
  obtain ⟨c, _, _, h⟩ := C107_expected_rates (as := [exToyAxis]) (g := ⟨[exRealPdf "s" (1/2) (1/2), exRealPdf "b" (1/4) (3/4)], [52/5, 19/5]⟩) (by simp)
    (by
      intro d hd
      simp only [List.mem_cons, List.not_mem_nil, or_false] at hd
      rcases hd with rfl | rfl
      · exact exRealPdf_usable _ (by norm_num) (by norm_num) (by norm_num)
      · exact exRealPdf_usable _ (by norm_num) (by norm_num) (by norm_num)) rfl (ns := [10, 4])
    (by refine .cons ?_ (.cons ?_ .nil) <;> norm_num) ""
  refine ⟨c, (h ⟨0, by simp [shape, exToyAxis]⟩).trans ?_, (h ⟨1, by simp [shape, exToyAxis]⟩).trans ?_⟩ <;> simp [exRealPdf] <;> norm_num

-- fake data generated for b = 3, s = 2 and fitted: on average every other point is strictly worse
example (C : FitSys σ ℝ) (objs : Nat → σ) (b s : ℝ) (hb : 0 < b) (hs : 0 < s) (hne : b ≠ 3 ∨ s ≠ 2) :
    ∃ V₀ V : (Fin 2 → ℕ) × (ℕ → ℝ) → ℝ,
      (∀ᵐ z ∂(toyLaw (generatorAt exTwo [("b", 3), ("s", 2)]).rates), ∃ out, toyOf (generatorAt exTwo [("b", 3), ("s", 2)]) "" z = .ok out ∧
        fitValue exSysName C objs exTwo .empty out [("b", 3), ("s", 2)] = .ok (some (V₀ z)) ∧
        fitValue exSysName C objs exTwo .empty out [("b", b), ("s", s)] = .ok (some (V z))) ∧
      ∫ z, V₀ z ∂(toyLaw (generatorAt exTwo [("b", 3), ("s", 2)]).rates) < ∫ z, V z ∂(toyLaw (generatorAt exTwo [("b", 3), ("s", 2)]).rates) := by
  obtain ⟨V₀, V, h1, _, _, h3, h4⟩ := C107_fits (name := exSysName) (C := C) (objs := objs) (as := [exToyAxis]) (log := exTwo) (cons := .empty)
    (ps₀ := [("b", 3), ("s", 2)]) (ps := [("b", b), ("s", s)]) (c₀ := 0) (c := 0) (by simp [exTwo]) exTwo_usable
    (⟨(exTwo_canFit 0 0).distinct, (exTwo_canFit 0 0).order, (exTwo_canFit 0 0).obs, rfl⟩)
    (by
      intro p hp
      simp only [exTwo, List.mem_cons, List.not_mem_nil, or_false] at hp
      rcases hp with rfl | rfl <;> simp [normOf, NormStatus.fittable, exRealPdf, SMap.find, show ("b" : String) ≠ "s" by decide])
    (exTwo_point (1/2) (1/2) (b := 3) (s := 2) (by norm_num) (by norm_num) |> fun h => ⟨h.nonempty, h.sorted, h.all, h.positive, h.constraint⟩)
    (exTwo_point (1/2) (1/2) hb hs |> fun h => ⟨h.nonempty, h.sorted, h.all, h.positive, h.constraint⟩) ""
  refine ⟨V₀, V, h1, lt_of_le_of_ne (by rw [sub_zero, sub_zero] at h3; exact h3) (fun e => ?_)⟩
  have hr := h4.1 (by rw [sub_zero, sub_zero]; exact e)
  have r0 := hr 0 (by simp [shape, exToyAxis])
  have r1 := hr 1 (by simp [shape, exToyAxis])
  rw [(exTwo_rate b s).1, (exTwo_rate 3 2).1] at r0
  rw [(exTwo_rate b s).2, (exTwo_rate 3 2).2] at r1
  rcases hne with h | h
  · exact h (by linarith)
  · exact h (by linarith)

end Oxsx
