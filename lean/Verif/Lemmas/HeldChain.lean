import Verif.Spec.HeldChain
import Verif.Props.Converge
set_option linter.unusedSectionVars false
set_option linter.unusedSimpArgs false
set_option linter.unusedVariables false
/-
C116: a chain with fixed parameters is a chain in the free ones.
-/
namespace Oxsx
open MeasureTheory ProbabilityTheory
open scoped ENNReal NNReal

/-! ### Chains carried over by a map -/

/-- A chain `T'` carried along by a measurable map `g`: what `T` does on the image of `g` is what `T'` does below, with fewer random numbers. -/
theorem Ergodic.Chain.carry {X Y W U : Type} [MeasurableSpace X] [MeasurableSpace Y] [MeasurableSpace W] [MeasurableSpace U] {T' : Y → U → Y} {Q' : Measure U} [IsProbabilityMeasure Q'] {B' : Set Y} {π' : Measure Y} [IsProbabilityMeasure π'] {ε : ℝ}
    (h : Ergodic.Chain T' Q' B' π' ε) {T : X → W → X} {Q : Measure W} [SFinite Q] {B : Set X} (hT : Measurable (Function.uncurry T)) (hB : MeasurableSet B) {g : Y → X} (hg : Measurable g)
    {φ : W → U} (hφ : MeasurePreserving φ Q Q') (hgT : ∀ y ∈ B', ∀ w, T (g y) w = g (T' y (φ w))) (hgB : ∀ x, x ∈ B ↔ ∃ y ∈ B', g y = x) (hgB' : ∀ y, g y ∈ B → y ∈ B') :
    Ergodic.Chain T Q B (π'.map g) ε := by
  refine ⟨hT, hB, ?_, h.pos, h.le, ?_, ?_, ?_⟩
  · intro x hx w
    obtain ⟨y, hy, rfl⟩ := (hgB x).1 hx
    rw [hgT y hy]
    exact (hgB _).2 ⟨_, h.stays y hy _, rfl⟩
  · obtain ⟨ρ, h1, h2, h3⟩ := h.minor
    refine ⟨ρ.map g, Measure.isProbabilityMeasure_map hg.aemeasurable, ?_, fun x hx A hA => ?_⟩
    · rw [Measure.map_apply hg hB.compl]
      refine measure_mono_null (fun y hy hyB => hy ((hgB _).2 ⟨y, hyB, rfl⟩)) h2
    · obtain ⟨y, hy, rfl⟩ := (hgB x).1 hx
      rw [Measure.map_apply hg hA]
      refine (h3 y hy _ (hg hA)).trans (le_of_eq ?_)
      have hm : MeasurableSet {u | T' y u ∈ g ⁻¹' A} := (h.meas1 y) (hg hA)
      rw [← hφ.measure_preimage hm.nullMeasurableSet]
      congr 1
      ext w
      simp only [Set.mem_preimage, Set.mem_ofPred_eq]
      rw [hgT y hy]
  · rw [Measure.map_apply hg hB.compl]
    exact measure_mono_null (fun y hy hyB => hy ((hgB _).2 ⟨y, hyB, rfl⟩)) h.supp
  · intro f hf
    have hin : Measurable fun x => ∫⁻ w, f (T x w) ∂Q := by
      exact Measurable.lintegral_prod_right' (f := fun p : X × W => f (Function.uncurry T p)) (hf.comp hT)
    rw [lintegral_map hin hg, lintegral_map hf hg]
    refine Eq.trans ?_ (h.stat (fun y => f (g y)) (hf.comp hg))
    refine lintegral_congr_ae ?_
    have hae : ∀ᵐ y ∂π', y ∈ B' := h.supp
    filter_upwards [hae] with y hy
    have : Measurable fun u => f (g (T' y u)) := (hf.comp hg).comp (h.meas1 y)
    rw [← hφ.lintegral_comp this]
    exact lintegral_congr fun w => by rw [hgT y hy]

/-! ### Free and fixed parameters -/

section
variable {n : Nat} (F : Fin n → Prop)

open Classical in
/-- How many parameters are free. -/
noncomputable def freeCount : Nat := Fintype.card {i : Fin n // ¬ F i}

open Classical in
/-- The free parameters, numbered. -/
noncomputable def freeIndex : {i : Fin n // ¬ F i} ≃ Fin (freeCount F) := Fintype.equivFin _

/-- The free coordinates of a point. -/
noncomputable def freePart {α : Type} (x : Fin n → α) : Fin (freeCount F) → α := fun j => x ((freeIndex F).symm j).1

open Classical in
/-- The point with the given free coordinates and the fixed ones of `x0`. -/
noncomputable def withHeld (x0 : Fin n → ℝ) (z : Fin (freeCount F) → ℝ) : Fin n → ℝ := fun i => if h : F i then x0 i else z (freeIndex F ⟨i, h⟩)

theorem withHeld_held {x0 : Fin n → ℝ} {z : Fin (freeCount F) → ℝ} {i : Fin n} (h : F i) : withHeld F x0 z i = x0 i := dif_pos h

theorem withHeld_free {x0 : Fin n → ℝ} {z : Fin (freeCount F) → ℝ} {i : Fin n} (h : ¬ F i) : withHeld F x0 z i = z (freeIndex F ⟨i, h⟩) := dif_neg h

theorem freePart_withHeld (x0 : Fin n → ℝ) (z : Fin (freeCount F) → ℝ) : freePart F (withHeld F x0 z) = z := by
  funext j
  unfold freePart
  rw [withHeld_free F ((freeIndex F).symm j).2]
  simp

theorem withHeld_freePart {x0 x : Fin n → ℝ} (h : ∀ i, F i → x i = x0 i) : withHeld F x0 (freePart F x) = x := by
  funext i
  by_cases hi : F i
  · rw [withHeld_held F hi, h i hi]
  · rw [withHeld_free F hi]; unfold freePart; simp

theorem withHeld_measurable (x0 : Fin n → ℝ) : Measurable (withHeld F x0) := by
  refine measurable_pi_lambda _ fun i => ?_
  by_cases hi : F i
  · simp only [withHeld_held F hi]; exact measurable_const
  · simp only [withHeld_free F hi]; exact measurable_pi_apply _

theorem withHeld_continuous (x0 : Fin n → ℝ) : Continuous (withHeld F x0) := by
  refine continuous_pi fun i => ?_
  by_cases hi : F i
  · simp only [withHeld_held F hi]; exact continuous_const
  · simp only [withHeld_free F hi]; exact continuous_apply _

theorem freePart_measurable : Measurable (freePart F : (Fin n → ℝ) → _) := measurable_pi_lambda _ fun j => measurable_pi_apply _

open Classical in
theorem heldProd_split (f : Fin n → ℝ≥0∞) : ∏ i, f i = (∏ i : {i // F i}, f i.1) * ∏ j, f ((freeIndex F).symm j).1 := by
  rw [← Fintype.prod_subtype_mul_prod_subtype F f, ← (freeIndex F).symm.prod_comp (fun i : {i // ¬ F i} => f i.1)]

theorem withHeld_mem {lo hi x0 : Fin n → ℝ} (hx0 : ∀ i, F i → lo i ≤ x0 i ∧ x0 i ≤ hi i) (z : Fin (freeCount F) → ℝ) :
    withHeld F x0 z ∈ limitBox lo hi ↔ z ∈ limitBox (freePart F lo) (freePart F hi) := by
  constructor
  · intro h j
    have := h ((freeIndex F).symm j).1
    rw [withHeld_free F ((freeIndex F).symm j).2] at this
    simpa [freePart] using this
  · intro h i
    by_cases hi' : F i
    · rw [withHeld_held F hi']; exact hx0 i hi'
    · rw [withHeld_free F hi']
      have := h (freeIndex F ⟨i, hi'⟩)
      unfold freePart at this
      simpa using this

open Classical in
/-- The volumes in the free parameters are the ordinary ones. -/
theorem heldVolume_eq (lo hi x0 : Fin n → ℝ) :
    heldVolume lo hi F x0 = (volume.restrict (limitBox (freePart F lo) (freePart F hi))).map (withHeld F x0) := by
  have hsig : ∀ i, SigmaFinite ((if F i then Measure.dirac (x0 i) else volume.restrict (Set.Icc (lo i) (hi i))) : Measure ℝ) := by
    intro i; split <;> infer_instance
  unfold heldVolume
  refine Measure.pi_eq (μ := fun i => if F i then Measure.dirac (x0 i) else volume.restrict (Set.Icc (lo i) (hi i))) fun s hs => ?_
  rw [Measure.map_apply (withHeld_measurable F x0) (MeasurableSet.univ_pi hs), limitBox_eq, ← Set.pi_univ_Icc, volume_pi, Measure.restrict_pi_pi]
  have hpre : withHeld F x0 ⁻¹' Set.univ.pi s = if ∀ i, F i → x0 i ∈ s i then Set.univ.pi (freePart F s) else ∅ := by
    ext z
    simp only [Set.mem_preimage, Set.mem_univ_pi]
    split
    · rename_i h
      rw [Set.mem_univ_pi]
      constructor
      · intro hz j
        have := hz ((freeIndex F).symm j).1
        rw [withHeld_free F ((freeIndex F).symm j).2] at this
        simpa [freePart] using this
      · intro hz i
        by_cases hi' : F i
        · rw [withHeld_held F hi']; exact h i hi'
        · rw [withHeld_free F hi']
          have := hz (freeIndex F ⟨i, hi'⟩)
          unfold freePart at this
          simpa using this
    · rename_i h
      simp only [Set.mem_empty_iff_false, iff_false]
      intro hz
      exact h fun i hi' => by have := hz i; rwa [withHeld_held F hi'] at this
  rw [heldProd_split F, hpre]
  split
  · rename_i h
    rw [Measure.pi_pi]
    have h1 : ∏ i : {i // F i}, ((if F i.1 then Measure.dirac (x0 i.1) else volume.restrict (Set.Icc (lo i.1) (hi i.1))) : Measure ℝ) (s i.1) = 1 := by
      refine Finset.prod_eq_one fun i _ => ?_
      rw [if_pos i.2, Measure.dirac_apply' _ (hs _), Set.indicator_of_mem (h i.1 i.2)]; rfl
    rw [h1, one_mul]
    refine Finset.prod_congr rfl fun j _ => ?_
    rw [if_neg ((freeIndex F).symm j).2]; rfl
  · rename_i h
    push Not at h
    obtain ⟨i, hi', hx⟩ := h
    rw [measure_empty]
    symm
    refine mul_eq_zero_of_left (Finset.prod_eq_zero (Finset.mem_univ ⟨i, hi'⟩) ?_) _
    simp only [if_pos hi']
    rw [Measure.dirac_apply' _ (hs _), Set.indicator_of_notMem hx]

/-- The law of the free coordinates of independent Gaussian deviates. -/
theorem freePart_gauss : MeasurePreserving (freePart F) (Measure.pi fun _ : Fin n => gaussianReal 0 1) (Measure.pi fun _ : Fin (freeCount F) => gaussianReal 0 1) := by
  classical
  refine ⟨freePart_measurable F, (Measure.pi_eq fun s hs => ?_).symm⟩
  rw [Measure.map_apply (freePart_measurable F) (MeasurableSet.univ_pi hs)]
  have hpre : freePart F ⁻¹' Set.univ.pi s = Set.univ.pi fun i : Fin n => if h : F i then Set.univ else s (freeIndex F ⟨i, h⟩) := by
    ext x
    simp only [Set.mem_preimage, Set.mem_univ_pi]
    constructor
    · intro h i
      split
      · trivial
      · rename_i hi'
        have := h (freeIndex F ⟨i, hi'⟩)
        unfold freePart at this
        simpa using this
    · intro h j
      have := h ((freeIndex F).symm j).1
      rw [dif_neg ((freeIndex F).symm j).2] at this
      simpa [freePart] using this
  rw [hpre, Measure.pi_pi, heldProd_split F]
  have h1 : ∏ i : {i // F i}, (gaussianReal 0 1) (if h : F i.1 then Set.univ else s (freeIndex F ⟨i.1, h⟩)) = 1 :=
    Finset.prod_eq_one fun i _ => by rw [dif_pos i.2, measure_univ]
  rw [h1, one_mul]
  refine Finset.prod_congr rfl fun j _ => ?_
  rw [dif_neg ((freeIndex F).symm j).2]
  simp

/-! ### The chain in the free parameters -/

theorem metroStep_held {m : MCMC ℝ} {lo hi c x0 : Fin n → ℝ} {V : (Fin n → ℝ) → ℝ} (hx0 : ∀ i, F i → lo i ≤ x0 i ∧ x0 i ≤ hi i) (hc : ∀ i, F i → c i = 0) (z : Fin (freeCount F) → ℝ)
    (w : (Fin n → ℝ) × ℝ) : metroStep m lo hi V c (withHeld F x0 z) w =
      withHeld F x0 (metroStep m (freePart F lo) (freePart F hi) (fun z => V (withHeld F x0 z)) (freePart F c) z (freePart F w.1, w.2)) := by
  have hprop : (fun i => withHeld F x0 z i + c i * w.1 i) = withHeld F x0 (fun j => z j + freePart F c j * freePart F w.1 j) := by
    funext i
    by_cases hi' : F i
    · rw [withHeld_held F hi', withHeld_held F hi', hc i hi', zero_mul, add_zero]
    · rw [withHeld_free F hi', withHeld_free F hi']
      simp [freePart]
  unfold metroStep moveTo
  rw [hprop]
  have hcond := fun y : Fin (freeCount F) → ℝ => withHeld_mem F hx0 y
  by_cases h : (withHeld F x0 (fun j => z j + freePart F c j * freePart F w.1 j) ∈ limitBox lo hi ∧
      MCMC.accepts Real.exp m.logged (chainValue m V (withHeld F x0 (fun j => z j + freePart F c j * freePart F w.1 j))) (chainValue m V (withHeld F x0 z)) 0 w.2 = true)
  · rw [if_pos h, if_pos ⟨(hcond _).1 h.1, h.2⟩]
  · rw [if_neg h, if_neg fun h' => h ⟨(hcond _).2 h'.1, h'.2⟩]

theorem heldLaw_eq (lo hi x0 : Fin n → ℝ) {d : (Fin n → ℝ) → ℝ} (hd : Measurable d) :
    heldLaw lo hi F x0 d = (sampledLaw (freePart F lo) (freePart F hi) fun z => d (withHeld F x0 z)).map (withHeld F x0) := by
  have hm : Measurable fun x => ENNReal.ofReal (d x) := ENNReal.measurable_ofReal.comp hd
  have hg := withHeld_measurable F x0
  have e : (heldVolume lo hi F x0).withDensity (fun x => ENNReal.ofReal (d x)) =
      (targetLaw (freePart F lo) (freePart F hi) fun z => d (withHeld F x0 z)).map (withHeld F x0) := by
    refine Measure.ext fun A hA => ?_
    rw [heldVolume_eq, withDensity_apply _ hA, Measure.map_apply hg hA, setLIntegral_map hA hm hg]
    unfold targetLaw
    rw [withDensity_apply _ (hg hA)]
  unfold heldLaw sampledLaw
  rw [e, Measure.map_apply hg MeasurableSet.univ, Set.preimage_univ, Measure.map_smul]

theorem heldBox_measurable (lo hi x0 : Fin n → ℝ) : MeasurableSet (heldBox lo hi F x0) := by
  have : heldBox lo hi F x0 = limitBox lo hi ∩ {x | ∀ i, F i → x i = x0 i} := rfl
  rw [this]
  refine (measurableSet_limitBox lo hi).inter ?_
  have : {x : Fin n → ℝ | ∀ i, F i → x i = x0 i} = ⋂ i, ⋂ _ : F i, {x | x i = x0 i} := by ext x; simp
  rw [this]
  exact MeasurableSet.iInter fun i => MeasurableSet.iInter fun _ => measurableSet_eq_fun (measurable_pi_apply i) measurable_const

/-- The Metropolis chain with fixed parameters. -/
theorem held_chain {m : MCMC ℝ} {lo hi c x0 : Fin n → ℝ} {V : (Fin n → ℝ) → ℝ} (hV : Measurable V) (hd : m.logged = true ∨ ∀ x, 0 < chainValue m V x)
    (hc0 : ∀ i, F i → c i = 0) (hc : ∀ i, ¬ F i → c i ≠ 0) (hlt : ∀ i, ¬ F i → lo i < hi i) (hx0 : ∀ i, F i → lo i ≤ x0 i ∧ x0 i ≤ hi i)
    (hb : ∃ a b, 0 < a ∧ ∀ x ∈ heldBox lo hi F x0, a ≤ chainDensity m V x ∧ chainDensity m V x ≤ b) :
    IsProbabilityMeasure (heldLaw lo hi F x0 (chainDensity m V)) ∧
    ∃ ε, Ergodic.Chain (metroStep m lo hi V c) (stepLaw n) (heldBox lo hi F x0) (heldLaw lo hi F x0 (chainDensity m V)) ε := by
  set V' : (Fin (freeCount F) → ℝ) → ℝ := fun z => V (withHeld F x0 z) with hV'
  have hmV : Measurable V' := hV.comp (withHeld_measurable F x0)
  have hlt' : ∀ j, freePart F lo j < freePart F hi j := fun j => hlt _ ((freeIndex F).symm j).2
  have hd' : m.logged = true ∨ ∀ z, 0 < chainValue m V' z := hd.imp_right fun h z => h _
  have hin : ∀ z, withHeld F x0 z ∈ heldBox lo hi F x0 ↔ z ∈ limitBox (freePart F lo) (freePart F hi) := fun z =>
    ⟨fun h => (withHeld_mem F hx0 z).1 h.1, fun h => ⟨(withHeld_mem F hx0 z).2 h, fun i hi' => withHeld_held F hi'⟩⟩
  have hb' : Bounded (freePart F lo) (freePart F hi) (chainDensity m V') := by
    obtain ⟨a, b, ha, h⟩ := hb
    exact ⟨a, b, ha, fun z hz => h _ ((hin z).2 hz)⟩
  have hp := sampledLaw_prob hlt' hb'
  have hmd : Measurable (chainDensity m V) := by
    have : Measurable (chainValue m V) := by unfold chainValue; split; exacts [hV.neg, hV]
    unfold chainDensity
    split
    · exact Real.measurable_exp.comp this
    · exact this
  have hheld := heldLaw_eq F lo hi x0 hmd
  have hch : (fun z => chainDensity m V (withHeld F x0 z)) = chainDensity m V' := rfl
  rw [hch] at hheld
  rw [hheld]
  refine ⟨Measure.isProbabilityMeasure_map (withHeld_measurable F x0).aemeasurable, ?_⟩
  obtain ⟨ε, hε⟩ := metro_chain (c := freePart F c) hmV hd' (fun j => hc _ ((freeIndex F).symm j).2) hlt' hb' fun f hf => by
    rw [← metropolis_stationary hmV hd' (freePart F c) f hf 1]
    refine lintegral_congr fun x => ?_
    rw [Function.iterate_one, afterStep_metro hmV hf]
  refine ⟨ε, hε.carry (metroStep_measurable hV) (heldBox_measurable F lo hi x0) (withHeld_measurable F x0) (φ := fun w => (freePart F w.1, w.2)) ?_ (fun z _ w => metroStep_held F hx0 hc0 z w) ?_
    fun z h => (hin z).1 h⟩
  · unfold stepLaw
    exact (freePart_gauss F).prod (MeasurePreserving.id _)
  · intro x
    constructor
    · intro h
      have e := withHeld_freePart F h.2
      exact ⟨freePart F x, (hin _).1 (by rw [e]; exact h), e⟩
    · rintro ⟨z, hz, rfl⟩
      exact (hin z).2 hz
end

end Oxsx
