import Verif.Spec.SampleLaw
import Verif.Props.EventConvolution
import Verif.Props.Configured
import Verif.Lemmas.Stationary
import Mathlib.Probability.Independence.InfinitePi
set_option linter.unusedSectionVars false
set_option linter.unusedSimpArgs false
set_option linter.unusedVariables false
/-
C118: random draws from functions and kernels follow the densities they compute.
-/
namespace Oxsx
open MeasureTheory ProbabilityTheory
open scoped ENNReal

instance : IsProbabilityMeasure gaussNoise := by unfold gaussNoise; infer_instance

/-- Some deviates of the sequence are independent normal ones. -/
theorem gaussNoise_window (k n : Nat) : gaussNoise.map (fun seq (i : Fin n) => seq (k + i)) = Measure.pi fun _ : Fin n => gaussianReal 0 1 := by
  have h := iIndepFun_infinitePi (P := fun _ : ℕ => gaussianReal 0 1) (X := fun _ (x : ℝ) => x) (fun _ => measurable_id)
  have h2 := h.precomp (g := fun i : Fin n => k + i.1) (fun a b e => Fin.ext (by simpa using e))
  have h3 := (iIndepFun_iff_map_fun_eq_pi_map (fun i : Fin n => (measurable_pi_apply (X := fun _ : ℕ => ℝ) (k + i.1)).aemeasurable)).1 h2
  show (Measure.infinitePi fun _ : ℕ => gaussianReal 0 1).map (fun ω (i : Fin n) => ω (k + i.1)) = _
  refine Eq.trans h3 ?_
  congr 1
  funext i
  exact Measure.infinitePi_map_eval (fun _ : ℕ => gaussianReal 0 1) (k + i.1)

theorem gaussian_scaled (a c : ℝ) : (gaussianReal 0 1).map (fun z => a + c * z) = gaussianReal a (variance c) := by
  have h1 := gaussianReal_map_const_mul (μ := 0) (v := 1) c
  have h2 := gaussianReal_map_const_add (μ := c * 0) (v := NNReal.mk (c ^ 2) (sq_nonneg _) * 1) a
  rw [← h1, Measure.map_map (measurable_const_add _) (measurable_const_mul _), mul_one, mul_zero, zero_add] at h2
  exact h2

theorem scaled_measurable {n : Nat} (k : Nat) (a c : Fin n → ℝ) : Measurable fun (seq : ℕ → ℝ) (i : Fin n) => a i + c i * seq (k + i) :=
  measurable_pi_iff.2 fun i => ((measurable_pi_apply (X := fun _ : ℕ => ℝ) (k + i.1)).const_mul (c i)).const_add (a i)

theorem scaled_law {n : Nat} (k : Nat) (a c : Fin n → ℝ) : gaussNoise.map (fun seq (i : Fin n) => a i + c i * seq (k + i)) = Measure.pi fun i => gaussianReal (a i) (variance (c i)) := by
  have h := Measure.pi_map_pi (μ := fun _ : Fin n => gaussianReal 0 1) (f := fun i z => a i + c i * z) (fun i => ((measurable_const_mul _).const_add _).aemeasurable)
  rw [← gaussNoise_window k n, Measure.map_map] at h
  · refine Eq.trans h ?_
    congr 1
    funext i
    exact gaussian_scaled (a i) (c i)
  · exact measurable_pi_iff.2 fun i => ((measurable_pi_apply (X := fun _ : Fin n => ℝ) i).const_mul (c i)).const_add (a i)
  · exact measurable_pi_iff.2 fun i => measurable_pi_apply (X := fun _ : ℕ => ℝ) (k + i.1)

theorem scaled_density {n : Nat} (k : Nat) (a : Fin n → ℝ) {c : Fin n → ℝ} (hc : ∀ i, 0 < c i) :
    gaussNoise.map (fun seq (i : Fin n) => a i + c i * seq (k + i)) = volume.withDensity fun x : Fin n → ℝ => ENNReal.ofReal (∏ i, gaussianPDFReal (a i) (variance (c i)) (x i)) := by
  rw [scaled_law]
  have e : ∀ i, gaussianReal (a i) (variance (c i)) = volume.withDensity (gaussianPDF (a i) (variance (c i))) := fun i => gaussianReal_of_var_ne_zero _ (variance_ne (hc i))
  have hs : ∀ i, SigmaFinite (volume.withDensity (gaussianPDF (a i) (variance (c i)))) := fun i => by rw [← e i]; infer_instance
  rw [show (fun i => gaussianReal (a i) (variance (c i))) = fun i => volume.withDensity (gaussianPDF (a i) (variance (c i))) from funext e,
    pi_withDensity_fin (fun i => gaussianPDF (a i) (variance (c i))) fun i => measurable_gaussianPDF _ _]
  congr 1
  funext x
  rw [ENNReal.ofReal_prod_of_nonneg fun i _ => gaussianPDFReal_nonneg _ _ _]
  rfl

/-- A draw from a Gaussian. -/
theorem Gaussian.sample_eq {g : Gaussian ℝ} (h : g.Ok) (seq : ℕ → ℝ) (k : Nat) :
    g.sample ⟨seq, k⟩ = .ok (List.ofFn fun i : Fin g.nDims => g.means.getD i 0 + g.stdDevs.getD i 0 * seq (k + i), ⟨seq, k + g.nDims⟩) := by
  have gen : ∀ n, n ≤ g.nDims → Res.forFold (Gaussian.sampleStep g) (List.replicate g.nDims 0, ⟨seq, k⟩) (List.range n) =
      .ok ((List.range g.nDims).map fun i => if i < n then g.means.getD i 0 + g.stdDevs.getD i 0 * seq (k + i) else 0, ⟨seq, k + n⟩) := by
    intro n
    induction n with
    | zero => intro _; simp [Res.forFold]
    | succ n ih =>
      intro hn
      rw [List.range_succ, Res.forFold_append, ih (by omega)]
      simp only [Res.bind, Res.forFold, Gaussian.sampleStep]
      rw [at_getD (by rw [h.means]; omega), Res.ok_bind, at_getD (by rw [h.sds]; omega), Res.ok_bind, setIdx_of_lt (by simp; omega)]
      simp only [Res.ok_bind, Draws.gaus]
      congr 2
      apply List.ext_getElem?
      intro i
      rw [List.getElem?_set]
      by_cases hi : n = i
      · subst hi
        simp [show n < g.nDims by omega]
      · rw [if_neg hi]
        by_cases hl : i < g.nDims
        · simp only [List.getElem?_map, List.getElem?_range hl, Option.map_some]
          by_cases a : i < n
          · rw [if_pos a, if_pos (by omega)]
          · rw [if_neg a, if_neg (by omega)]
        · simp [List.getElem?_eq_none, hl]
  unfold Gaussian.sample
  rw [gen g.nDims le_rfl]
  congr 2
  apply List.ext_getElem?
  intro i
  by_cases hl : i < g.nDims
  · simp [hl]
  · simp [List.getElem?_eq_none, hl]

theorem Gaussian.sd_pos {g : Gaussian ℝ} (h : g.Ok) (hs : ∀ s ∈ g.stdDevs, 0 < s) (i : Fin g.nDims) : 0 < g.stdDevs.getD i 0 := by
  have : (i : Nat) < g.stdDevs.length := by rw [h.sds]; exact i.2
  rw [List.getD_eq_getElem?_getD, List.getElem?_eq_getElem this]
  exact hs _ (List.getElem_mem this)

theorem Gaussian.eval_ofFn {g : Gaussian ℝ} (h : g.Ok) (hs : ∀ s ∈ g.stdDevs, 0 < s) (x : Fin g.nDims → ℝ) :
    g.eval Real.exp √(2 * Real.pi) (List.ofFn x) = .ok (∏ i : Fin g.nDims, gaussianPDFReal (g.means.getD i 0) (variance (g.stdDevs.getD i 0)) (x i)) := by
  rw [C77_value h hs, if_pos (by simp), ← Fin.prod_univ_eq_prod_range (fun i => gaussianPDFReal (g.means.getD i 0) (variance (g.stdDevs.getD i 0)) ((List.ofFn x).getD i 0))]
  congr 1
  apply Finset.prod_congr rfl
  intro i _
  congr 1
  rw [List.getD_eq_getElem?_getD, List.getElem?_eq_getElem (by simp)]
  simp

/-- C118, functions: draws from a Gaussian of any number of dimensions follow the density that evaluating it gives. -/
theorem C118_gaussian {g : Gaussian ℝ} (h : g.Ok) (hs : ∀ s ∈ g.stdDevs, 0 < s) : DrawsDensity g.nDims g.sample (g.eval Real.exp √(2 * Real.pi)) := fun k =>
  ⟨_, _, scaled_measurable k _ _, fun seq => Gaussian.sample_eq h seq k, Gaussian.eval_ofFn h hs, scaled_density k _ (Gaussian.sd_pos h hs)⟩

theorem JumpPDF.sample_ofFn {j : JumpPDF ℝ} {g : Gaussian ℝ} (hj : j.pdf = some g) (h : g.Ok) {y : List ℝ} (hy : g.nDims ≤ y.length) (seq : ℕ → ℝ) (k : Nat) :
    j.sample y ⟨seq, k⟩ = .ok (List.ofFn fun i : Fin g.nDims => (y.getD i 0 + g.means.getD i 0) + g.stdDevs.getD i 0 * seq (k + i), ⟨seq, k + g.nDims⟩) := by
  unfold JumpPDF.sample
  rw [hj]
  simp only
  rw [Gaussian.sample_eq h seq k]
  simp only [Res.ok_bind, JumpPDF.sum]
  rw [if_neg (by simpa using hy), Res.ok_bind]
  congr 2
  apply List.ext_getElem (by simpa using hy)
  intro i h1 h2
  simp only [List.length_ofFn] at h2
  simp only [List.getElem_zipWith, List.getElem_ofFn]
  rw [List.getD_eq_getElem?_getD (l := y), List.getElem?_eq_getElem (by omega)]
  simp only [Option.getD_some]
  ring

theorem pdf_shift (m : ℝ) (v : NNReal) (x y : ℝ) : gaussianPDFReal m v (x - y) = gaussianPDFReal (y + m) v x := by
  rw [gaussianPDFReal, gaussianPDFReal]
  congr 3
  ring

theorem JumpPDF.probability_ofFn {j : JumpPDF ℝ} {g : Gaussian ℝ} (hj : j.pdf = some g) (h : g.Ok) (hs : ∀ s ∈ g.stdDevs, 0 < s) {y : List ℝ} (hy : g.nDims ≤ y.length) (x : Fin g.nDims → ℝ) :
    j.probability Real.exp √(2 * Real.pi) (List.ofFn x) y = .ok (∏ i : Fin g.nDims, gaussianPDFReal (y.getD i 0 + g.means.getD i 0) (variance (g.stdDevs.getD i 0)) (x i)) := by
  unfold JumpPDF.probability JumpPDF.diff
  rw [hj]
  simp only
  rw [if_neg (by simpa using hy), Res.ok_bind]
  have e : List.zipWith (· - ·) (List.ofFn x) y = List.ofFn fun i : Fin g.nDims => x i - y.getD i 0 := by
    apply List.ext_getElem (by simpa using hy)
    intro i h1 h2
    simp only [List.length_ofFn] at h2
    simp only [List.getElem_zipWith, List.getElem_ofFn]
    rw [List.getD_eq_getElem?_getD (l := y), List.getElem?_eq_getElem (by omega)]
    rfl
  rw [e, Gaussian.eval_ofFn h hs]
  congr 1
  exact Finset.prod_congr rfl fun i _ => pdf_shift ..

/-- C118, jumps: the points drawn by a jump from `y` follow the conditional density of going there from `y`. -/
theorem C118_jump {j : JumpPDF ℝ} {g : Gaussian ℝ} (hj : j.pdf = some g) (h : g.Ok) (hs : ∀ s ∈ g.stdDevs, 0 < s) {y : List ℝ} (hy : g.nDims ≤ y.length) :
    DrawsDensity g.nDims (j.sample y) fun x => j.probability Real.exp √(2 * Real.pi) x y := fun k =>
  ⟨_, _, scaled_measurable k _ _, fun seq => JumpPDF.sample_ofFn hj h hy seq k, JumpPDF.probability_ofFn hj h hs hy, scaled_density k _ (Gaussian.sd_pos h hs)⟩

theorem puts_positive {g : Gaussian ℝ} (d : ParamDict ℝ) (hs : ∀ s ∈ g.stdDevs, 0 < s) (hd : ∀ q ∈ d, q.1 ∈ g.sdNames → 0 < q.2) :
    (d.foldl (fun g q => g.put q.1 q.2) g).nDims = g.nDims ∧ ∀ s ∈ (d.foldl (fun g q => g.put q.1 q.2) g).stdDevs, 0 < s := by
  induction d generalizing g with
  | nil => exact ⟨rfl, hs⟩
  | cons q r ih =>
    refine ih (g := g.put q.1 q.2) ?_ fun p hp hm => hd p (by simp [hp]) hm
    intro s h
    unfold Gaussian.put setNamed at h
    simp only at h
    obtain ⟨i, hi, rfl⟩ := List.mem_iff_getElem.1 h
    rw [List.getElem_zipWith]
    by_cases e : g.sdNames[i]'(by simp at hi; omega) = q.1
    · rw [if_pos e]
      exact hd q (by simp) (by rw [← e]; exact List.getElem_mem _)
    · rw [if_neg e]
      exact hs _ (List.getElem_mem _)

/-- C118, kernels whose parameters vary: the points drawn from `y` follow the conditional density of going there from `y`, with the parameters that their functions give at `y`. -/
theorem C118_varying {v : VaryingCDF ℝ} {j : JumpPDF ℝ} {g : Gaussian ℝ} (hk : v.kernel = some j) (hj : j.pdf = some g) (h : g.Ok) (hs : ∀ s ∈ g.stdDevs, 0 < s)
    (hg : ∀ p ∈ v.functions, p.1 ∈ g.sdNames → 0 < p.2.gradient) {y : ℝ} {ys : List ℝ} (hy0 : y ≠ 0) (hy : g.nDims ≤ (y :: ys).length) :
    DrawsDensity g.nDims (fun z => v.sample Real.sqrt (y :: ys) z >>= fun r => Res.ok r.1) fun x => v.probability Real.sqrt Real.exp √(2 * Real.pi) x (y :: ys) >>= fun r => Res.ok r.1 := by
  obtain ⟨e1, e2⟩ := Gaussian.setParameters_puts h (v.governed Real.sqrt y)
  obtain ⟨d1, d2⟩ := puts_positive (v.governed Real.sqrt y) hs (by
    intro q hq hm
    obtain ⟨p, hp, rfl⟩ := List.mem_map.1 hq
    exact mul_pos (hg p hp hm) (Real.sqrt_pos.2 (abs_pos.2 hy0)))
  set g' := (v.governed Real.sqrt y).foldl (fun g q => g.put q.1 q.2) g with hg'
  have key := C118_jump (j := { j with pdf := some g' }) rfl e2 d2 (y := y :: ys) (by rw [d1]; exact hy)
  rw [d1] at key
  intro k
  obtain ⟨S, f, k1, k2, k3, k4⟩ := key k
  refine ⟨S, f, k1, fun seq => ?_, fun x => ?_, k4⟩
  · unfold VaryingCDF.sample
    rw [hk]
    simp only
    rw [VaryingCDF.setup_eq]
    simp only [Res.ok_bind, JumpPDF.setParameters, hj]
    rw [e1]
    simp only [Res.ok_bind]
    rw [k2 seq]
    rfl
  · unfold VaryingCDF.probability
    rw [hk]
    simp only
    rw [VaryingCDF.setup_eq]
    simp only [Res.ok_bind, JumpPDF.setParameters, hj]
    rw [e1]
    simp only [Res.ok_bind]
    have e := k3 x
    simp only at e
    rw [e]
    rfl

/-- C118, events: the smeared values of any number of events are independent, each normal about its old value with the mean and width the kernel has there; nothing else about the events changes. -/
theorem C118_events {c : EventConvolution ℝ} {names : List String} {o : String} {m s : ℝ → ℝ} (h : c.Smears Real.sqrt names o m s) {es : List (Event ℝ)} (he : ∀ e ∈ es, e.Complete names)
    {x : Fin es.length → ℝ} (hx : ∀ i, es[i].value o = some (x i)) (k : Nat) :
    ∃ X : (ℕ → ℝ) → Fin es.length → ℝ, Measurable X ∧ gaussNoise.map X = (Measure.pi fun i => gaussianReal (x i + m (x i)) (variance (s (x i)))) ∧
      ∀ seq, ∃ es' c', c.applySeq Real.sqrt es ⟨seq, k⟩ = .ok (es', ⟨seq, k + es.length⟩, c') ∧ es'.length = es.length ∧ c'.Smears Real.sqrt names o m s ∧
        ∀ (i : Fin es.length) e', es'[i.1]? = some e' → e'.Complete names ∧ e'.value o = some (X seq i) ∧ ∀ n, n ≠ o → e'.value n = es[i].value n := by
  refine ⟨fun seq i => (x i + m (x i)) + s (x i) * seq (k + i), scaled_measurable k _ _, scaled_law k _ _, fun seq => ?_⟩
  obtain ⟨es', c', a1, a2, a3, a4⟩ := C86_sequence Real.sqrt h he ⟨seq, k⟩
  refine ⟨es', c', a1, a2, a3, fun i e' h' => ?_⟩
  obtain ⟨b1, b2, y, b3, b4⟩ := a4 i es[i] e' (by simp) h'
  have hy : y = x i := Option.some.inj (b3.symm.trans (hx i))
  subst hy
  exact ⟨b1, by rw [b4]; exact congrArg some (add_assoc _ _ _).symm, b2⟩

theorem expected_of_law {n : Nat} {X : (ℕ → ℝ) → Fin n → ℝ} (hX : Measurable X) {μ σ : Fin n → ℝ} (hσ : ∀ i, 0 < σ i) (h : gaussNoise.map X = Measure.pi fun i => gaussianReal (μ i) (variance (σ i)))
    {a b : ℝ} (hab : a ≤ b) : ∫ seq, ∑ i, (Set.Ioc a b).indicator (fun _ => (1 : ℝ)) (X seq i) ∂gaussNoise = ∑ i, (normalCdf (b - μ i) (σ i) - normalCdf (a - μ i) (σ i)) := by
  have hm : ∀ i, Measurable fun seq => X seq i := fun i => (measurable_pi_apply i).comp hX
  have hmi : Measurable ((Set.Ioc a b).indicator fun _ : ℝ => (1 : ℝ)) := measurable_const.indicator measurableSet_Ioc
  rw [integral_finsetSum]
  · refine Finset.sum_congr rfl fun i _ => ?_
    have law : gaussNoise.map (fun seq => X seq i) = gaussianReal (μ i) (variance (σ i)) := by
      have : (fun seq => X seq i) = (fun y : Fin n → ℝ => y i) ∘ X := rfl
      rw [this, ← Measure.map_map (measurable_pi_apply i) hX, h]
      exact (measurePreserving_eval (fun i => gaussianReal (μ i) (variance (σ i))) i).map_eq
    rw [← integral_map (φ := fun seq => X seq i) (hm i).aemeasurable hmi.aestronglyMeasurable, law, integral_indicator_const _ measurableSet_Ioc, smul_eq_mul, mul_one, normalCdf_diff hab,
      Measure.real, gaussianReal_apply_eq_integral _ (variance_ne (hσ i)), ENNReal.toReal_ofReal (setIntegral_nonneg measurableSet_Ioc fun t _ => gaussianPDFReal_nonneg _ _ _)]
  · intro i _
    refine Integrable.of_bound (C := 1) (hmi.comp (hm i)).aestronglyMeasurable (Filter.Eventually.of_forall fun seq => ?_)
    unfold Set.indicator
    split <;> simp

theorem filter_sum {β : Type} (p : β → Prop) [DecidablePred p] (l : List β) : ((l.filter fun e => decide (p e)).length : ℝ) = ∑ i : Fin l.length, if p l[i] then (1 : ℝ) else 0 := by
  induction l with
  | nil => simp
  | cons a r ih =>
    rw [List.filter_cons]
    have e : ∑ i : Fin (a :: r).length, (if p (a :: r)[i] then (1 : ℝ) else 0) = (if p a then 1 else 0) + ∑ i : Fin r.length, if p r[i] then (1 : ℝ) else 0 := by
      show ∑ i : Fin (r.length + 1), _ = _
      rw [Fin.sum_univ_succ]
      rfl
    rw [e, ← ih]
    by_cases h : p a
    · simp [h]; ring
    · simp [h]

/-- The integral of a one-dimensional jump within the cut-off. -/
theorem jump_mass {j : JumpPDF ℝ} {g : Gaussian ℝ} {mean sd : ℝ} {mn sn : String} (hj : j.pdf = some g) (hl : g.Line mean sd mn sn) (a b x : ℝ)
    (hc : ∀ e, e = a ∨ e = b → |(e - x - mean) / sd| ≤ g.cutOff) : j.integral normalCdf [a] [b] [x] = .ok (normalCdf (b - (x + mean)) sd - normalCdf (a - (x + mean)) sd) := by
  unfold JumpPDF.integral JumpPDF.diff
  rw [hj]
  simp only [List.length_cons, List.length_nil, lt_irrefl, if_false, Res.ok_bind, List.zipWith_cons_cons, List.zipWith_nil_left]
  rw [C77_integral normalCdf hl.ok, if_pos (by rw [hl.dims]; exact ⟨rfl, rfl⟩), hl.dims, hl.means, hl.sds]
  have e : ∀ t, |(t - x - mean) / sd| ≤ g.cutOff → clipped normalCdf g.cutOff mean sd (t - x) = normalCdf (t - (x + mean)) sd := by
    intro t ht
    obtain ⟨p, q⟩ := abs_le.1 ht
    unfold clipped
    rw [if_neg (not_lt.2 q), if_neg (not_lt.2 p), sub_sub]
  simp only [Finset.range_one, Finset.prod_singleton, List.getD_cons_zero]
  rw [e b (hc b (.inr rfl)), e a (hc a (.inl rfl))]

open Classical in
/-- How many of these events have a value of `o` above `a` and not above `b`. -/
noncomputable def countBetween (o : String) (a b : ℝ) (es : List (Event ℝ)) : Nat := (es.filter fun e => decide (∃ v, e.value o = some v ∧ a < v ∧ v ≤ b)).length

/-- The average number of events that end between `a` and `b`. -/
theorem expected_count {c : EventConvolution ℝ} {names : List String} {o : String} {m s : ℝ → ℝ} (h : c.Smears Real.sqrt names o m s) {es : List (Event ℝ)} (he : ∀ e ∈ es, e.Complete names)
    {x : Fin es.length → ℝ} (hx : ∀ i, es[i].value o = some (x i)) (hs : ∀ i, 0 < s (x i)) {a b : ℝ} (hab : a ≤ b) (k : Nat) :
    ∃ out : (ℕ → ℝ) → List (Event ℝ), (∀ seq, ∃ c', c.applySeq Real.sqrt es ⟨seq, k⟩ = .ok (out seq, ⟨seq, k + es.length⟩, c')) ∧
      ∫ seq, (countBetween o a b (out seq) : ℝ) ∂gaussNoise = ∑ i, (normalCdf (b - (x i + m (x i))) (s (x i)) - normalCdf (a - (x i + m (x i))) (s (x i))) := by
  obtain ⟨X, h1, h2, h3⟩ := C118_events h he hx k
  choose out c' g1 g2 g3 g4 using h3
  refine ⟨out, fun seq => ⟨c' seq, g1 seq⟩, ?_⟩
  rw [← expected_of_law h1 hs h2 hab]
  congr 1
  funext seq
  classical
  unfold countBetween
  have := filter_sum (fun e : Event ℝ => ∃ v, e.value o = some v ∧ a < v ∧ v ≤ b) (out seq)
  refine Eq.trans (by convert this) ?_
  refine (Fin.sum_congr' _ (g2 seq).symm).symm.trans ?_
  refine Finset.sum_congr rfl fun i _ => ?_
  have hi : i.1 < (out seq).length := by rw [g2 seq]; exact i.2
  obtain ⟨_, q, _⟩ := g4 seq i ((out seq)[i.1]'hi) (List.getElem?_eq_getElem hi)
  have iff : (∃ v, ((out seq)[i.1]'hi).value o = some v ∧ a < v ∧ v ≤ b) ↔ X seq i ∈ Set.Ioc a b := by
    rw [q]
    refine ⟨?_, fun hh => ⟨_, rfl, hh.1, hh.2⟩⟩
    rintro ⟨v, hv, p1, p2⟩
    rw [Option.some.inj hv]
    exact ⟨p1, p2⟩
  by_cases hh : X seq i ∈ Set.Ioc a b
  · rw [Set.indicator_of_mem hh]
    exact if_pos (iff.2 hh)
  · rw [Set.indicator_of_notMem hh]
    exact if_neg fun w => hh (iff.1 w)

/-- C118, smearing events and smearing distributions agree: when events are smeared by a one-dimensional kernel, the average number that end between `a` and `b` is the sum over the events of the integral
of the kernel from the event's old value over that interval, which is what the convolution of a distribution uses. -/
theorem C118_expected {c : EventConvolution ℝ} {names : List String} {o : String} {j : JumpPDF ℝ} {g : Gaussian ℝ} {mean sd : ℝ} {mn sn : String} (hk : c.dist = some (.jump j)) (hj : j.pdf = some g)
    (hl : g.Line mean sd mn sn) (hsd : 0 < sd) (ho : ∃ os, c.outObs.names = o :: os ∧ ∀ n ∈ o :: os, n ∈ names) {es : List (Event ℝ)} (he : ∀ e ∈ es, e.Complete names)
    {x : Fin es.length → ℝ} (hx : ∀ i, es[i].value o = some (x i)) {a b : ℝ} (hab : a ≤ b) (hc : ∀ i, ∀ e, e = a ∨ e = b → |(e - x i - mean) / sd| ≤ g.cutOff) (k : Nat) :
    ∃ (out : (ℕ → ℝ) → List (Event ℝ)) (I : Fin es.length → ℝ), (∀ seq, ∃ c', c.applySeq Real.sqrt es ⟨seq, k⟩ = .ok (out seq, ⟨seq, k + es.length⟩, c')) ∧
      (∀ i, j.integral normalCdf [a] [b] [x i] = .ok (I i)) ∧ ∫ seq, (countBetween o a b (out seq) : ℝ) ∂gaussNoise = ∑ i, I i := by
  obtain ⟨out, h1, h2⟩ := expected_count (c := c) (names := names) (o := o) (m := fun _ => mean) (s := fun _ => sd) ⟨⟨_, hk, ⟨g, mean, sd, mn, sn, hj, hl, fun _ => rfl, fun _ => rfl⟩⟩, ho⟩ he hx
    (fun _ => hsd) hab k
  exact ⟨out, _, h1, fun i => jump_mass hj hl a b (x i) (hc i), h2⟩

theorem puts_cutOff (g : Gaussian ℝ) (d : ParamDict ℝ) : (d.foldl (fun g q => g.put q.1 q.2) g).cutOff = g.cutOff := by
  induction d generalizing g with
  | nil => rfl
  | cons q r ih => exact ih (g.put q.1 q.2)

/-- C118, the same with a kernel whose mean and width vary: each event contributes the integral from its old value with the parameters given there. -/
theorem C118_expected_varying {c : EventConvolution ℝ} {names : List String} {o : String} {v : VaryingCDF ℝ} {j : JumpPDF ℝ} {g : Gaussian ℝ} {mean sd : ℝ} {mn sn : String} (hk : c.dist = some (.varying v))
    (hv : v.kernel = some j) (hj : j.pdf = some g) (hl : g.Line mean sd mn sn) (hsort : v.functions.Sorted) (ho : ∃ os, c.outObs.names = o :: os ∧ ∀ n ∈ o :: os, n ∈ names)
    {es : List (Event ℝ)} (he : ∀ e ∈ es, e.Complete names) {x : Fin es.length → ℝ} (hx : ∀ i, es[i].value o = some (x i)) (hsd : ∀ i, 0 < governedOr Real.sqrt v.functions sn sd (x i)) {a b : ℝ} (hab : a ≤ b)
    (hc : ∀ i, ∀ e, e = a ∨ e = b → |(e - x i - governedOr Real.sqrt v.functions mn mean (x i)) / governedOr Real.sqrt v.functions sn sd (x i)| ≤ g.cutOff) (k : Nat) :
    ∃ (out : (ℕ → ℝ) → List (Event ℝ)) (I : Fin es.length → ℝ), (∀ seq, ∃ c', c.applySeq Real.sqrt es ⟨seq, k⟩ = .ok (out seq, ⟨seq, k + es.length⟩, c')) ∧
      (∀ i, ∃ v', v.integral Real.sqrt normalCdf [a] [b] [x i] = .ok (I i, v')) ∧ ∫ seq, (countBetween o a b (out seq) : ℝ) ∂gaussNoise = ∑ i, I i := by
  obtain ⟨out, h1, h2⟩ := expected_count (c := c) (names := names) (o := o) (m := governedOr Real.sqrt v.functions mn mean) (s := governedOr Real.sqrt v.functions sn sd)
    ⟨⟨_, hk, ⟨j, g, mean, sd, mn, sn, hv, hj, hl, hsort, fun _ => rfl, fun _ => rfl⟩⟩, ho⟩ he hx hsd hab k
  refine ⟨out, _, h1, fun i => ?_, h2⟩
  obtain ⟨g', hset, hl'⟩ := hl.setParameters (d := v.governed Real.sqrt (x i)) (VaryingCDF.governed_sorted Real.sqrt hsort (x i))
  have gov : ∀ n y, (SMap.find (v.governed Real.sqrt (x i)) n).getD y = governedOr Real.sqrt v.functions n y (x i) := by
    intro n y
    rw [VaryingCDF.governed_find]
    unfold governedOr
    cases SMap.find v.functions n <;> rfl
  rw [gov, gov] at hl'
  have hcut : g'.cutOff = g.cutOff := by
    have e := (Gaussian.setParameters_puts hl.ok (v.governed Real.sqrt (x i))).1
    rw [← Res.ok.inj (e.symm.trans hset)]
    exact puts_cutOff ..
  refine ⟨{ v with kernel := some { j with pdf := some g' } }, ?_⟩
  unfold VaryingCDF.integral
  rw [hv]
  simp only
  rw [VaryingCDF.setup_eq]
  simp only [Res.ok_bind, JumpPDF.setParameters, hj, hset]
  rw [jump_mass (j := { j with pdf := some g' }) rfl hl' a b (x i) (by rw [hcut]; exact hc i)]
  rfl

/-! Concrete cases -/

theorem exGauss_pos : ∀ s ∈ ([2, 1/2] : List ℝ), 0 < s := by
  intro s hs
  simp only [List.mem_cons, List.not_mem_nil, or_false] at hs
  rcases hs with rfl | rfl <;> norm_num

-- two dimensions
example : DrawsDensity 2 (Gaussian.sample (⟨[1, -1], [2, 1/2], 6, 2, "g", ["a", "b"], ["c", "d"]⟩ : Gaussian ℝ)) (Gaussian.eval Real.exp √(2 * Real.pi) ⟨[1, -1], [2, 1/2], 6, 2, "g", ["a", "b"], ["c", "d"]⟩) :=
  C118_gaussian (g := ⟨[1, -1], [2, 1/2], 6, 2, "g", ["a", "b"], ["c", "d"]⟩) ⟨rfl, rfl, rfl, rfl⟩ exGauss_pos

-- a jump in two dimensions from (3, 4)
example : DrawsDensity 2 (JumpPDF.sample (⟨"k", some ⟨[1, -1], [2, 1/2], 6, 2, "g", ["a", "b"], ["c", "d"]⟩⟩ : JumpPDF ℝ) [3, 4])
    (fun x => JumpPDF.probability Real.exp √(2 * Real.pi) ⟨"k", some ⟨[1, -1], [2, 1/2], 6, 2, "g", ["a", "b"], ["c", "d"]⟩⟩ x [3, 4]) :=
  C118_jump (g := ⟨[1, -1], [2, 1/2], 6, 2, "g", ["a", "b"], ["c", "d"]⟩) rfl ⟨rfl, rfl, rfl, rfl⟩ exGauss_pos (by simp)

-- a width that grows with the root of the value
example : DrawsDensity 1 (fun z => (⟨"v", [("d", ⟨"f", "grad", 3⟩)], some ⟨"k", some ⟨[0], [1], 6, 1, "g", ["m"], ["d"]⟩⟩⟩ : VaryingCDF ℝ).sample Real.sqrt [4] z >>= fun r => Res.ok r.1)
    fun x => (⟨"v", [("d", ⟨"f", "grad", 3⟩)], some ⟨"k", some ⟨[0], [1], 6, 1, "g", ["m"], ["d"]⟩⟩⟩ : VaryingCDF ℝ).probability Real.sqrt Real.exp √(2 * Real.pi) x [4] >>= fun r => Res.ok r.1 :=
  C118_varying (g := ⟨[0], [1], 6, 1, "g", ["m"], ["d"]⟩) rfl rfl ⟨rfl, rfl, rfl, rfl⟩ (by simp) (by simp) (by norm_num) (by simp)

noncomputable def exSmear : EventConvolution ℝ := ⟨"s", some (.jump ⟨"k", some ⟨[0], [1], 6, 1, "g", ["m"], ["d"]⟩⟩), .ofNames [], .ofNames ["e"]⟩

-- two events at 4 and 2: how many end between 1 and 5 on average
example (k : Nat) : ∃ (out : (ℕ → ℝ) → List (Event ℝ)) (I : Fin 2 → ℝ),
    (∀ seq, ∃ c', exSmear.applySeq Real.sqrt [⟨[4, 9], some ["e", "r"]⟩, ⟨[2, 7], some ["e", "r"]⟩] ⟨seq, k⟩ = .ok (out seq, ⟨seq, k + 2⟩, c')) ∧
    (∀ i : Fin 2, (⟨"k", some ⟨[0], [1], 6, 1, "g", ["m"], ["d"]⟩⟩ : JumpPDF ℝ).integral normalCdf [1] [5] [(![4, 2] : Fin 2 → ℝ) i] = .ok (I i)) ∧
    ∫ seq, (countBetween "e" 1 5 (out seq) : ℝ) ∂gaussNoise = ∑ i, I i :=
  C118_expected (c := exSmear) (names := ["e", "r"]) (o := "e") (g := ⟨[0], [1], 6, 1, "g", ["m"], ["d"]⟩) (mean := 0) (sd := 1) (mn := "m") (sn := "d") rfl rfl ⟨rfl, rfl, rfl, rfl, rfl⟩ one_pos
    ⟨[], rfl, by simp⟩ (es := [⟨[4, 9], some ["e", "r"]⟩, ⟨[2, 7], some ["e", "r"]⟩]) (by
      intro e he
      simp only [List.mem_cons, List.not_mem_nil, or_false] at he
      rcases he with rfl | rfl <;> exact ⟨by decide, rfl, rfl⟩) (x := ![4, 2]) (by
      intro i
      fin_cases i <;> rfl) (by norm_num) (by
      intro i e he
      fin_cases i <;> rcases he with rfl | rfl <;> norm_num [abs_le]) k

-- the width is twice the root of the value
example (k : Nat) : ∃ (out : (ℕ → ℝ) → List (Event ℝ)) (I : Fin 1 → ℝ),
    (∀ seq, ∃ c', (⟨"s", some (.varying ⟨"v", [("d", ⟨"f", "grad", 2⟩)], some ⟨"k", some ⟨[0], [1], 6, 1, "g", ["m"], ["d"]⟩⟩⟩), .ofNames [], .ofNames ["e"]⟩ : EventConvolution ℝ).applySeq Real.sqrt
      [⟨[4, 9], some ["e", "r"]⟩] ⟨seq, k⟩ = .ok (out seq, ⟨seq, k + 1⟩, c')) ∧
    (∀ i : Fin 1, ∃ v', (⟨"v", [("d", ⟨"f", "grad", 2⟩)], some ⟨"k", some ⟨[0], [1], 6, 1, "g", ["m"], ["d"]⟩⟩⟩ : VaryingCDF ℝ).integral Real.sqrt normalCdf [1] [5] [(![4] : Fin 1 → ℝ) i] = .ok (I i, v')) ∧
    ∫ seq, (countBetween "e" 1 5 (out seq) : ℝ) ∂gaussNoise = ∑ i, I i := by
  have w : governedOr Real.sqrt ([("d", ⟨"f", "grad", 2⟩)] : SMap (SquareRootScale ℝ)) "d" 1 4 = 4 := by
    simp only [governedOr, SMap.find, abs_of_pos (show (0 : ℝ) < 4 by norm_num)]
    rw [show (4 : ℝ) = 2 ^ 2 by norm_num, Real.sqrt_sq (by norm_num)]
    norm_num
  have m0 : governedOr Real.sqrt ([("d", ⟨"f", "grad", 2⟩)] : SMap (SquareRootScale ℝ)) "m" 0 4 = 0 := by
    simp [governedOr, SMap.find, show ("d" : String) ≠ "m" by decide]
  exact C118_expected_varying (names := ["e", "r"]) (o := "e") (g := ⟨[0], [1], 6, 1, "g", ["m"], ["d"]⟩) (mean := 0) (sd := 1) (mn := "m") (sn := "d") rfl rfl rfl ⟨rfl, rfl, rfl, rfl, rfl⟩ (by simp [SMap.Sorted])
    ⟨[], rfl, by simp⟩ (es := [⟨[4, 9], some ["e", "r"]⟩]) (by
      intro e he
      rw [List.mem_singleton] at he
      subst he
      exact ⟨by decide, rfl, rfl⟩) (x := ![4]) (by
      intro i
      fin_cases i; rfl) (by
      intro i
      fin_cases i
      show 0 < governedOr Real.sqrt _ "d" 1 4
      rw [w]; norm_num) (by norm_num) (by
      intro i e he
      fin_cases i
      show |(e - 4 - governedOr Real.sqrt _ "m" 0 4) / governedOr Real.sqrt _ "d" 1 4| ≤ 6
      rw [w, m0]
      rcases he with rfl | rfl <;> norm_num [abs_le]) k

end Oxsx
