import Verif.Props.Stationary
set_option linter.unusedSectionVars false
set_option linter.unusedSimpArgs false
set_option linter.unusedVariables false
/-
C105 for the Hamiltonian sampler.
-/
namespace Oxsx
open MeasureTheory ProbabilityTheory LeapFrog
open scoped ENNReal

variable {ks : List String}

/-- The central differences of `E`. -/
noncomputable def slope {n : Nat} (E : (Fin n → ℝ) → ℝ) (h : ℝ) (q : Fin n → ℝ) (i : Fin n) : ℝ :=
  (E (Function.update q i (q i + h)) - E (Function.update q i (q i - h))) / 2 / h

theorem slope_measurable {n : Nat} {E : (Fin n → ℝ) → ℝ} (hE : Measurable E) (h : ℝ) : Measurable (slope E h) := by
  refine measurable_pi_iff.2 fun i => ?_
  unfold slope
  have hu : ∀ c : ℝ, Measurable fun q : Fin n → ℝ => Function.update q i (q i + c) := fun c =>
    measurable_pi_iff.2 fun j => by
      by_cases hj : j = i
      · subst hj; simp only [Function.update_self]; exact (measurable_pi_apply j).add measurable_const
      · simp only [Function.update_of_ne hj]; exact measurable_pi_apply j
  have h2 : Measurable fun q : Fin n → ℝ => Function.update q i (q i - h) := by simpa only [sub_eq_add_neg] using hu (-h)
  exact (((hE.comp (hu h)).sub (hE.comp h2)).div_const 2).div_const h

theorem gradient_ok {f : ParamDict ℝ → Res ℝ} {h : ℝ} {x0 : ParamDict ℝ} : ∀ {l : ParamDict ℝ},
    (∀ p ∈ l, (∃ a, f (x0.insert p.1 (p.2 + h)) = .ok a) ∧ ∃ b, f (x0.insert p.1 (p.2 - h)) = .ok b) → ∀ acc, ∃ g, Res.forFold (gradientOne f h x0) acc l = .ok g := by
  intro l
  induction l with
  | nil => intro _ acc; exact ⟨acc, rfl⟩
  | cons p l ih =>
    intro hp acc
    obtain ⟨⟨a, ha⟩, b, hb⟩ := hp p (by simp)
    obtain ⟨g, hg⟩ := ih (fun q hq => hp q (by simp [hq])) (acc.insert p.1 ((a - b) / 2 / h))
    refine ⟨g, Res.forFold_cons_eq_ok.2 ⟨_, ?_, hg⟩⟩
    unfold gradientOne; rw [ha, Res.ok_bind, hb, Res.ok_bind]

theorem gradient_point (hk : NamesSorted ks) {f : ParamDict ℝ → Res ℝ} {E : (Fin ks.length → ℝ) → ℝ} (hE : ∀ x, f (pointDict ks x) = .ok (E x)) (h : ℝ)
    (q : Fin ks.length → ℝ) : gradient f h (pointDict ks q) = .ok (pointDict ks (slope E h q)) := by
  obtain ⟨g, hg⟩ := gradient_ok (f := f) (h := h) (x0 := pointDict ks q) (l := pointDict ks q) (by
    intro p hp
    obtain ⟨i, rfl⟩ := pointDict_mem.1 hp
    simp only [pointDict_insert hk]
    exact ⟨⟨_, hE _⟩, _, hE _⟩) []
  have hg' : gradient f h (pointDict ks q) = .ok g := hg
  obtain ⟨h1, h2⟩ := C55_gradient (pointDict_sorted hk q) hg'
  rw [hg']; congr 1
  refine eq_pointDict hk (by rw [h1, pointDict_keys]) fun i => ?_
  obtain ⟨a, b, ha, hb, hf⟩ := h2 ks[i] (q i) (pointDict_find hk q i)
  rw [pointDict_insert hk, hE] at ha hb
  cases ha; cases hb
  exact hf

/-- A change of the momenta by the forces. -/
def kickMap {n : Nat} (a : (Fin n → ℝ) → (Fin n → ℝ)) (c : ℝ) (z : (Fin n → ℝ) × (Fin n → ℝ)) : (Fin n → ℝ) × (Fin n → ℝ) := (z.1, fun i => z.2 i - c * a z.1 i)

/-- Free motion for a time. -/
noncomputable def driftMap {n : Nat} (μ : Fin n → ℝ) (e : ℝ) (z : (Fin n → ℝ) × (Fin n → ℝ)) : (Fin n → ℝ) × (Fin n → ℝ) := (fun i => z.1 i + e * z.2 i / μ i, z.2)

/-- One leapfrog step. -/
noncomputable def leapMap {n : Nat} (a : (Fin n → ℝ) → (Fin n → ℝ)) (μ : Fin n → ℝ) (e : ℝ) (z : (Fin n → ℝ) × (Fin n → ℝ)) : (Fin n → ℝ) × (Fin n → ℝ) :=
  kickMap a (e / 2) (driftMap μ e (kickMap a (e / 2) z))

theorem kickMap_preserving {n : Nat} {a : (Fin n → ℝ) → (Fin n → ℝ)} (ha : Measurable a) (c : ℝ) :
    MeasurePreserving (kickMap a c) ((volume : Measure (Fin n → ℝ)).prod (volume : Measure (Fin n → ℝ))) (volume.prod volume) := by
  refine (MeasurePreserving.id volume).skew_product (g := fun (q p : Fin n → ℝ) => fun i => p i - c * a q i) ?_ ?_
  · refine measurable_pi_iff.2 fun i => ?_
    exact ((measurable_pi_apply i).comp measurable_snd).sub (measurable_const.mul ((measurable_pi_apply i).comp (ha.comp measurable_fst)))
  · refine Filter.Eventually.of_forall fun q => ?_
    have := (measurePreserving_add_right (volume : Measure (Fin n → ℝ)) (fun i => - (c * a q i))).map_eq
    have e : (fun p : Fin n → ℝ => fun i => p i - c * a q i) = fun p => p + fun i => -(c * a q i) := by funext p i; simp [sub_eq_add_neg]
    rw [e]; exact this

theorem driftMap_preserving {n : Nat} (μ : Fin n → ℝ) (e : ℝ) :
    MeasurePreserving (driftMap μ e) ((volume : Measure (Fin n → ℝ)).prod (volume : Measure (Fin n → ℝ))) (volume.prod volume) := by
  have h1 : MeasurePreserving (fun p : (Fin n → ℝ) × (Fin n → ℝ) => (id p.1, (fun i => p.2 i + e * p.1 i / μ i)))
      ((volume : Measure (Fin n → ℝ)).prod (volume : Measure (Fin n → ℝ))) (volume.prod volume) := by
    refine (MeasurePreserving.id volume).skew_product (g := fun (p q : Fin n → ℝ) => fun i => q i + e * p i / μ i) ?_ ?_
    · refine measurable_pi_iff.2 fun i => ?_
      exact ((measurable_pi_apply i).comp measurable_snd).add ((measurable_const.mul ((measurable_pi_apply i).comp measurable_fst)).div_const _)
    · exact Filter.Eventually.of_forall fun p => (measurePreserving_add_right (volume : Measure (Fin n → ℝ)) (fun i => e * p i / μ i)).map_eq
  exact Measure.measurePreserving_swap.comp (h1.comp Measure.measurePreserving_swap)

theorem leapMap_preserving {n : Nat} {a : (Fin n → ℝ) → (Fin n → ℝ)} (ha : Measurable a) (μ : Fin n → ℝ) (e : ℝ) :
    MeasurePreserving (leapMap a μ e) ((volume : Measure (Fin n → ℝ)).prod (volume : Measure (Fin n → ℝ))) (volume.prod volume) :=
  (kickMap_preserving ha _).comp ((driftMap_preserving μ e).comp (kickMap_preserving ha _))

/-- Positions and momenta as the code stores them. -/
def phaseDict (ks : List String) (z : (Fin ks.length → ℝ) × (Fin ks.length → ℝ)) : ParamDict ℝ × ParamDict ℝ := (pointDict ks z.1, pointDict ks z.2)

theorem LeapFrog.kick_point (hk : NamesSorted ks) (c : ℝ) (g p : Fin ks.length → ℝ) :
    kick c (pointDict ks g) (pointDict ks p) = pointDict ks (fun i => p i - c * g i) := by
  unfold kick
  rw [pointDict_map p (fun k v => v - c * ((pointDict ks g).find k).getD 0)]
  congr 1; funext i; rw [pointDict_find hk]; rfl

theorem LeapFrog.drift_point (hk : NamesSorted ks) {masses : ParamDict ℝ} {μ : Fin ks.length → ℝ} (hμ : ∀ i : Fin ks.length, masses.find ks[i] = some (μ i)) (e : ℝ)
    (q p : Fin ks.length → ℝ) : drift e masses (pointDict ks q) (pointDict ks p) = .ok (phaseDict ks (driftMap μ e (q, p))) := by
  rw [drift_ok]
  · unfold phaseDict driftMap
    simp only
    rw [pointDict_map q (fun k v => v + e * ((pointDict ks p).find k).getD 0 / (masses.find k).getD 0)]
    congr 3; funext i; rw [pointDict_find hk, hμ]; rfl
  · intro x hx
    obtain ⟨i, rfl⟩ := pointDict_mem.1 hx
    rw [pointDict_keys]; exact List.getElem_mem _
  · intro x hx
    obtain ⟨i, rfl⟩ := pointDict_mem.1 hx
    rw [hμ]; rfl

theorem repeatStep_point (hk : NamesSorted ks) {masses : ParamDict ℝ} {μ : Fin ks.length → ℝ} (hμ : ∀ i : Fin ks.length, masses.find ks[i] = some (μ i)) (e : ℝ)
    {d : Differ ℝ} {a : (Fin ks.length → ℝ) → (Fin ks.length → ℝ)} (hd : ∀ q, d (pointDict ks q) = .ok (pointDict ks (a q))) (N : Nat)
    (z : (Fin ks.length → ℝ) × (Fin ks.length → ℝ)) : repeatStep masses e d N (phaseDict ks z) = .ok (phaseDict ks ((leapMap a μ e)^[N] z)) := by
  induction N generalizing z with
  | zero => rfl
  | succ N ih =>
    have h1 : oneStep masses e d (phaseDict ks z) = .ok (phaseDict ks (leapMap a μ e z)) := by
      unfold oneStep
      simp only [phaseDict, hd, Res.ok_bind, kick_point hk]
      rw [drift_point hk hμ]
      simp only [phaseDict, Res.ok_bind, hd, kick_point hk]
      rfl
    unfold repeatStep
    rw [h1, Res.ok_bind, ih]; rfl

/-- The kinetic energy. -/
noncomputable def kineticOf {n : Nat} (μ p : Fin n → ℝ) : ℝ := ∑ i, p i * p i / 2 / μ i

theorem HamiltonianSampler.kinetic_point (hk : NamesSorted ks) {masses : ParamDict ℝ} {μ : Fin ks.length → ℝ} (hμ : ∀ i : Fin ks.length, masses.find ks[i] = some (μ i))
    (p : Fin ks.length → ℝ) : HamiltonianSampler.kinetic masses (pointDict ks p) = .ok (kineticOf μ p) := by
  have hok : ∀ (l : ParamDict ℝ), (∀ x ∈ l, (masses.find x.1).isSome) → ∀ acc, ∃ k, Res.forFold (HamiltonianSampler.kineticOne masses) acc l = .ok k := by
    intro l
    induction l with
    | nil => intro _ acc; exact ⟨acc, rfl⟩
    | cons x l ih =>
      intro hl acc
      obtain ⟨v, hv⟩ := Option.isSome_iff_exists.1 (hl x (by simp))
      obtain ⟨k, hk⟩ := ih (fun y hy => hl y (by simp [hy])) (acc + x.2 * x.2 / 2 / v)
      refine ⟨k, Res.forFold_cons_eq_ok.2 ⟨_, ?_, hk⟩⟩
      unfold HamiltonianSampler.kineticOne MCMC.dictAt; rw [hv]; rfl
  obtain ⟨k, hkk⟩ := hok (pointDict ks p) (by intro x hx; obtain ⟨i, rfl⟩ := pointDict_mem.1 hx; rw [hμ]; rfl) 0
  have hk' : HamiltonianSampler.kinetic masses (pointDict ks p) = .ok k := hkk
  rw [hk', (C55_kinetic hk').1]
  congr 1
  unfold pointDict kineticOf
  rw [List.map_ofFn, List.sum_ofFn]
  refine Finset.sum_congr rfl fun i _ => ?_
  simp only [Function.comp]
  rw [hμ]; rfl

theorem insertNew_self {β : Type} {d : SMap β} {k : String} {v w : β} (hd : d.Sorted) (h : d.find k = some v) : d.insertNew k w = d := by
  refine SMap.ext (SMap.sorted_insertNew hd k w) hd fun k' => ?_
  rw [SMap.find_insertNew]
  split
  · rename_i h'; simp_all
  · simp

theorem HamiltonianSampler.momenta_point (hk : NamesSorted ks) {s : HamiltonianSampler ℝ} (hms : s.masses.Sorted) {μ : Fin ks.length → ℝ}
    (hμ : ∀ i : Fin ks.length, s.masses.find ks[i] = some (μ i)) (g : String → ℝ → ℝ) (q : Fin ks.length → ℝ) :
    s.momenta g (pointDict ks q) = (s, pointDict ks fun i => g ks[i] (μ i)) := by
  have gen : ∀ (l acc : ParamDict ℝ), acc.Sorted → (∀ x ∈ l, (s.masses.find x.1).isSome) →
      ∃ r, l.foldl (fun r p' => let ms := r.1.masses.insertNew p'.1 0
        ({ r.1 with masses := ms }, r.2.insert p'.1 (g p'.1 ((ms.find p'.1).getD 0)))) (s, acc) = (s, r) ∧ r.Sorted ∧
        ∀ k, r.find k = if k ∈ l.keys then some (g k ((s.masses.find k).getD 0)) else acc.find k := by
    intro l
    induction l with
    | nil => intro acc ha _; exact ⟨acc, rfl, ha, fun k => by simp [SMap.keys]⟩
    | cons x l ih =>
      intro acc ha hl
      obtain ⟨v, hv⟩ := Option.isSome_iff_exists.1 (hl x (by simp))
      obtain ⟨r, h1, h2, h3⟩ := ih (acc.insert x.1 (g x.1 ((s.masses.find x.1).getD 0))) (SMap.sorted_insert ha _ _) (fun y hy => hl y (by simp [hy]))
      refine ⟨r, ?_, h2, fun k => ?_⟩
      · rw [List.foldl_cons]
        simp only [insertNew_self hms hv]
        exact h1
      · rw [h3 k, SMap.find_insert]
        simp only [SMap.keys, List.map_cons, List.mem_cons]
        by_cases h1 : k ∈ List.map (fun x => x.1) l
        · simp [h1]
        · by_cases h2 : x.1 = k
          · subst h2; simp [h1]
          · simp [h1, h2, Ne.symm h2]
  obtain ⟨r, h1, h2, h3⟩ := gen (pointDict ks q) [] SMap.sorted_nil (by intro x hx; obtain ⟨i, rfl⟩ := pointDict_mem.1 hx; rw [hμ]; rfl)
  unfold HamiltonianSampler.momenta
  refine h1.trans ?_
  congr 1
  refine SMap.ext h2 (pointDict_sorted hk _) fun k => ?_
  rw [h3 k, pointDict_keys]
  by_cases hkk : k ∈ ks
  · obtain ⟨i, rfl⟩ := names_get hkk
    rw [if_pos hkk, hμ, pointDict_find hk]; rfl
  · rw [if_neg hkk, (SMap.find_none_iff (pointDict ks _) k).2 (by rw [pointDict_keys]; exact hkk)]; rfl

/-- The proposal of the Hamiltonian sampler, its momenta reversed. -/
noncomputable def hmcMap {n : Nat} (a : (Fin n → ℝ) → (Fin n → ℝ)) (μ : Fin n → ℝ) (e : ℝ) (N : Nat) (z : (Fin n → ℝ) × (Fin n → ℝ)) : (Fin n → ℝ) × (Fin n → ℝ) :=
  (((leapMap a μ e)^[N] z).1, fun i => - ((leapMap a μ e)^[N] z).2 i)

/-- A Hamiltonian sampler without walls: its parameters, masses, and the function it differentiates. -/
structure FreeSampler (s : HamiltonianSampler ℝ) (ks : List String) (μ : Fin ks.length → ℝ) (E : (Fin ks.length → ℝ) → ℝ) : Prop where
  free : s.minima = [] ∨ s.maxima = []
  steps : 0 < s.nSteps
  sorted : s.masses.Sorted
  masses : ∀ i : Fin ks.length, s.masses.find ks[i] = some (μ i)
  positive : ∀ i, 0 < μ i
  stat : ∀ x, s.stat.eval (pointDict ks x) = .ok (E x)

theorem HamiltonianSampler.input_point (hk : NamesSorted ks) {s : HamiltonianSampler ℝ} {μ : Fin ks.length → ℝ} {E : (Fin ks.length → ℝ) → ℝ} (hs : FreeSampler s ks μ E)
    (fuel : Nat) (g : String → ℝ → ℝ) (q : Fin ks.length → ℝ) {p : Fin ks.length → ℝ} (hp : ∀ i : Fin ks.length, p i = g ks[i] (μ i)) (u : ℝ) :
    (s.input g fuel u).draw (pointDict ks q) =
      .ok (pointDict ks (hmcMap (slope E (s.eps * 5 / 100)) μ s.eps s.nSteps (q, p)).1,
        kineticOf μ p - kineticOf μ (hmcMap (slope E (s.eps * 5 / 100)) μ s.eps s.nSteps (q, p)).2) := by
  unfold HamiltonianSampler.input HamiltonianSampler.draw
  have hpe : p = fun i : Fin ks.length => g ks[i] (μ i) := funext hp
  simp only [HamiltonianSampler.momenta_point hk hs.sorted hs.masses, ← hpe, HamiltonianSampler.kinetic_point hk hs.masses, Res.ok_bind]
  rw [(C55_evolve s fuel _ hs.steps).1 hs.free]
  have hd : ∀ q, s.differ (pointDict ks q) = .ok (pointDict ks (slope E (s.eps * 5 / 100) q)) := fun q => gradient_point hk hs.stat _ q
  have := repeatStep_point hk hs.masses s.eps hd s.nSteps (q, p)
  unfold phaseDict at this
  rw [this]
  simp only [Res.ok_bind, HamiltonianSampler.kinetic_point hk hs.masses]
  congr 2
  unfold hmcMap kineticOf
  simp

theorem hmcMap_back (hk : NamesSorted ks) {s : HamiltonianSampler ℝ} {μ : Fin ks.length → ℝ} {E : (Fin ks.length → ℝ) → ℝ} (hs : FreeSampler s ks μ E)
    (z : (Fin ks.length → ℝ) × (Fin ks.length → ℝ)) :
    hmcMap (slope E (s.eps * 5 / 100)) μ s.eps s.nSteps (hmcMap (slope E (s.eps * 5 / 100)) μ s.eps s.nSteps z) = z := by
  have hd : ∀ q, s.differ (pointDict ks q) = .ok (pointDict ks (slope E (s.eps * 5 / 100) q)) := fun q => gradient_point hk hs.stat _ q
  have hf : ∀ w : (Fin ks.length → ℝ) × (Fin ks.length → ℝ), flipMomenta (phaseDict ks w) = phaseDict ks (w.1, fun i => - w.2 i) := by
    intro w; unfold flipMomenta phaseDict; simp only; rw [pointDict_map w.2 (fun _ v => -v)]
  have h1 := repeatStep_point hk hs.masses s.eps hd s.nSteps z
  have h2 := repeatStep_reverse (by unfold SameNames phaseDict; simp only [pointDict_keys]) h1
  rw [hf, hf, repeatStep_point hk hs.masses s.eps hd] at h2
  have h3 := Res.ok.inj h2
  unfold phaseDict at h3
  obtain ⟨e1, e2⟩ := Prod.mk.inj h3
  have e1 := pointDict_inj e1
  have e2 := pointDict_inj e2
  refine Prod.ext ?_ ?_
  · unfold hmcMap at *; simp only at *; exact e1
  · unfold hmcMap at *
    simp only at *
    rw [e2]; funext i; simp

theorem hmcMap_preserving {n : Nat} {a : (Fin n → ℝ) → (Fin n → ℝ)} (ha : Measurable a) (μ : Fin n → ℝ) (e : ℝ) (N : Nat) :
    MeasurePreserving (hmcMap a μ e N) ((volume : Measure (Fin n → ℝ)).prod (volume : Measure (Fin n → ℝ))) (volume.prod volume) := by
  have h1 := (leapMap_preserving ha μ e).iterate N
  have h2 : MeasurePreserving (fun z : Fin n → ℝ => fun i => - z i) volume volume := Measure.measurePreserving_neg (volume : Measure (Fin n → ℝ))
  exact ((MeasurePreserving.id (volume : Measure (Fin n → ℝ))).prod h2).comp h1

theorem momentum_density {n : Nat} {μ : Fin n → ℝ} (hμ : ∀ i, 0 < μ i) (p : Fin n → ℝ) :
    ∏ i, gaussianPDFReal 0 (μ i).toNNReal (p i) = (∏ i, (Real.sqrt (2 * Real.pi * μ i))⁻¹) * Real.exp (- kineticOf μ p) := by
  unfold kineticOf
  rw [← Finset.sum_neg_distrib, Real.exp_sum, ← Finset.prod_mul_distrib]
  refine Finset.prod_congr rfl fun i _ => ?_
  unfold gaussianPDFReal
  rw [Real.coe_toNNReal _ (hμ i).le]
  congr 2
  have := (hμ i).ne'
  field_simp
  ring

theorem momentum_law {n : Nat} {μ : Fin n → ℝ} (hμ : ∀ i, 0 < μ i) :
    (volume : Measure (Fin n → ℝ)).withDensity (fun p => ENNReal.ofReal (∏ i, gaussianPDFReal 0 (μ i).toNNReal (p i))) =
      Measure.pi (fun i => gaussianReal 0 (μ i).toNNReal) := by
  have hne : ∀ i, (μ i).toNNReal ≠ 0 := fun i => by simpa using hμ i
  have e : (fun i => gaussianReal 0 (μ i).toNNReal) = fun i => volume.withDensity (gaussianPDF 0 (μ i).toNNReal) := by
    funext i; exact gaussianReal_of_var_ne_zero 0 (hne i)
  have : ∀ i, SigmaFinite (volume.withDensity (gaussianPDF 0 (μ i).toNNReal)) := fun i => by rw [← gaussianReal_of_var_ne_zero 0 (hne i)]; infer_instance
  rw [e, pi_withDensity_fin _ fun i => measurable_gaussianPDF 0 _]
  congr 1; funext p
  rw [ENNReal.ofReal_prod_of_nonneg fun i _ => gaussianPDFReal_nonneg _ _ _]
  rfl

theorem momentum_scaled {n : Nat} {μ : Fin n → ℝ} (hμ : ∀ i, 0 < μ i) :
    MeasurePreserving (fun (z : Fin n → ℝ) i => Real.sqrt (μ i) * z i) (Measure.pi fun _ => gaussianReal 0 1)
      (Measure.pi fun i => gaussianReal 0 (μ i).toNNReal) := by
  refine measurePreserving_pi _ _ (f := fun i (y : ℝ) => Real.sqrt (μ i) * y) fun i => ⟨measurable_const_mul _, ?_⟩
  rw [gaussianReal_map_const_mul]
  congr 1
  · simp
  · ext
    simp [Real.sq_sqrt (hμ i).le, (hμ i).le]

theorem scaled_embedding {n : Nat} {μ : Fin n → ℝ} (hμ : ∀ i, 0 < μ i) :
    MeasurableEmbedding (fun (z : Fin n → ℝ) i => Real.sqrt (μ i) * z i) :=
  (MeasurableEquiv.piCongrRight fun i => MeasurableEquiv.mulLeft₀ (Real.sqrt (μ i)) (Real.sqrt_pos.2 (hμ i)).ne').measurableEmbedding

/-- C105, Hamiltonian: let the statistic be logged, the chain have limits for all parameters, the statistic be defined within them, and the
sampler no walls, positive masses and at least one step, whatever smooth or rough function it differentiates and however large its steps. Draw a
point from the exponential of the value within the limits, and momenta as the root of the mass times independent standard Gaussian numbers;
integrate, and decide with a uniform number: the next point has the same distribution, and so has the point after any number of steps. -/
theorem C105_hamiltonian {m : MCMC ℝ} {t : TestStat ℝ} (hk : NamesSorted ks) {lo hi : Fin ks.length → ℝ} (hl : HasLimits m ks lo hi)
    {V : (Fin ks.length → ℝ) → ℝ} (hV : ∀ x ∈ limitBox lo hi, t.eval (pointDict ks x) = .ok (V x)) (hm : Measurable V) (hd : m.logged = true)
    {s : HamiltonianSampler ℝ} {μ : Fin ks.length → ℝ} {E : (Fin ks.length → ℝ) → ℝ} (hs : FreeSampler s ks μ E) (hE : Measurable E) (fuel : Nat) :
    ∃ next : (Fin ks.length → ℝ) → (Fin ks.length → ℝ) → ℝ → (Fin ks.length → ℝ),
      (∀ x z u st, ChainAt m st ks V x → ∃ d r, (s.input (fun k mass => Real.sqrt mass * dval (pointDict ks z) k) fuel u).draw st.curStep = .ok d ∧
        st.stepAccepted Real.exp t d.1 d.2 u = .ok r ∧ ChainAt m r.1 ks V (next x z u) ∧
        ∀ st', st.iterate Real.exp t (s.input (fun k mass => Real.sqrt mass * dval (pointDict ks z) k) fuel u) = .ok st' → ChainAt m st' ks V (next x z u)) ∧
      ∀ f : (Fin ks.length → ℝ) → ℝ≥0∞, Measurable f → ∀ N : Nat,
        ∫⁻ x, (afterStep (Measure.pi fun _ => gaussianReal 0 1) next)^[N] f x ∂(targetLaw lo hi (chainDensity m V)) =
          ∫⁻ x, f x ∂(targetLaw lo hi (chainDensity m V)) := by
  set a := slope E (s.eps * 5 / 100) with ha
  set w : (Fin ks.length → ℝ) → ℝ := fun p => ∏ i, gaussianPDFReal 0 (μ i).toNNReal (p i) with hw
  have hne : ∀ i, (μ i).toNNReal ≠ 0 := fun i => by simpa using hs.positive i
  have P : Proposal m V (volume : Measure (Fin ks.length → ℝ)) w (hmcMap a μ s.eps s.nSteps)
      (fun z => kineticOf μ z.2 - kineticOf μ (hmcMap a μ s.eps s.nSteps z).2) := by
    refine ⟨hm, ?_, ?_, ?_, hmcMap_preserving (slope_measurable hE _) _ _ _, hmcMap_back hk hs, ?_⟩
    · exact Finset.measurable_prod _ fun i _ => (measurable_gaussianPDFReal 0 _).comp (measurable_pi_apply i)
    · exact fun p => Finset.prod_pos fun i _ => gaussianPDFReal_pos _ _ _ (hne i)
    · intro x; unfold chainDensity; rw [if_pos hd]; exact Real.exp_pos _
    · intro z
      rw [hd, (C74_acceptance_probability _ _ _).1]
      congr 2
      unfold chainDensity
      simp only [hd, if_true, hw]
      rw [momentum_density hs.positive, momentum_density hs.positive]
      have hC : (∏ i, (Real.sqrt (2 * Real.pi * μ i))⁻¹) ≠ 0 := Finset.prod_ne_zero_iff.2 fun i _ =>
        inv_ne_zero (Real.sqrt_ne_zero'.2 (by have := hs.positive i; positivity))
      rw [mul_left_comm, mul_left_comm (Real.exp _) _ (Real.exp (- kineticOf μ z.2)), mul_div_mul_left _ _ hC, ← Real.exp_add, ← Real.exp_add, ← Real.exp_sub]
      congr 1; ring
  have hlaw := momentum_law hs.positive
  have : IsProbabilityMeasure ((volume : Measure (Fin ks.length → ℝ)).withDensity fun p => ENNReal.ofReal (w p)) := by rw [hw, hlaw]; infer_instance
  set go : (Fin ks.length → ℝ) → (Fin ks.length → ℝ) → ℝ → (Fin ks.length → ℝ) := fun x p u =>
    moveTo m lo hi V x (hmcMap a μ s.eps s.nSteps (x, p)).1 (kineticOf μ p - kineticOf μ (hmcMap a μ s.eps s.nSteps (x, p)).2) u with hgo
  refine ⟨fun x z u => go x (fun i => Real.sqrt (μ i) * z i) u, ?_, ?_⟩
  · intro x z u st hx
    have hdr := HamiltonianSampler.input_point hk hs fuel (fun k mass => Real.sqrt mass * dval (pointDict ks z) k) x
      (p := fun i => Real.sqrt (μ i) * z i) (fun i => by rw [pointDict_dval hk]) u
    set p : Fin ks.length → ℝ := fun i => Real.sqrt (μ i) * z i
    obtain ⟨r, hr, c⟩ := MCMC.stepAccepted_point hk hl hV hx (hmcMap a μ s.eps s.nSteps (x, p)).1
      (kineticOf μ p - kineticOf μ (hmcMap a μ s.eps s.nSteps (x, p)).2) u
    exact ⟨_, r, by rw [hx.step]; exact hdr, hr, c, fun st' h' => MCMC.iterate_point hk hl hV hx hdr h'⟩
  · intro f hf N
    have h := P.stationary_iterate (lo := lo) (hi := hi) hf N
    rw [hw, hlaw] at h
    have hsame : afterStep (Measure.pi fun _ : Fin ks.length => gaussianReal 0 1) (fun x z u => go x (fun i => Real.sqrt (μ i) * z i) u) =
        afterStep (Measure.pi fun i => gaussianReal 0 (μ i).toNNReal) go := by
      funext f x
      unfold afterStep
      have hmp := momentum_scaled hs.positive
      exact hmp.lintegral_comp_emb (scaled_embedding hs.positive) (fun p => ∫⁻ u in Set.Ico (0 : ℝ) 1, f (go x p u))
    rw [hsame]
    exact h

end Oxsx
