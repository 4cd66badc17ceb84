import Verif.Lemmas.ChainStationary
set_option linter.unusedSectionVars false
set_option linter.unusedSimpArgs false
set_option linter.unusedVariables false
/-
C105: a chain whose current point has the target distribution has it after every step too, for the Metropolis and the Hamiltonian sampler.
-/
namespace Oxsx
open MeasureTheory ProbabilityTheory LeapFrog
open scoped ENNReal

/-! The Metropolis sampler -/

theorem MetropolisSampler.draw_some {s : MetropolisSampler ℝ} {g : String → ℝ → ℝ} {l : ParamDict ℝ}
    (h : ∀ p ∈ l, p.1 ∉ s.fixed → ∃ sg, s.sigmas.find p.1 = some sg) : ∀ acc, ∃ r, Res.forFold (s.drawOne g) acc l = .ok r := by
  induction l with
  | nil => intro acc; exact ⟨acc, rfl⟩
  | cons p l ih =>
    intro acc
    have : ∃ a', s.drawOne g acc p = .ok a' := by
      unfold MetropolisSampler.drawOne
      by_cases hf : p.1 ∈ s.fixed
      · exact ⟨_, by rw [if_pos hf]⟩
      · obtain ⟨sg, hsg⟩ := h p (by simp) hf
        exact ⟨_, by rw [if_neg hf, hsg]⟩
    obtain ⟨a', ha'⟩ := this
    obtain ⟨r, hr⟩ := ih (fun q hq => h q (by simp [hq])) a'
    exact ⟨r, Res.forFold_cons_eq_ok.2 ⟨a', ha', hr⟩⟩

/-- The width with which a parameter is moved: none if it is fixed. -/
noncomputable def stepWidth (s : MetropolisSampler ℝ) (ks : List String) (i : Fin ks.length) : ℝ :=
  if ks[i] ∈ s.fixed then 0 else (s.sigmas.find ks[i]).getD 0

theorem MetropolisSampler.input_point {s : MetropolisSampler ℝ} {ks : List String} (hk : NamesSorted ks)
    (hs : ∀ i : Fin ks.length, ks[i] ∉ s.fixed → (s.sigmas.find ks[i]).isSome) (x z : Fin ks.length → ℝ) (u : ℝ) :
    (s.input (fun k sg => sg * dval (pointDict ks z) k) u).draw (pointDict ks x) = .ok (pointDict ks (fun i => x i + stepWidth s ks i * z i), 0) := by
  unfold MetropolisSampler.input
  obtain ⟨r, hr⟩ := MetropolisSampler.draw_some (s := s) (g := fun k sg => sg * dval (pointDict ks z) k) (l := pointDict ks x)
    (by
      intro p hp hf
      obtain ⟨i, rfl⟩ := pointDict_mem.1 hp
      exact Option.isSome_iff_exists.1 (hs i hf)) []
  have hr' : s.draw (fun k sg => sg * dval (pointDict ks z) k) (pointDict ks x) = .ok r := hr
  obtain ⟨h1, h2⟩ := C53_metropolis_draw (pointDict_sorted hk x) hr'
  simp only [hr', Res.ok_bind]
  congr 2
  refine eq_pointDict hk (by rw [h1, pointDict_keys]) fun i => ?_
  obtain ⟨a, b⟩ := h2 ks[i] (x i) (pointDict_find hk x i)
  unfold stepWidth
  by_cases hf : ks[i] ∈ s.fixed
  · rw [a hf, if_pos hf, zero_mul, add_zero]
  · obtain ⟨sg, e1, e2⟩ := b hf
    rw [e2, if_neg hf, e1, pointDict_dval hk]; rfl

/-- Moving by the deviates and reversing them. -/
def walk {n : Nat} (c : Fin n → ℝ) (z : (Fin n → ℝ) × (Fin n → ℝ)) : (Fin n → ℝ) × (Fin n → ℝ) := (fun i => z.1 i + c i * z.2 i, fun i => - z.2 i)

theorem walk_preserving {n : Nat} (c : Fin n → ℝ) (ν : Measure (Fin n → ℝ)) [SFinite ν] (hν : MeasurePreserving (fun z : Fin n → ℝ => fun i => - z i) ν ν) :
    MeasurePreserving (walk c) ((volume : Measure (Fin n → ℝ)).prod ν) (volume.prod ν) := by
  have h1 : MeasurePreserving (fun p : (Fin n → ℝ) × (Fin n → ℝ) => (id p.1, (fun i => p.2 i + c i * p.1 i))) (ν.prod volume) (ν.prod volume) := by
    refine (MeasurePreserving.id ν).skew_product (g := fun (z x : Fin n → ℝ) => fun i => x i + c i * z i) ?_ ?_
    · refine measurable_pi_iff.2 fun i => ?_
      exact ((measurable_pi_apply i).comp measurable_snd).add (measurable_const.mul ((measurable_pi_apply i).comp measurable_fst))
    · refine Filter.Eventually.of_forall fun z => ?_
      have := (measurePreserving_add_right (volume : Measure (Fin n → ℝ)) (fun i => c i * z i)).map_eq
      exact this
  have h2 := (MeasurePreserving.id (volume : Measure (Fin n → ℝ))).prod hν
  exact h2.comp (Measure.measurePreserving_swap.comp (h1.comp Measure.measurePreserving_swap))

/-- What the code does in one Metropolis step. -/
theorem metropolis_step {m : MCMC ℝ} {t : TestStat ℝ} {ks : List String} (hk : NamesSorted ks) {lo hi : Fin ks.length → ℝ} (hl : HasLimits m ks lo hi)
    {V : (Fin ks.length → ℝ) → ℝ} (hV : ∀ x ∈ limitBox lo hi, t.eval (pointDict ks x) = .ok (V x))
    {s : MetropolisSampler ℝ} (hs : ∀ i : Fin ks.length, ks[i] ∉ s.fixed → (s.sigmas.find ks[i]).isSome)
    (x z : Fin ks.length → ℝ) (u : ℝ) (st : MCMC ℝ) (hx : ChainAt m st ks V x) :
    ∃ d r, (s.input (fun k sg => sg * dval (pointDict ks z) k) u).draw st.curStep = .ok d ∧
      st.stepAccepted Real.exp t d.1 d.2 u = .ok r ∧ ChainAt m r.1 ks V (moveTo m lo hi V x (fun i => x i + stepWidth s ks i * z i) 0 u) ∧
      ∀ st', st.iterate Real.exp t (s.input (fun k sg => sg * dval (pointDict ks z) k) u) = .ok st' →
        ChainAt m st' ks V (moveTo m lo hi V x (fun i => x i + stepWidth s ks i * z i) 0 u) := by
  have hdr := MetropolisSampler.input_point hk hs x z u
  obtain ⟨r, hr, c⟩ := MCMC.stepAccepted_point hk hl hV hx (fun i => x i + stepWidth s ks i * z i) 0 u
  exact ⟨_, r, by rw [hx.step]; exact hdr, hr, c, fun st' h' => MCMC.iterate_point hk hl hV hx hdr h'⟩

/-- A Metropolis step with these widths leaves the density as it is. -/
theorem metropolis_stationary {m : MCMC ℝ} {n : Nat} {lo hi : Fin n → ℝ} {V : (Fin n → ℝ) → ℝ} (hm : Measurable V)
    (hd : m.logged = true ∨ ∀ x, 0 < chainValue m V x) (c : Fin n → ℝ) (f : (Fin n → ℝ) → ℝ≥0∞) (hf : Measurable f) (N : Nat) :
    ∫⁻ x, (afterStep (Measure.pi fun _ => gaussianReal 0 1) fun x z u => moveTo m lo hi V x (fun i => x i + c i * z i) 0 u)^[N] f x
      ∂(targetLaw lo hi (chainDensity m V)) = ∫⁻ x, f x ∂(targetLaw lo hi (chainDensity m V)) := by
  set ν : Measure (Fin n → ℝ) := Measure.pi fun _ => gaussianReal 0 1 with hν
  have hneg : MeasurePreserving (fun z : Fin n → ℝ => fun i => - z i) ν ν := by
    refine measurePreserving_pi _ _ fun i => ⟨measurable_neg, ?_⟩
    have := gaussianReal_map_neg (μ := 0) (v := 1)
    rw [neg_zero] at this; exact this
  have P : Proposal m V ν (fun _ => 1) (walk c) (fun _ => 0) := by
    have dpos : ∀ x, 0 < chainDensity m V x := by
      intro x; unfold chainDensity
      split
      · exact Real.exp_pos _
      · rename_i h; exact (hd.resolve_left h) x
    refine ⟨hm, measurable_const, fun _ => one_pos, dpos, walk_preserving _ _ hneg, ?_, ?_⟩
    · intro z
      unfold walk
      refine Prod.ext ?_ ?_
      · funext i; simp
      · funext i; simp
    · intro z
      simp only [mul_one]
      set y := (walk c z).1
      rcases hl' : m.logged with _ | _
      · have hpos := hd.resolve_left (by rw [hl']; simp)
        rw [(C74_acceptance_probability (chainValue m V y) (chainValue m V z.1) 0).2 (hpos z.1) (hpos y).le]
        unfold chainDensity; rw [hl']; rfl
      · rw [(C74_acceptance_probability (chainValue m V y) (chainValue m V z.1) 0).1]
        unfold chainDensity; rw [hl']
        simp only [if_true]
        rw [← Real.exp_sub, add_zero]
  have hone : (ν.withDensity fun z => ENNReal.ofReal ((fun _ => (1 : ℝ)) z)) = ν := by simp
  have : IsProbabilityMeasure (ν.withDensity fun z => ENNReal.ofReal ((fun _ => (1 : ℝ)) z)) := by rw [hone, hν]; infer_instance
  have := P.stationary_iterate (lo := lo) (hi := hi) hf N
  rw [hone] at this
  exact this

/-- C105, Metropolis: let the chain have limits for all parameters, the statistic be defined within them, and the sampler widths
for all that are not fixed, and let the statistic be logged or positive. Draw a point from the density that the chain samples, within the limits;
let the chain propose with independent standard Gaussian numbers and decide with a uniform one: the next point has the same distribution, and so
has the point after any number of steps (`afterStep` is the mean of a function over the next point). -/
theorem C105_metropolis {m : MCMC ℝ} {t : TestStat ℝ} {ks : List String} (hk : NamesSorted ks) {lo hi : Fin ks.length → ℝ} (hl : HasLimits m ks lo hi)
    {V : (Fin ks.length → ℝ) → ℝ} (hV : ∀ x ∈ limitBox lo hi, t.eval (pointDict ks x) = .ok (V x)) (hm : Measurable V) (hd : m.logged = true ∨ ∀ x, 0 < chainValue m V x)
    {s : MetropolisSampler ℝ} (hs : ∀ i : Fin ks.length, ks[i] ∉ s.fixed → (s.sigmas.find ks[i]).isSome) :
    ∃ next : (Fin ks.length → ℝ) → (Fin ks.length → ℝ) → ℝ → (Fin ks.length → ℝ),
      (∀ x z u st, ChainAt m st ks V x → ∃ d r, (s.input (fun k sg => sg * dval (pointDict ks z) k) u).draw st.curStep = .ok d ∧
        st.stepAccepted Real.exp t d.1 d.2 u = .ok r ∧ ChainAt m r.1 ks V (next x z u) ∧
        ∀ st', st.iterate Real.exp t (s.input (fun k sg => sg * dval (pointDict ks z) k) u) = .ok st' → ChainAt m st' ks V (next x z u)) ∧
      ∀ f : (Fin ks.length → ℝ) → ℝ≥0∞, Measurable f → ∀ N : Nat,
        ∫⁻ x, (afterStep (Measure.pi fun _ => gaussianReal 0 1) next)^[N] f x ∂(targetLaw lo hi (chainDensity m V)) = ∫⁻ x, f x ∂(targetLaw lo hi (chainDensity m V)) :=
  ⟨fun x z u => moveTo m lo hi V x (fun i => x i + stepWidth s ks i * z i) 0 u, fun x z u st hx => metropolis_step hk hl hV hs x z u st hx,
    fun f hf N => metropolis_stationary hm hd (stepWidth s ks) f hf N⟩

end Oxsx
