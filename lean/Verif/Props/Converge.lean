import Verif.Lemmas.MetropolisMinor
set_option linter.unusedSectionVars false
set_option linter.unusedSimpArgs false
set_option linter.unusedVariables false
/-
C108: from any starting point within the limits, the Metropolis chain's point is distributed as the sampled density in the limit of many steps.
-/
namespace Oxsx
open MeasureTheory ProbabilityTheory
open scoped ENNReal NNReal

/-- The chain of the code's Metropolis sampler, for the general argument in `Lemmas/Ergodic.lean`. -/
theorem metropolis_ergodic {m : MCMC ℝ} {ks : List String} {lo hi : Fin ks.length → ℝ} (hlt : ∀ i, lo i < hi i) {V : (Fin ks.length → ℝ) → ℝ} (hm : Measurable V)
    (hd : m.logged = true ∨ ∀ x, 0 < chainValue m V x) (hb : Bounded lo hi (chainDensity m V))
    {s : MetropolisSampler ℝ} (hs : ∀ i : Fin ks.length, ks[i] ∉ s.fixed ∧ ∃ sg, s.sigmas.find ks[i] = some sg ∧ sg ≠ 0) :
    ∃ ε, Ergodic.Chain (metroStep m lo hi V (stepWidth s ks)) (stepLaw ks.length) (limitBox lo hi) (sampledLaw lo hi (chainDensity m V)) ε := by
  refine metro_chain hm hd (fun i => ?_) hlt hb fun f hf => ?_
  · obtain ⟨h1, sg, h2, h3⟩ := hs i
    unfold stepWidth; rw [if_neg h1, h2]; exact h3
  · rw [← metropolis_stationary hm hd (stepWidth s ks) f hf 1]
    refine lintegral_congr fun x => ?_
    rw [Function.iterate_one, afterStep_metro hm hf]

theorem afterStep_iterate_metro {n : Nat} {m : MCMC ℝ} {V : (Fin n → ℝ) → ℝ} {lo hi c : Fin n → ℝ} {π : Measure (Fin n → ℝ)} [IsProbabilityMeasure π] {ε : ℝ} (hV : Measurable V)
    {B : Set (Fin n → ℝ)} (h : Ergodic.Chain (metroStep m lo hi V c) (stepLaw n) B π ε) {f : (Fin n → ℝ) → ℝ} (hf : Measurable f) (h01 : ∀ x, 0 ≤ f x ∧ f x ≤ 1) (N : Nat) (x : Fin n → ℝ) :
    (afterStep (Measure.pi fun _ => gaussianReal 0 1) fun x z u => moveTo m lo hi V x (fun i => x i + c i * z i) 0 u)^[N] (fun x => ENNReal.ofReal (f x)) x =
      ENNReal.ofReal ((Ergodic.mean (metroStep m lo hi V c) (stepLaw n))^[N] f x) ∧ 0 ≤ (Ergodic.mean (metroStep m lo hi V c) (stepLaw n))^[N] f x := by
  induction N generalizing x with
  | zero => exact ⟨rfl, (h01 x).1⟩
  | succ N ih =>
    rw [Function.iterate_succ_apply', Function.iterate_succ_apply']
    obtain ⟨hm, hK, _⟩ := h.iterate_facts hf (K := 1) (fun x => by rw [abs_le]; constructor <;> linarith [(h01 x).1, (h01 x).2]) (a := 0) (b := 1) (fun x _ => h01 x) N
    set g := (Ergodic.mean (metroStep m lo hi V c) (stepLaw n))^[N] f with hg
    have hfun : (afterStep (Measure.pi fun _ => gaussianReal 0 1) fun x z u => moveTo m lo hi V x (fun i => x i + c i * z i) 0 u)^[N] (fun x => ENNReal.ofReal (f x)) =
        fun x => ENNReal.ofReal (g x) := funext fun x => (ih x).1
    have h0 : 0 ≤ Ergodic.mean (metroStep m lo hi V c) (stepLaw n) g x := integral_nonneg fun w => (ih _).2
    refine ⟨?_, h0⟩
    have hm' : Measurable fun x => ENNReal.ofReal (g x) := ENNReal.measurable_ofReal.comp hm
    rw [hfun, afterStep_metro hV hm']
    unfold Ergodic.mean
    have hi : Integrable (fun w => g (metroStep m lo hi V c x w)) (stepLaw n) := Ergodic.integrable_of_bound (hm.comp (h.meas1 x)) fun w => hK _
    rw [ofReal_integral_eq_lintegral_ofReal hi (Filter.Eventually.of_forall fun w => (ih _).2)]

/-- C108: let the chain have limits for all parameters, lower below upper, the statistic be defined within them, logged or positive, the density it
stands for be bounded there, from above and away from zero, and the sampler have a non-zero width for every parameter and none fixed. Then there is a rate `ε`
such that from every starting point within the limits the distribution of the point after `N` steps differs from the sampled density, normalised, by at
most `(1 - ε) ^ N`, in the mean of every function with values between 0 and 1 (such as the probability of any set). -/
theorem C108_converges {m : MCMC ℝ} {t : TestStat ℝ} {ks : List String} (hk : NamesSorted ks) {lo hi : Fin ks.length → ℝ} (hl : HasLimits m ks lo hi)
    (hlt : ∀ i, lo i < hi i) {V : (Fin ks.length → ℝ) → ℝ} (hV : ∀ x ∈ limitBox lo hi, t.eval (pointDict ks x) = .ok (V x)) (hm : Measurable V)
    (hd : m.logged = true ∨ ∀ x, 0 < chainValue m V x) (hb : Bounded lo hi (chainDensity m V))
    {s : MetropolisSampler ℝ} (hs : ∀ i : Fin ks.length, ks[i] ∉ s.fixed ∧ ∃ sg, s.sigmas.find ks[i] = some sg ∧ sg ≠ 0) :
    ∃ next : (Fin ks.length → ℝ) → (Fin ks.length → ℝ) → ℝ → (Fin ks.length → ℝ),
      (∀ x z u st, ChainAt m st ks V x → ∃ d r, (s.input (fun k sg => sg * dval (pointDict ks z) k) u).draw st.curStep = .ok d ∧
        st.stepAccepted Real.exp t d.1 d.2 u = .ok r ∧ ChainAt m r.1 ks V (next x z u) ∧
        ∀ st', st.iterate Real.exp t (s.input (fun k sg => sg * dval (pointDict ks z) k) u) = .ok st' → ChainAt m st' ks V (next x z u)) ∧
      IsProbabilityMeasure (sampledLaw lo hi (chainDensity m V)) ∧
      ∃ ε : ℝ, 0 < ε ∧ ε ≤ 1 ∧ ∀ f : (Fin ks.length → ℝ) → ℝ, Measurable f → (∀ x, 0 ≤ f x ∧ f x ≤ 1) → ∀ x ∈ limitBox lo hi, ∀ N : Nat,
        |((afterStep (Measure.pi fun _ => gaussianReal 0 1) next)^[N] (fun x => ENNReal.ofReal (f x)) x).toReal - ∫ y, f y ∂(sampledLaw lo hi (chainDensity m V))| ≤ (1 - ε) ^ N := by
  have hp := sampledLaw_prob hlt hb
  obtain ⟨ε, hε⟩ := metropolis_ergodic hlt hm hd hb hs
  refine ⟨fun x z u => moveTo m lo hi V x (fun i => x i + stepWidth s ks i * z i) 0 u,
    fun x z u st hx => metropolis_step hk hl hV (fun i _ => by obtain ⟨_, sg, h, _⟩ := hs i; rw [h]; rfl) x z u st hx, hp, ε, hε.pos, hε.le, fun f hf h01 x hx N => ?_⟩
  obtain ⟨h1, h2⟩ := afterStep_iterate_metro hm hε hf h01 N x
  rw [h1, ENNReal.toReal_ofReal h2]
  have := hε.converge hf (K := 1) (fun x => by rw [abs_le]; constructor <;> linarith [(h01 x).1, (h01 x).2]) (a := 0) (b := 1) (fun x _ => h01 x) N hx
  rwa [sub_zero, mul_one] at this

end Oxsx
