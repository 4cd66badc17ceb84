import Verif.Spec.JointFit
import Verif.Props.StatisticSum
import Verif.Props.ConvergeMarginal
set_option linter.unusedSectionVars false
set_option linter.unusedSimpArgs false
set_option linter.unusedVariables false
/-
C109: joint fits. Several channels, each with its own distributions, constraints and data, share parameters; their likelihoods are added.
-/
namespace Oxsx
open MeasureTheory ProbabilityTheory LeapFrog
open scoped ENNReal Nat

variable {σ : Type} {k : Nat}

/-- The sum of the likelihoods of `k` channels, at addresses `0 … k-1`, with constraints of its own. -/
noncomputable def jointSum (k : Nat) (C : FitSys σ ℝ) (K : ConstraintManager ℝ) : StatSum (Fin k → NLLH σ ℝ) ℝ :=
  { StatSum.sum ((List.finRange k).map (NLLH.statistic C CMath.real)) with constraints := K }

theorem jointSum_eq (C : FitSys σ ℝ) (K : ConstraintManager ℝ) : jointSum k C K = ⟨(List.finRange k).map (NLLH.statistic C CMath.real), K⟩ := by
  unfold jointSum
  simp only [(C34_sum_parts _).1]

/-- A dictionary with a value for every fitted normalisation of every channel, giving a positive rate in every bin of every channel, and the sum of all
constraint terms there. -/
structure JointPoint (log : Fin k → List (BinnedED ℝ × NormStatus)) (cons : Fin k → ConstraintManager ℝ) (K : ConstraintManager ℝ) (d : Fin k → BinnedED ℝ)
    (D : ParamDict ℝ) (c : ℝ) : Prop where
  nonempty : D ≠ []
  sorted : SMap.Sorted D
  all : ∀ p, ∀ n ∈ PdfLog.fitted (log p), (SMap.find D n).isSome
  positive : ∀ p b, b < (d p).hist.nBins → 0 < rateAt (log p) D b
  constraint : ∃ (cp : Fin k → ℝ) (c₀ : ℝ), (∀ p, (cons p).evaluate (D.filter (fun q => q.1 ∈ PdfLog.fitted (log p))) = .ok (some (cp p))) ∧
    K.evaluate (D.filter (fun q => ∃ p, q.1 ∈ PdfLog.fitted (log p))) = .ok (some c₀) ∧ c = ∑ p, cp p + c₀

theorem flSum_some {ι : Type} (l : List ι) (f : ι → ℝ) : flSum (l.map fun i => (some (f i) : Fl ℝ)) = some (l.map f).sum := by
  unfold flSum
  rw [if_pos (by intro x hx; obtain ⟨i, _, rfl⟩ := List.mem_map.1 hx; rfl), List.map_map]
  congr 2

theorem joint_point_step {C : FitSys σ ℝ} {log : Fin k → List (BinnedED ℝ × NormStatus)} {cons : Fin k → ConstraintManager ℝ} {K : ConstraintManager ℝ}
    {d : Fin k → BinnedED ℝ} (hfit : ∀ p, CanFit (log p) (d p)) {h : Fin k → NLLH σ ℝ} (hsimple : ∀ p, (h p).Simple (log p) (cons p) (d p))
    {D : ParamDict ℝ} {c : ℝ} (hD : JointPoint log cons K d D c) :
    ∃ h' h'', (jointSum k C K).setParameters h D = (h', .ok ()) ∧
      (jointSum k C K).evaluate h' = .ok (some (∑ p, nllAt (log p) (d p) D + c), h'') ∧ ∀ p, (h'' p).Simple (log p) (cons p) (d p) := by
  obtain ⟨cp, c₀, e1, e2, e3⟩ := hD.constraint
  obtain ⟨h', h'', g1, _, _, g2, g3⟩ := joint_step (C := C) (ps := List.finRange k) (K := K) (D := D) (c := fun p => some (cp p)) (k := some c₀)
    (fun p _ => hsimple p) (fun p _ => (hfit p).distinct) (fun p _ => (hfit p).order) hD.nonempty hD.sorted (fun p _ => hD.all p)
    (fun p _ => (hfit p).obs) (fun p _ => (hfit p).data) (fun p _ => hD.positive p) (fun p _ => e1 p) (by
      simpa only [List.mem_finRange, true_and] using e2)
  rw [jointSum_eq]
  refine ⟨h', h'', g1, ?_, fun p => g3 p (List.mem_finRange p)⟩
  rw [g2]
  have : (fun p => Fl.add (some (binnedNLL (fun n => (SMap.find D n).getD 0) (log p) (d p))) (some (cp p))) =
      fun p => (some (nllAt (log p) (d p) D + cp p) : Fl ℝ) := rfl
  rw [this, flSum_some]
  congr 2
  show some (_ + c₀) = _
  rw [e3, List.sum_map_add, ← Fin.sum_univ_def, ← Fin.sum_univ_def, add_assoc]

/-- C109, value: the channels are configured the usual way (each started at some parameters of its own). An optimiser then tries any points, in turn: at each it sees the sum over the
channels and their bins of `mu - n log mu` at that point, plus the constraint terms, whatever it has tried before. -/
theorem C109_value {name : Nat → String} {C : FitSys σ ℝ} {objs : Fin k → Nat → σ} {log : Fin k → List (BinnedED ℝ × NormStatus)} {cons : Fin k → ConstraintManager ℝ}
    {K : ConstraintManager ℝ} {d : Fin k → BinnedED ℝ} (hfit : ∀ p, CanFit (log p) (d p)) {init : Fin k → ParamDict ℝ}
    (hinit : ∀ p, init p ≠ [] ∧ ∀ n ∈ PdfLog.fitted (log p), (SMap.find (init p) n).isSome) :
    ∃ h : Fin k → NLLH σ ℝ, (∀ p, NLLH.configured name C (objs p) (log p) (cons p) (init p) (d p) = .ok (h p)) ∧
      ∀ pts : List (ParamDict ℝ × ℝ), (∀ q ∈ pts, JointPoint log cons K d q.1 q.2) →
        (jointSum k C K).scan h (pts.map (·.1)) = .ok (pts.map fun q => some (∑ p, nllAt (log p) (d p) q.1 + q.2)) := by
  have hex : ∀ p, ∃ L, NLLH.configured name C (objs p) (log p) (cons p) (init p) (d p) = .ok L ∧ L.Simple (log p) (cons p) (d p) := by
    intro p
    obtain ⟨L, h1, h2, _⟩ := NLLH.configured_simple (name := name) (C := C) (objs := objs p) (cons := cons p) (d := d p) (hfit p).distinct (hinit p).1 (hinit p).2
    exact ⟨L, h1, h2⟩
  choose h h1 h2 using hex
  refine ⟨h, h1, fun pts => ?_⟩
  clear h1
  induction pts generalizing h with
  | nil => intro _; rfl
  | cons q pts ih =>
    intro hq
    obtain ⟨h', h'', g1, g2, g3⟩ := joint_point_step (C := C) hfit h2 (hq q (by simp))
    rw [List.map_cons]
    unfold StatSum.scan
    rw [g1]
    simp only [Res.ok_bind]
    rw [g2]
    simp only [Res.ok_bind]
    rw [ih h'' g3 (fun r hr => hq r (by simp [hr]))]
    rfl

/-- The joint posterior: the product over the channels of the probability of the channel's data times the densities its constraints stand for, times
the densities the constraints of the sum stand for. -/
noncomputable def jointPosterior (log : Fin k → List (BinnedED ℝ × NormStatus)) (cs : Fin k → List (String × ℝ × ℝ)) (cs₀ : List (String × ℝ × ℝ))
    {m : Fin k → Nat} (n : ∀ p, Fin (m p) → ℕ) (D : ParamDict ℝ) : ℝ :=
  (∏ p, posterior (log p) (cs p) (n p) D) * priorAt cs₀ D

/-- A dictionary with a value for every fitted normalisation of every channel, giving a positive rate in every bin of every channel. -/
structure JointValid (log : Fin k → List (BinnedED ℝ × NormStatus)) (d : Fin k → BinnedED ℝ) (D : ParamDict ℝ) : Prop where
  nonempty : D ≠ []
  sorted : SMap.Sorted D
  all : ∀ p, ∀ n ∈ PdfLog.fitted (log p), (SMap.find D n).isSome
  positive : ∀ p b, b < (d p).hist.nBins → 0 < rateAt (log p) D b

/-- Gaussian constraints that can be set together: on distinct parameters, of positive widths. -/
def GoodGaussians (cs : List (String × ℝ × ℝ)) : Prop := (cs.map (·.1)).Nodup ∧ ∀ q ∈ cs, 0 < q.2.2

theorem priorAt_filter {cs : List (String × ℝ × ℝ)} {D : ParamDict ℝ} {P : String → Bool} (h : ∀ q ∈ cs, P q.1 = true) :
    priorAt cs (D.filter fun q => P q.1) = priorAt cs D := by
  unfold priorAt
  congr 1
  exact List.map_congr_left fun q hq => by rw [SMap.find_filter_key, if_pos (h q hq)]

theorem joint_constraints {log : Fin k → List (BinnedED ℝ × NormStatus)} {d : Fin k → BinnedED ℝ} (hfit : ∀ p, CanFit (log p) (d p)) {cs : Fin k → List (String × ℝ × ℝ)} {cs₀ : List (String × ℝ × ℝ)}
    (hcs : ∀ p, GoodGaussians (cs p) ∧ ∀ q ∈ cs p, q.1 ∈ PdfLog.fitted (log p)) (hcs₀ : GoodGaussians cs₀ ∧ ∀ q ∈ cs₀, ∃ p, q.1 ∈ PdfLog.fitted (log p))
    {n : ∀ p, Fin (d p).hist.nBins → ℕ} (hn : ∀ p b, countIn (d p) b.1 = n p b) :
    ∃ (cons : Fin k → ConstraintManager ℝ) (K : ConstraintManager ℝ) (F : ℝ), (∀ p, setGaussians (cs p) = .ok (cons p)) ∧ setGaussians cs₀ = .ok K ∧ 0 < F ∧
      ∀ D, JointValid log d D → ∃ c, JointPoint log cons K d D c ∧ Real.exp (-(∑ p, nllAt (log p) (d p) D + c)) = F * jointPosterior log cs cs₀ n D := by
  choose cons e1 H1 using fun p => gaussian_constraints (hcs p).1.1 (hcs p).1.2
  obtain ⟨K, e2, H2⟩ := gaussian_constraints hcs₀.1.1 hcs₀.1.2
  refine ⟨cons, K, (∏ p, (∏ b, ((n p b)! : ℝ)) * ((cs p).map (fun q => Real.sqrt (2 * Real.pi * q.2.2 ^ 2))).prod) * (cs₀.map (fun q => Real.sqrt (2 * Real.pi * q.2.2 ^ 2))).prod,
    e1, e2, ?_, fun D hD => ?_⟩
  · exact mul_pos (Finset.prod_pos fun p _ => mul_pos (Finset.prod_pos fun b _ => by exact_mod_cast Nat.factorial_pos _) (gaussian_widths_pos (hcs p).1.2))
      (gaussian_widths_pos hcs₀.1.2)
  have hf : ∀ (P : String → Bool) (x : String), P x = true → SMap.find (D.filter fun q => P q.1) x = SMap.find D x := fun P x hx => by
    rw [SMap.find_filter_key, if_pos hx]
  choose cp a1 a2 using fun p => H1 p (D.filter fun q => decide (q.1 ∈ PdfLog.fitted (log p))) (fun q hq => by
    have hq' := (hcs p).2 q hq
    rw [hf (fun x => decide (x ∈ PdfLog.fitted (log p))) _ (by simpa using hq')]
    exact hD.all p _ hq')
  obtain ⟨c₀, b1, b2⟩ := H2 (D.filter fun q => decide (∃ p, q.1 ∈ PdfLog.fitted (log p))) (fun q hq => by
    obtain ⟨p, hp⟩ := hcs₀.2 q hq
    rw [hf (fun x => decide (∃ p, x ∈ PdfLog.fitted (log p))) _ (by simpa using ⟨p, hp⟩)]
    exact hD.all p _ hp)
  refine ⟨∑ p, cp p + c₀, ⟨hD.nonempty, hD.sorted, hD.all, hD.positive, cp, c₀, a1, b1, rfl⟩, ?_⟩
  rw [priorAt_filter (P := fun x => decide (∃ p, x ∈ PdfLog.fitted (log p))) (fun q hq => by simpa using hcs₀.2 q hq)] at b2
  have a2' : ∀ p, Real.exp (-cp p) = ((cs p).map (fun q => Real.sqrt (2 * Real.pi * q.2.2 ^ 2))).prod * priorAt (cs p) D := fun p => by
    rw [a2 p, priorAt_filter (P := fun x => decide (x ∈ PdfLog.fitted (log p))) (fun q hq => by simpa using (hcs p).2 q hq)]
  rw [← add_assoc, neg_add, Real.exp_add, b2, ← Finset.sum_add_distrib, ← Finset.sum_neg_distrib, Real.exp_sum]
  have : ∀ p, Real.exp (-(nllAt (log p) (d p) D + cp p)) = ((∏ b, ((n p b)! : ℝ)) * ((cs p).map (fun q => Real.sqrt (2 * Real.pi * q.2.2 ^ 2))).prod) * posterior (log p) (cs p) (n p) D := by
    intro p
    rw [neg_add, Real.exp_add, a2' p, nllAt_exp (n p) (hD.positive p) (hn p)]
    unfold posterior priorAt
    ring
  rw [Finset.prod_congr rfl (fun p _ => this p), Finset.prod_mul_distrib]
  unfold jointPosterior
  ring

/-- C109, posterior: Gaussian constraints on fitted normalisations are set in the channels, and on normalisations of any channel in the sum. The exponential of minus the value the
optimiser sees at a point is, up to a factor that does not depend on the point, the joint posterior: the product of the probabilities of all channels' data and of all
prior densities. -/
theorem C109_posterior {name : Nat → String} {C : FitSys σ ℝ} {objs : Fin k → Nat → σ} {log : Fin k → List (BinnedED ℝ × NormStatus)} {d : Fin k → BinnedED ℝ} (hfit : ∀ p, CanFit (log p) (d p))
    {cs : Fin k → List (String × ℝ × ℝ)} {cs₀ : List (String × ℝ × ℝ)}
    (hcs : ∀ p, GoodGaussians (cs p) ∧ ∀ q ∈ cs p, q.1 ∈ PdfLog.fitted (log p)) (hcs₀ : GoodGaussians cs₀ ∧ ∀ q ∈ cs₀, ∃ p, q.1 ∈ PdfLog.fitted (log p))
    {n : ∀ p, Fin (d p).hist.nBins → ℕ} (hn : ∀ p b, countIn (d p) b.1 = n p b) {init : Fin k → ParamDict ℝ}
    (hinit : ∀ p, init p ≠ [] ∧ ∀ n ∈ PdfLog.fitted (log p), (SMap.find (init p) n).isSome) :
    ∃ (cons : Fin k → ConstraintManager ℝ) (K : ConstraintManager ℝ) (h : Fin k → NLLH σ ℝ) (F : ℝ) (v : ParamDict ℝ → ℝ),
      (∀ p, setGaussians (cs p) = .ok (cons p)) ∧ setGaussians cs₀ = .ok K ∧
      (∀ p, NLLH.configured name C (objs p) (log p) (cons p) (init p) (d p) = .ok (h p)) ∧
      (∀ Ds : List (ParamDict ℝ), (∀ D ∈ Ds, JointValid log d D) → (jointSum k C K).scan h Ds = .ok (Ds.map fun D => some (v D))) ∧
      0 < F ∧ ∀ D, JointValid log d D → Real.exp (-(v D)) = F * jointPosterior log cs cs₀ n D := by
  classical
  obtain ⟨cons, K, F, e1, e2, hF, H⟩ := joint_constraints hfit hcs hcs₀ hn
  obtain ⟨h, h1, h2⟩ := C109_value (name := name) (C := C) (objs := objs) (cons := cons) (K := K) hfit hinit
  refine ⟨cons, K, h, F, fun D => if hD : JointValid log d D then ∑ p, nllAt (log p) (d p) D + (H D hD).choose else 0, e1, e2, h1, ?_, hF, ?_⟩
  · intro Ds hDs
    have := h2 (Ds.map fun D => (D, if hD : JointValid log d D then (H D hD).choose else 0)) (by
      intro q hq
      obtain ⟨D, hD, rfl⟩ := List.mem_map.1 hq
      simp only [dif_pos (hDs D hD)]
      exact (H D (hDs D hD)).choose_spec.1)
    rw [List.map_map, List.map_map] at this
    rw [show Ds.map ((fun q : ParamDict ℝ × ℝ => q.1) ∘ fun D => (D, if hD : JointValid log d D then (H D hD).choose else 0)) = Ds from List.map_id _] at this
    rw [this]
    congr 1
    refine List.map_congr_left fun D hD => ?_
    simp only [Function.comp, dif_pos (hDs D hD)]
  · intro D hD
    simp only [dif_pos hD]
    exact (H D hD).choose_spec.2

/-- Data of all channels drawn from the rates at a point: independent Poisson counts. -/
noncomputable def jointLaw (log : Fin k → List (BinnedED ℝ × NormStatus)) (D : ParamDict ℝ) (m : Fin k → Nat) : Measure (∀ p, Fin (m p) → ℕ) :=
  Measure.pi fun p => dataLaw (log p) D (m p)

theorem joint_mean {log : Fin k → List (BinnedED ℝ × NormStatus)} {d : Fin k → BinnedED ℝ} {D₀ D : ParamDict ℝ}
    (h0 : ∀ p b, b < (d p).hist.nBins → 0 < rateAt (log p) D₀ b) (c : ℝ) :
    Integrable (fun n => ∑ p, nllAt (log p) (withCounts (d p) (n p)) D + c) (jointLaw log D₀ fun p => (d p).hist.nBins) ∧
      ∫ n, (∑ p, nllAt (log p) (withCounts (d p) (n p)) D + c) ∂(jointLaw log D₀ fun p => (d p).hist.nBins) =
        ∑ p, ∑ b : Fin (d p).hist.nBins, poissonTerm (rateAt (log p) D₀ b) (rateAt (log p) D b) + c := by
  haveI : ∀ p, IsProbabilityMeasure (dataLaw (log p) D₀ (d p).hist.nBins) := fun p => by unfold dataLaw; infer_instance
  haveI : IsProbabilityMeasure (jointLaw log D₀ fun p => (d p).hist.nBins) := by unfold jointLaw; infer_instance
  have hm := fun p => nllAt_mean (log := log p) (d := d p) (ps₀ := D₀) (ps := D) (h0 p) 0
  simp only [add_zero] at hm
  have hi : ∀ p, Integrable (fun n : ∀ p, Fin (d p).hist.nBins → ℕ => nllAt (log p) (withCounts (d p) (n p)) D) (jointLaw log D₀ fun p => (d p).hist.nBins) := fun p =>
    integrable_comp_eval (μ := fun p => dataLaw (log p) D₀ (d p).hist.nBins) (i := p) (f := fun n => nllAt (log p) (withCounts (d p) n) D) (hm p).1
  have hs : Integrable (fun n : ∀ p, Fin (d p).hist.nBins → ℕ => ∑ p, nllAt (log p) (withCounts (d p) (n p)) D) (jointLaw log D₀ fun p => (d p).hist.nBins) :=
    integrable_finsetSum _ fun p _ => hi p
  refine ⟨hs.add (integrable_const c), ?_⟩
  rw [integral_add hs (integrable_const c), integral_finsetSum _ fun p _ => hi p]
  congr 1
  · refine Finset.sum_congr rfl fun p _ => ?_
    have := integral_comp_eval (μ := fun p => dataLaw (log p) D₀ (d p).hist.nBins) (i := p) (f := fun n => nllAt (log p) (withCounts (d p) n) D) (hm p).1.aestronglyMeasurable
    exact this.trans (hm p).2
  · simp

/-- C109, average: the data of all channels are drawn from the rates at `D₀`. For every data set the optimiser sees a value at `D₀` and at `D`, and the average of the
value, without the constraint terms, is least at `D₀`: it is as small at `D` only if `D` predicts the same rate in every bin of every channel. -/
theorem C109_average {name : Nat → String} {C : FitSys σ ℝ} {objs : Fin k → Nat → σ} {log : Fin k → List (BinnedED ℝ × NormStatus)} {cons : Fin k → ConstraintManager ℝ}
    {K : ConstraintManager ℝ} {d : Fin k → BinnedED ℝ} (hfit : ∀ p, CanFit (log p) (d p)) {init : Fin k → ParamDict ℝ}
    (hinit : ∀ p, init p ≠ [] ∧ ∀ n ∈ PdfLog.fitted (log p), (SMap.find (init p) n).isSome) {D₀ D : ParamDict ℝ} {c₀ c : ℝ} (h₀ : JointPoint log cons K d D₀ c₀)
    (hD : JointPoint log cons K d D c) :
    ∃ V₀ V : (∀ p, Fin (d p).hist.nBins → ℕ) → ℝ,
      (∀ n, ∃ h : Fin k → NLLH σ ℝ, (∀ p, NLLH.configured name C (objs p) (log p) (cons p) (init p) (withCounts (d p) (n p)) = .ok (h p)) ∧
        (jointSum k C K).scan h [D₀, D] = .ok [some (V₀ n), some (V n)]) ∧
      Integrable V₀ (jointLaw log D₀ fun p => (d p).hist.nBins) ∧ Integrable V (jointLaw log D₀ fun p => (d p).hist.nBins) ∧
      (∫ n, V₀ n ∂(jointLaw log D₀ fun p => (d p).hist.nBins)) - c₀ ≤ (∫ n, V n ∂(jointLaw log D₀ fun p => (d p).hist.nBins)) - c ∧
      ((∫ n, V₀ n ∂(jointLaw log D₀ fun p => (d p).hist.nBins)) - c₀ = (∫ n, V n ∂(jointLaw log D₀ fun p => (d p).hist.nBins)) - c ↔
        ∀ p b, b < (d p).hist.nBins → rateAt (log p) D b = rateAt (log p) D₀ b) := by
  obtain ⟨i0, m0⟩ := joint_mean (d := d) (D := D₀) h₀.positive c₀
  obtain ⟨i1, m1⟩ := joint_mean (d := d) (D := D) h₀.positive c
  have hle : ∀ p, ∀ b : Fin (d p).hist.nBins, poissonTerm (rateAt (log p) D₀ b) (rateAt (log p) D₀ b) ≤ poissonTerm (rateAt (log p) D₀ b) (rateAt (log p) D b) := fun p b =>
    (poissonTerm_min (h₀.positive p b.1 b.2) (hD.positive p b.1 b.2)).1
  refine ⟨_, _, fun n => ?_, i0, i1, ?_, ?_⟩
  · obtain ⟨h, h1, h2⟩ := C109_value (name := name) (C := C) (objs := objs) (cons := cons) (K := K) (d := fun p => withCounts (d p) (n p)) (fun p => withCounts_canFit (hfit p) (n p)) hinit
    exact ⟨h, h1, h2 [(D₀, c₀), (D, c)] (by
      intro q hq
      simp only [List.mem_cons, List.not_mem_nil, or_false] at hq
      rcases hq with rfl | rfl
      · exact ⟨h₀.nonempty, h₀.sorted, h₀.all, h₀.positive, h₀.constraint⟩
      · exact ⟨hD.nonempty, hD.sorted, hD.all, hD.positive, hD.constraint⟩)⟩
  · rw [m0, m1, add_sub_cancel_right, add_sub_cancel_right]
    exact Finset.sum_le_sum fun p _ => Finset.sum_le_sum fun b _ => hle p b
  · rw [m0, m1, add_sub_cancel_right, add_sub_cancel_right, Finset.sum_eq_sum_iff_of_le fun p _ => Finset.sum_le_sum fun b _ => hle p b]
    constructor
    · intro e p b hb
      have e' := (Finset.sum_eq_sum_iff_of_le fun b _ => hle p b).1 (e p (Finset.mem_univ _))
      exact (poissonTerm_min (h₀.positive p b hb) (hD.positive p b hb)).2.1 (e' ⟨b, hb⟩ (Finset.mem_univ _))
    · intro e p _
      exact Finset.sum_congr rfl fun b _ => by rw [e p b.1 b.2]

theorem joint_names {name : Nat → String} {C : FitSys σ ℝ} {objs : Fin k → Nat → σ} {log : Fin k → List (BinnedED ℝ × NormStatus)} {cons : Fin k → ConstraintManager ℝ}
    {K : ConstraintManager ℝ} {d : Fin k → BinnedED ℝ} (hfit : ∀ p, CanFit (log p) (d p)) {init : Fin k → ParamDict ℝ}
    (hinit : ∀ p, init p ≠ [] ∧ SMap.Sorted (init p) ∧ ∀ n ∈ PdfLog.fitted (log p), (SMap.find (init p) n).isSome) {h : Fin k → NLLH σ ℝ}
    (hcfg : ∀ p, NLLH.configured name C (objs p) (log p) (cons p) (init p) (d p) = .ok (h p)) :
    ∃ ns, (jointSum k C K).getParameterNames h = .ok ns ∧ ns.Pairwise (· < ·) ∧ ∀ x, x ∈ ns ↔ ∃ p, x ∈ PdfLog.fitted (log p) := by
  have hg : ∀ p, (h p).getParameters C = .ok ((init p).filter fun q => q.1 ∈ PdfLog.fitted (log p)) := by
    intro p
    obtain ⟨L, h1, h2, h3⟩ := NLLH.configured_simple (name := name) (C := C) (objs := objs p) (cons := cons p) (d := d p) (hfit p).distinct (hinit p).1 (hinit p).2.2
    have := Res.ok.inj (h1.symm.trans (hcfg p))
    subst this
    refine h2.getParameters C (hfit p).distinct (hinit p).2.1 fun x hx => ?_
    obtain ⟨v, hv⟩ := Option.isSome_iff_exists.1 ((hinit p).2.2 x hx)
    exact ⟨v, hv, h3 x hx v hv⟩
  obtain ⟨ns, n1, n2, n3, _⟩ := C34_names (jointSum k C K) h (gs := (List.finRange k).map fun p => (init p).filter fun q => q.1 ∈ PdfLog.fitted (log p)) (by
    rw [jointSum_eq, List.forall₂_map_right_iff, List.forall₂_map_left_iff]
    exact List.forall₂_same.2 fun p _ => hg p)
  refine ⟨ns, n1, n2, fun x => ?_⟩
  rw [n3]
  constructor
  · rintro ⟨g, hgm, hx⟩
    obtain ⟨p, _, rfl⟩ := List.mem_map.1 hgm
    obtain ⟨q, hq, rfl⟩ := List.mem_map.1 hx
    exact ⟨p, by simpa using (List.mem_filter.1 hq).2⟩
  · rintro ⟨p, hp⟩
    refine ⟨_, List.mem_map.2 ⟨p, List.mem_finRange p, rfl⟩, ?_⟩
    rw [← SMap.find_isSome_iff, SMap.find_filter_key (init p) (fun x => decide (x ∈ PdfLog.fitted (log p))) x, if_pos (by simpa using hp)]
    exact (hinit p).2.2 x hp

theorem jointPosterior_continuous {ks : List String} (hk : NamesSorted ks) (log : Fin k → List (BinnedED ℝ × NormStatus)) (cs : Fin k → List (String × ℝ × ℝ)) (cs₀ : List (String × ℝ × ℝ))
    {m : Fin k → Nat} (n : ∀ p, Fin (m p) → ℕ) : Continuous fun x : Fin ks.length → ℝ => jointPosterior log cs cs₀ n (pointDict ks x) := by
  unfold jointPosterior
  refine Continuous.mul (continuous_finsetProd _ fun p _ => posterior_continuous hk (log p) (cs p) (n p)) ?_
  unfold priorAt
  refine list_prod_continuous cs₀ (fun x q => gaussianPDFReal q.2.1 (q.2.2 ^ 2).toNNReal ((SMap.find (pointDict ks x) q.1).getD 0)) fun q _ => ?_
  have hg : Continuous (gaussianPDFReal q.2.1 (q.2.2 ^ 2).toNNReal) := by unfold gaussianPDFReal; fun_prop
  exact hg.comp (pointDict_coord_continuous ks hk _)

/-- The setting of a chain on a joint fit. -/
theorem joint_chain {name : Nat → String} {C : FitSys σ ℝ} {objs : Fin k → Nat → σ} {log : Fin k → List (BinnedED ℝ × NormStatus)} {d : Fin k → BinnedED ℝ} (hfit : ∀ p, CanFit (log p) (d p))
    {cs : Fin k → List (String × ℝ × ℝ)} {cs₀ : List (String × ℝ × ℝ)}
    (hcs : ∀ p, GoodGaussians (cs p) ∧ ∀ q ∈ cs p, q.1 ∈ PdfLog.fitted (log p)) (hcs₀ : GoodGaussians cs₀ ∧ ∀ q ∈ cs₀, ∃ p, q.1 ∈ PdfLog.fitted (log p))
    {n : ∀ p, Fin (d p).hist.nBins → ℕ} (hn : ∀ p b, countIn (d p) b.1 = n p b) {init : Fin k → ParamDict ℝ}
    (hinit : ∀ p, init p ≠ [] ∧ SMap.Sorted (init p) ∧ ∀ n ∈ PdfLog.fitted (log p), (SMap.find (init p) n).isSome)
    {ks : List String} (hk : NamesSorted ks) (hne : ks ≠ []) (hall : ∀ x, x ∈ ks ↔ ∃ p, x ∈ PdfLog.fitted (log p))
    {m : MCMC ℝ} (hlog : m.logged = true) (hflip : m.flip = true) {lo hi : Fin ks.length → ℝ} (hlt : ∀ i, lo i < hi i)
    (hpos : ∀ x ∈ limitBox lo hi, ∀ p b, b < (d p).hist.nBins → 0 < rateAt (log p) (pointDict ks x) b) :
    ∃ (cons : Fin k → ConstraintManager ℝ) (K : ConstraintManager ℝ) (h : Fin k → NLLH σ ℝ),
      (∀ p, setGaussians (cs p) = .ok (cons p)) ∧ setGaussians cs₀ = .ok K ∧
      (∀ p, NLLH.configured name C (objs p) (log p) (cons p) (init p) (d p) = .ok (h p)) ∧
      ((jointSum k C K).seen h).names = ks ∧
      ∃ V : (Fin ks.length → ℝ) → ℝ, Measurable V ∧ (∀ x ∈ limitBox lo hi, ((jointSum k C K).seen h).eval (pointDict ks x) = .ok (V x)) ∧
        Bounded lo hi (chainDensity m V) ∧ sampledLaw lo hi (chainDensity m V) = sampledLaw lo hi fun x => jointPosterior log cs cs₀ n (pointDict ks x) := by
  obtain ⟨cons, K, F, e1, e2, hF, H⟩ := joint_constraints hfit hcs hcs₀ hn
  have hex : ∀ p, ∃ L, NLLH.configured name C (objs p) (log p) (cons p) (init p) (d p) = .ok L ∧ L.Simple (log p) (cons p) (d p) := by
    intro p
    obtain ⟨L, h1, h2, _⟩ := NLLH.configured_simple (name := name) (C := C) (objs := objs p) (cons := cons p) (d := d p) (hfit p).distinct (hinit p).1 (hinit p).2.2
    exact ⟨L, h1, h2⟩
  choose h h1 h2 using hex
  refine ⟨cons, K, h, e1, e2, h1, ?_, ?_⟩
  · obtain ⟨ns, n1, n2, n3⟩ := joint_names (K := K) hfit hinit h1
    show ((jointSum k C K).getParameterNames h).toOption.getD [] = ks
    rw [n1]
    show ns = ks
    exact n2.eq_of_mem_iff hk fun x => (n3 x).trans (hall x).symm
  · refine density_chain (t := (jointSum k C K).seen h) (jointPosterior_continuous hk log cs cs₀ n) hF hlog hflip hlt fun x hx => ?_
    obtain ⟨c, hc, hv⟩ := H (pointDict ks x) ⟨fun hh => hne (by rw [← pointDict_keys ks x, hh]; rfl), pointDict_sorted hk x, fun p y hy => by
      obtain ⟨i, rfl⟩ := names_get ((hall y).2 ⟨p, hy⟩)
      rw [pointDict_find hk]; rfl, hpos x hx⟩
    obtain ⟨h', h'', g1, g2, _⟩ := joint_point_step (C := C) hfit h2 hc
    refine ⟨_, ?_, hv⟩
    unfold StatSum.seen
    simp only
    rw [g1]
    simp only [Res.ok_bind]
    rw [g2]
    rfl

/-- C109, sampling: run a Metropolis chain on the joint fit, logged and with its sign flipped, within limits at all points of which every bin of every channel has a positive expected
rate, with a non-zero width for every parameter. From every starting point within the limits the distribution of the chain's point converges to the joint
posterior within the limits, normalised, with an error of at most `(1 - ε) ^ N` after `N` steps. -/
theorem C109_chain {name : Nat → String} {C : FitSys σ ℝ} {objs : Fin k → Nat → σ} {log : Fin k → List (BinnedED ℝ × NormStatus)} {d : Fin k → BinnedED ℝ} (hfit : ∀ p, CanFit (log p) (d p))
    {cs : Fin k → List (String × ℝ × ℝ)} {cs₀ : List (String × ℝ × ℝ)}
    (hcs : ∀ p, GoodGaussians (cs p) ∧ ∀ q ∈ cs p, q.1 ∈ PdfLog.fitted (log p)) (hcs₀ : GoodGaussians cs₀ ∧ ∀ q ∈ cs₀, ∃ p, q.1 ∈ PdfLog.fitted (log p))
    {n : ∀ p, Fin (d p).hist.nBins → ℕ} (hn : ∀ p b, countIn (d p) b.1 = n p b) {init : Fin k → ParamDict ℝ}
    (hinit : ∀ p, init p ≠ [] ∧ SMap.Sorted (init p) ∧ ∀ n ∈ PdfLog.fitted (log p), (SMap.find (init p) n).isSome)
    {ks : List String} (hk : NamesSorted ks) (hne : ks ≠ []) (hall : ∀ x, x ∈ ks ↔ ∃ p, x ∈ PdfLog.fitted (log p))
    {m : MCMC ℝ} (hlog : m.logged = true) (hflip : m.flip = true) {lo hi : Fin ks.length → ℝ} (hl : HasLimits m ks lo hi) (hlt : ∀ i, lo i < hi i)
    (hpos : ∀ x ∈ limitBox lo hi, ∀ p b, b < (d p).hist.nBins → 0 < rateAt (log p) (pointDict ks x) b)
    {s : MetropolisSampler ℝ} (hs : ∀ i : Fin ks.length, ks[i] ∉ s.fixed ∧ ∃ sg, s.sigmas.find ks[i] = some sg ∧ sg ≠ 0) :
    ∃ (cons : Fin k → ConstraintManager ℝ) (K : ConstraintManager ℝ) (h : Fin k → NLLH σ ℝ),
      (∀ p, setGaussians (cs p) = .ok (cons p)) ∧ setGaussians cs₀ = .ok K ∧
      (∀ p, NLLH.configured name C (objs p) (log p) (cons p) (init p) (d p) = .ok (h p)) ∧
      ∃ V : (Fin ks.length → ℝ) → ℝ, (∀ x ∈ limitBox lo hi, ((jointSum k C K).seen h).eval (pointDict ks x) = .ok (V x)) ∧
      ∃ next : (Fin ks.length → ℝ) → (Fin ks.length → ℝ) → ℝ → (Fin ks.length → ℝ),
      (∀ x z u st, ChainAt m st ks V x → ∃ p r, (s.input (fun k sg => sg * dval (pointDict ks z) k) u).draw st.curStep = .ok p ∧
        st.stepAccepted Real.exp ((jointSum k C K).seen h) p.1 p.2 u = .ok r ∧ ChainAt m r.1 ks V (next x z u)) ∧
      ∃ ε : ℝ, 0 < ε ∧ ε ≤ 1 ∧ ∀ f : (Fin ks.length → ℝ) → ℝ, Measurable f → (∀ x, 0 ≤ f x ∧ f x ≤ 1) → ∀ x ∈ limitBox lo hi, ∀ N : Nat,
        |((afterStep (Measure.pi fun _ => gaussianReal 0 1) next)^[N] (fun x => ENNReal.ofReal (f x)) x).toReal -
          ∫ y, f y ∂(sampledLaw lo hi fun x => jointPosterior log cs cs₀ n (pointDict ks x))| ≤ (1 - ε) ^ N := by
  obtain ⟨cons, K, h, e1, e2, e3, _, V, hVm, h2, h3, h4⟩ := joint_chain (name := name) (C := C) (objs := objs) hfit hcs hcs₀ hn hinit hk hne hall hlog hflip hlt hpos
  obtain ⟨next, a, _, ε, b, c, g⟩ := C108_converges hk hl hlt h2 hVm (Or.inl hlog) h3 hs
  refine ⟨cons, K, h, e1, e2, e3, V, h2, next, fun x z u st hx => ?_, ε, b, c, ?_⟩
  · obtain ⟨p, r, a1, a2, a3, _⟩ := a x z u st hx
    exact ⟨p, r, a1, a2, a3⟩
  · rw [h4] at g; exact g

/-- … and the histograms of the parameters and pairs of parameters that a run keeps by default converge to the marginal joint posterior probabilities: the mean square of the difference
between the fraction of the recorded steps and the probability of a bin is at most a constant over the number of recorded steps. -/
theorem C109_chain_marginals {name : Nat → String} {C : FitSys σ ℝ} {objs : Fin k → Nat → σ} {log : Fin k → List (BinnedED ℝ × NormStatus)} {d : Fin k → BinnedED ℝ} (hfit : ∀ p, CanFit (log p) (d p))
    {cs : Fin k → List (String × ℝ × ℝ)} {cs₀ : List (String × ℝ × ℝ)}
    (hcs : ∀ p, GoodGaussians (cs p) ∧ ∀ q ∈ cs p, q.1 ∈ PdfLog.fitted (log p)) (hcs₀ : GoodGaussians cs₀ ∧ ∀ q ∈ cs₀, ∃ p, q.1 ∈ PdfLog.fitted (log p))
    {n : ∀ p, Fin (d p).hist.nBins → ℕ} (hn : ∀ p b, countIn (d p) b.1 = n p b) {init : Fin k → ParamDict ℝ}
    (hinit : ∀ p, init p ≠ [] ∧ SMap.Sorted (init p) ∧ ∀ n ∈ PdfLog.fitted (log p), (SMap.find (init p) n).isSome)
    {ks : List String} (hk : NamesSorted ks) (hne : ks ≠ []) (hall : ∀ x, x ∈ ks ↔ ∃ p, x ∈ PdfLog.fitted (log p))
    {m : MCMC ℝ} (hlog : m.logged = true) (hflip : m.flip = true) {lo hi : Fin ks.length → ℝ} (hl : HasLimits m ks lo hi) (hmin : m.minima.keys = ks) (hmax : m.maxima.length = ks.length)
    (hlt : ∀ i, lo i < hi i) (hpos : ∀ x ∈ limitBox lo hi, ∀ p b, b < (d p).hist.nBins → 0 < rateAt (log p) (pointDict ks x) b)
    {s : MetropolisSampler ℝ} (hs : ∀ i : Fin ks.length, ks[i] ∉ s.fixed ∧ ∃ sg, s.sigmas.find ks[i] = some sg ∧ sg ≠ 0)
    (hf : m.samples.Fresh) (hfull : m.samples.saveFull = false) (hch : m.samples.saveChain = false) (hq : 0 < m.samples.auto.qLen) (hax : m.samples.axes.nDims = 0) (hg : 0 < m.nGuess) :
    ∃ (cons : Fin k → ConstraintManager ℝ) (K : ConstraintManager ℝ) (h : Fin k → NLLH σ ℝ),
      (∀ p, setGaussians (cs p) = .ok (cons p)) ∧ setGaussians cs₀ = .ok K ∧
      (∀ p, NLLH.configured name C (objs p) (log p) (cons p) (init p) (d p) = .ok (h p)) ∧
      ∃ B : ℝ, ∀ x0 ∈ limitBox lo hi, ∀ burnIn thin : Int, thin ≠ 0 → ∀ (N : Nat) (r : String → ℝ), 0 < N →
      ∃ (one : Fin ks.length → (Fin N → (Fin ks.length → ℝ) × ℝ) → Nat → ℝ) (two : Fin ks.length → Fin ks.length → (Fin N → (Fin ks.length → ℝ) × ℝ) → Nat → Nat → ℝ),
        (∀ ω, ∃ m' res, ({ m with trial := pointDict ks x0, maxIter := N, samples := { m.samples with burnIn := burnIn, thin := thin } } : MCMC ℝ).optimise Real.exp ((jointSum k C K).seen h) r
            ((List.ofFn ω).map fun w => s.input (fun k sg => sg * dval (pointDict ks w.1) k) w.2) = .ok (m', res) ∧
          (∀ i, ∃ p, m'.samples.proj1.find ks[i] = some p ∧ p.nBins = m.nGuess ∧ ∀ b, b < m.nGuess → p.getBinContent b = .ok (one i ω b)) ∧
          ((∀ q ∈ Combinations.allCombsNoDiag ks, ∀ r ∈ Combinations.allCombsNoDiag ks, q.1 ++ "_" ++ q.2 = r.1 ++ "_" ++ r.2 → q = r) →
            ∀ i j, j < i → ∃ p, m'.samples.proj2.find (ks[i] ++ "_" ++ ks[j]) = some p ∧ p.nBins = m.nGuess * m.nGuess ∧
              ∀ b c, b < m.nGuess → c < m.nGuess → p.getBinContent (b * m.nGuess + c) = .ok (two i j ω b c))) ∧
        (0 < recordedCount burnIn thin N →
          (∀ i b, b < m.nGuess →
            Integrable (fun ω => (one i ω b / recordedCount burnIn thin N - (sampledLaw lo hi fun x => jointPosterior log cs cs₀ n (pointDict ks x)).real {x | x i ∈ evenBin (lo i) (hi i) m.nGuess b}) ^ 2)
              (Measure.pi fun _ : Fin N => (Measure.pi fun _ : Fin ks.length => gaussianReal 0 1).prod (volume.restrict (Set.Ico (0 : ℝ) 1))) ∧
            ∫ ω, (one i ω b / recordedCount burnIn thin N - (sampledLaw lo hi fun x => jointPosterior log cs cs₀ n (pointDict ks x)).real {x | x i ∈ evenBin (lo i) (hi i) m.nGuess b}) ^ 2
              ∂(Measure.pi fun _ : Fin N => (Measure.pi fun _ : Fin ks.length => gaussianReal 0 1).prod (volume.restrict (Set.Ico (0 : ℝ) 1))) ≤ B / recordedCount burnIn thin N) ∧
          ∀ i j b c, b < m.nGuess → c < m.nGuess →
            Integrable (fun ω => (two i j ω b c / recordedCount burnIn thin N -
                (sampledLaw lo hi fun x => jointPosterior log cs cs₀ n (pointDict ks x)).real {x | x i ∈ evenBin (lo i) (hi i) m.nGuess b ∧ x j ∈ evenBin (lo j) (hi j) m.nGuess c}) ^ 2)
              (Measure.pi fun _ : Fin N => (Measure.pi fun _ : Fin ks.length => gaussianReal 0 1).prod (volume.restrict (Set.Ico (0 : ℝ) 1))) ∧
            ∫ ω, (two i j ω b c / recordedCount burnIn thin N -
                (sampledLaw lo hi fun x => jointPosterior log cs cs₀ n (pointDict ks x)).real {x | x i ∈ evenBin (lo i) (hi i) m.nGuess b ∧ x j ∈ evenBin (lo j) (hi j) m.nGuess c}) ^ 2
              ∂(Measure.pi fun _ : Fin N => (Measure.pi fun _ : Fin ks.length => gaussianReal 0 1).prod (volume.restrict (Set.Ico (0 : ℝ) 1))) ≤ B / recordedCount burnIn thin N) := by
  obtain ⟨cons, K, h, e1, e2, e3, e4, V, hVm, h2, h3, h4⟩ := joint_chain (name := name) (C := C) (objs := objs) hfit hcs hcs₀ hn hinit hk hne hall hlog hflip hlt hpos
  obtain ⟨B, g⟩ := C108_marginals (t := (jointSum k C K).seen h) hk hne (by rw [e4]) hl hmin hmax hlt h2 hVm (Or.inl hlog) h3 hs hf hfull hch hq hax hg
  rw [h4] at g
  exact ⟨cons, K, h, e1, e2, e3, B, g⟩

/-! ### Concrete cases: a channel of signal and background, and a channel of the background alone -/

noncomputable def exJoint (p : Fin 2) : List (BinnedED ℝ × NormStatus) := if p = 0 then exTwo else [(exRealPdf "b" (1/4) (3/4), .indirect)]

theorem exJoint_fitted (x : String) : x ∈ (["b", "s"] : List String) ↔ ∃ p, x ∈ PdfLog.fitted (exJoint p) := by
  constructor
  · intro hx
    refine ⟨0, ?_⟩
    show x ∈ (["s", "b"] : List String)
    revert hx; simp; tauto
  · rintro ⟨p, hp⟩
    by_cases h0 : p = 0
    · simp only [exJoint, h0, if_true] at hp
      have : x ∈ (["s", "b"] : List String) := hp
      revert this; simp; tauto
    · simp only [exJoint, h0, if_false] at hp
      have : x ∈ (["b"] : List String) := hp
      revert this; simp; tauto

theorem exJoint_canFit (x y : ℝ) (p : Fin 2) : CanFit (exJoint p) (exRealPdf "d" x y) := by
  unfold exJoint
  split
  · exact exTwo_canFit x y
  · exact ⟨by show (["b"] : List String).Nodup; decide, by show ([NormStatus.indirect]).Pairwise _; decide, by
      intro q hq
      simp only [List.mem_cons, List.not_mem_nil, or_false] at hq
      subst hq; exact ⟨rfl, rfl, rfl⟩, rfl⟩

theorem exJoint_init (b s : ℝ) (p : Fin 2) : ([("b", b), ("s", s)] : ParamDict ℝ) ≠ [] ∧ SMap.Sorted ([("b", b), ("s", s)] : ParamDict ℝ) ∧
    ∀ n ∈ PdfLog.fitted (exJoint p), (SMap.find [("b", b), ("s", s)] n).isSome := by
  refine ⟨by simp, ?_, fun n hn => ?_⟩
  · show List.Pairwise _ _
    simp only [List.pairwise_cons, List.mem_singleton, forall_eq, List.not_mem_nil, false_implies, implies_true, List.Pairwise.nil, and_true]
    decide +kernel
  · have : n ∈ (["b", "s"] : List String) := (exJoint_fitted n).2 ⟨p, hn⟩
    simp only [List.mem_cons, List.not_mem_nil, or_false] at this
    rcases this with rfl | rfl <;> rfl

theorem exJoint_positive (x y : ℝ) {b s : ℝ} (hb : 0 < b) (hs : 0 < s) (p : Fin 2) (i : Nat) (hi : i < (exRealPdf "d" x y).hist.nBins) :
    0 < rateAt (exJoint p) [("b", b), ("s", s)] i := by
  have : i < 2 := hi
  have hi' : i = 0 ∨ i = 1 := by omega
  unfold exJoint
  split
  · rcases hi' with rfl | rfl
    · rw [(exTwo_rate b s).1]; positivity
    · rw [(exTwo_rate b s).2]; positivity
  · rcases hi' with rfl | rfl <;> simp [rateAt, expectedRate, normOf, exRealPdf, NormStatus.fittable, SMap.find] <;> positivity

theorem exJoint_valid (x y : ℝ) {b s : ℝ} (hb : 0 < b) (hs : 0 < s) : JointValid exJoint (fun _ => exRealPdf "d" x y) [("b", b), ("s", s)] :=
  ⟨(exJoint_init b s 0).1, (exJoint_init b s 0).2.1, fun p => (exJoint_init b s p).2.2, fun p => exJoint_positive x y hb hs p⟩

theorem exJoint_gaussian : GoodGaussians [("b", 3, 1/2)] := ⟨by simp, by
  intro q hq
  rw [List.mem_singleton] at hq
  subst hq
  norm_num⟩

-- a constraint on the background held by the sum; after three other points the value is what it was
example (C : FitSys σ ℝ) (objs : Nat → σ) : ∃ (K : ConstraintManager ℝ) (h : Fin 2 → NLLH σ ℝ) (F : ℝ) (v : ParamDict ℝ → ℝ),
    setGaussians [("b", 3, 1/2)] = .ok K ∧ 0 < F ∧
    (jointSum 2 C K).scan h [[("b", 3), ("s", 2)], [("b", 1), ("s", 1)], [("b", 7), ("s", 1/2)], [("b", 3), ("s", 2)]] =
      .ok [some (v [("b", 3), ("s", 2)]), some (v [("b", 1), ("s", 1)]), some (v [("b", 7), ("s", 1/2)]), some (v [("b", 3), ("s", 2)])] ∧
    ∀ b s : ℝ, 0 < b → 0 < s → Real.exp (-v [("b", b), ("s", s)]) = F * (((dataLaw (exJoint 0) [("b", b), ("s", s)] 2).real {![4, 5]} *
      (dataLaw (exJoint 1) [("b", b), ("s", s)] 2).real {![4, 5]}) * gaussianPDFReal 3 ((1/2 : ℝ) ^ 2).toNNReal b) := by
  obtain ⟨cons, K, h, F, v, _, h2, _, h4, h5, h6⟩ := C109_posterior (name := exSysName) (C := C) (objs := fun _ => objs) (log := exJoint) (d := fun _ => exRealPdf "d" 4 5) (exJoint_canFit 4 5)
    (cs := fun _ => []) (cs₀ := [("b", 3, 1/2)]) (fun p => ⟨⟨by simp, by simp⟩, by simp⟩) ⟨exJoint_gaussian, by
      intro q hq
      rw [List.mem_singleton] at hq
      subst hq
      exact (exJoint_fitted "b").1 (by simp)⟩ (n := fun _ => ![4, 5]) (fun _ => exTwo_counts) (init := fun _ => [("b", 1), ("s", 1)])
    (fun p => ⟨(exJoint_init 1 1 p).1, (exJoint_init 1 1 p).2.2⟩)
  refine ⟨K, h, F, v, h2, h5, ?_, fun b s hb hs => ?_⟩
  · exact h4 [[("b", 3), ("s", 2)], [("b", 1), ("s", 1)], [("b", 7), ("s", 1/2)], [("b", 3), ("s", 2)]] (by
      intro D hD
      simp only [List.mem_cons, List.not_mem_nil, or_false] at hD
      rcases hD with rfl | rfl | rfl | rfl <;> exact exJoint_valid 4 5 (by norm_num) (by norm_num))
  · rw [h6 _ (exJoint_valid 4 5 hb hs)]
    unfold jointPosterior posterior priorAt
    rw [Fin.prod_univ_two]
    simp only [List.map_nil, List.prod_nil, mul_one, List.map_cons, List.prod_cons]
    rfl

-- data of both channels drawn from b = 3, s = 2: on average any other point is strictly worse
example (C : FitSys σ ℝ) (objs : Nat → σ) (b s : ℝ) (hb : 0 < b) (hs : 0 < s) (hne : b ≠ 3 ∨ s ≠ 2) :
    ∃ V₀ V : (Fin 2 → Fin 2 → ℕ) → ℝ,
      (∀ n : Fin 2 → Fin 2 → ℕ, ∃ h : Fin 2 → NLLH σ ℝ,
        (∀ p, NLLH.configured exSysName C objs (exJoint p) .empty [("b", 1), ("s", 1)] (withCounts (exRealPdf "d" 0 0) (n p)) = .ok (h p)) ∧
        (jointSum 2 C .empty).scan h [[("b", 3), ("s", 2)], [("b", b), ("s", s)]] = .ok [some (V₀ n), some (V n)]) ∧
      ∫ n, V₀ n ∂(jointLaw exJoint [("b", 3), ("s", 2)] fun _ => 2) < ∫ n, V n ∂(jointLaw exJoint [("b", 3), ("s", 2)] fun _ => 2) := by
  have pt : ∀ b s : ℝ, 0 < b → 0 < s → JointPoint exJoint (fun _ => .empty) .empty (fun _ => exRealPdf "d" 0 0) [("b", b), ("s", s)] 0 := fun b s hb hs =>
    ⟨(exJoint_init b s 0).1, (exJoint_init b s 0).2.1, fun p => (exJoint_init b s p).2.2, fun p => exJoint_positive 0 0 hb hs p, fun _ => 0, 0, fun _ => rfl, rfl, by simp⟩
  obtain ⟨V₀, V, h1, _, _, h3, h4⟩ := C109_average (name := exSysName) (C := C) (objs := fun _ => objs) (exJoint_canFit 0 0) (init := fun _ => [("b", 1), ("s", 1)])
    (fun p => ⟨(exJoint_init 1 1 p).1, (exJoint_init 1 1 p).2.2⟩) (pt 3 2 (by norm_num) (by norm_num)) (pt b s hb hs)
  refine ⟨V₀, V, h1, lt_of_le_of_ne (by rw [sub_zero, sub_zero] at h3; exact h3) (fun e => ?_)⟩
  have hr := h4.1 (by rw [sub_zero, sub_zero]; exact e) 0
  have r0 := hr 0 (by show 0 < 2; omega)
  have r1 := hr 1 (by show 1 < 2; omega)
  simp only [exJoint, if_true] at r0 r1
  rw [(exTwo_rate b s).1, (exTwo_rate 3 2).1] at r0
  rw [(exTwo_rate b s).2, (exTwo_rate 3 2).2] at r1
  rcases hne with h | h
  · exact h (by linarith)
  · exact h (by linarith)

-- a run between 1 and 10
example (C : FitSys σ ℝ) (objs : Nat → σ) : ∃ (K : ConstraintManager ℝ) (h : Fin 2 → NLLH σ ℝ), setGaussians [("b", 3, 1/2)] = .ok K ∧
    ∀ ω : Fin 5000 → (Fin 2 → ℝ) × ℝ, ∃ m' res, ({ exChain with nGuess := 10, samples := { MCMCSamples.new with burnIn := 1000, thin := 2 }, trial := pointDict ["b", "s"] (fun _ => 2), maxIter := 5000 } : MCMC ℝ).optimise
          Real.exp ((jointSum 2 C K).seen h) (fun _ => 0)
          ((List.ofFn ω).map fun w => exWalk.input (fun k sg => sg * dval (pointDict ["b", "s"] w.1) k) w.2) = .ok (m', res) ∧
        (∃ p, m'.samples.proj1.find "b" = some p ∧ p.nBins = 10) ∧ (∃ p, m'.samples.proj2.find "s_b" = some p ∧ p.nBins = 100) := by
  obtain ⟨cons, K, h, _, h1, _, B, h2⟩ := C109_chain_marginals (name := exSysName) (C := C) (objs := fun _ => objs) (log := exJoint) (d := fun _ => exRealPdf "d" 4 5) (exJoint_canFit 4 5)
    (cs := fun _ => []) (cs₀ := [("b", 3, 1/2)]) (fun p => ⟨⟨by simp, by simp⟩, by simp⟩) ⟨exJoint_gaussian, by
      intro q hq
      rw [List.mem_singleton] at hq
      subst hq
      exact (exJoint_fitted "b").1 (by simp)⟩ (n := fun _ => ![4, 5]) (fun _ => exTwo_counts) (init := fun _ => [("b", 1), ("s", 1)])
    (exJoint_init 1 1) exNames_sorted (by simp) exJoint_fitted
      (m := { exChain with nGuess := 10, samples := MCMCSamples.new }) rfl rfl (lo := fun _ => 1) (hi := fun _ => 10)
      ⟨exChain_limits.low, exChain_limits.high⟩ rfl rfl (fun _ => by norm_num) (by
        intro x hx p b hb
        have e : pointDict ["b", "s"] x = [("b", x ⟨0, by decide⟩), ("s", x ⟨1, by decide⟩)] := by simp [pointDict, List.ofFn_succ]
        have a0 := (hx ⟨0, by decide⟩).1
        have a1 := (hx ⟨1, by decide⟩).1
        rw [e]
        exact exJoint_positive 4 5 (by linarith) (by linarith) p b hb) (s := exWalk) exWalk_widths
      ⟨rfl, rfl, rfl, rfl⟩ rfl rfl (by show 0 < 1000; omega) rfl (by show 0 < 10; omega)
  obtain ⟨one, two, h3, _⟩ := h2 (fun _ => 2) (fun i => ⟨by norm_num, by norm_num⟩) 1000 2 (by decide) 5000 (fun _ => 0) (by omega)
  refine ⟨K, h, h1, fun ω => ?_⟩
  obtain ⟨m', res, r1, r2, r3⟩ := h3 ω
  refine ⟨m', res, r1, ?_, ?_⟩
  · obtain ⟨p, p1, p2, _⟩ := r2 ⟨0, by decide⟩
    exact ⟨p, p1, p2⟩
  · obtain ⟨p, p1, p2, _⟩ := r3 (by decide) ⟨1, by decide⟩ ⟨0, by decide⟩ (by decide)
    exact ⟨p, p1, p2⟩

end Oxsx
