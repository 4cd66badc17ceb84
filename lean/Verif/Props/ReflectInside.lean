import Verif.Props.Reflect
set_option linter.unusedSectionVars false
set_option linter.unusedSimpArgs false
set_option linter.unusedVariables false
/-
C55: walls that are not reached make no difference, and which integration the sampler chooses.
-/
namespace Oxsx
open LeapFrog
variable {α : Type} [Field α] [LinearOrder α] [IsStrictOrderedRing α]

/-- A coordinate that ends within the walls after `e` is not seen to cross one. -/
theorem crossTime_none {q v lo hi e : α} (h1 : lo ≤ q + e * v) (h2 : q + e * v ≤ hi) : crossTime q v lo hi e = none := by
  unfold crossTime
  rw [if_neg, if_neg]
  · rintro ⟨hv, hq, ht⟩
    rw [div_lt_iff₀ hv] at ht; linarith
  · rintro ⟨hv, hq, ht⟩
    rw [div_lt_iff_of_neg hv] at ht; linarith

theorem LeapFrog.reflectDrift_inside {m lo hi q p : ParamDict α} {e : α} {fuel : Nat} {r : ParamDict α × ParamDict α} (hb : BoxSetup m lo hi q p)
    (hr : drift e m q p = .ok r) (hw : Within lo hi r.1) : reflectDrift m lo hi e fuel (q, p) = .ok (some r) := by
  have hk : ∀ x ∈ q, x.1 ∈ p.keys := fun x hx => hb.names ▸ List.mem_map.2 ⟨x, hx, rfl⟩
  obtain ⟨hr', -⟩ := drift_eq hk hr
  obtain ⟨d, t, hf, hcase⟩ := first_spec (e := e - 0) hb
  have hnone : ∀ x ∈ q, crossTime x.2 (speed m p x.1) (dval lo x.1) (dval hi x.1) (e - 0) = none := by
    intro x hx
    have := hw (x.1, x.2 + e * (p.find x.1).getD 0 / (m.find x.1).getD 0) (by rw [hr']; exact List.mem_map.2 ⟨x, hx, rfl⟩)
    simp only at this
    rw [sub_zero]
    rw [mul_div_assoc] at this
    exact crossTime_none this.1 this.2
  rcases hcase with ⟨hd, -⟩ | ⟨hd, -, -, ⟨x, hx, -, hc⟩, -⟩
  · unfold reflectDrift
    have : reflectLoop m lo hi e fuel (q, p, 0) = .ok (some (q, p, 0)) := by
      unfold reflectLoop
      simp only [hf, Res.ok_bind]
      rw [if_pos hd]
    rw [this]
    simp only [Res.ok_bind, sub_zero, hr]
  · rw [hnone x hx] at hc; cases hc

theorem BoxSetup.of_keys {m lo hi q p q' p' : ParamDict α} (hb : BoxSetup m lo hi q p) (hq : q'.keys = q.keys) (hp : p'.keys = p.keys) :
    BoxSetup m lo hi q' p' :=
  ⟨sorted_of_keys hb.sorted hq.symm, by rw [hq, hp]; exact hb.names, fun k hk => hb.masses k (hq ▸ hk), fun k hk => hb.low k (hq ▸ hk),
    fun k hk => hb.high k (hq ▸ hk), fun k hk => hb.room k (hq ▸ hk), hq ▸ hb.nonempty⟩

theorem LeapFrog.oneStep_keys {m : ParamDict α} {e : α} {d : Differ α} {s r : ParamDict α × ParamDict α} (hs : s.1.keys = s.2.keys)
    (h : oneStep m e d s = .ok r) : r.1.keys = s.1.keys ∧ r.2.keys = s.2.keys := by
  unfold oneStep at h
  obtain ⟨g, hg, h⟩ := Res.bind_eq_ok.1 h
  obtain ⟨x, hx, h⟩ := Res.bind_eq_ok.1 h
  obtain ⟨g', hg', h⟩ := Res.bind_eq_ok.1 h
  obtain ⟨rfl, -⟩ := drift_eq (by intro y hy; rw [kick_keys, ← hs]; exact List.mem_map.2 ⟨y, hy, rfl⟩) hx
  cases h
  refine ⟨by simp [SMap.keys, Function.comp_def], by simp only [kick_keys]⟩

/-- C55, one reflective step: if the ordinary step from the same point ends within the walls, the reflective step does exactly the same. -/
theorem C55_reflect_inside_step {m lo hi : ParamDict α} {e : α} {d : Differ α} {s r : ParamDict α × ParamDict α} (fuel : Nat) (hb : BoxSetup m lo hi s.1 s.2)
    (h : oneStep m e d s = .ok r) (hw : Within lo hi r.1) : reflectStep m lo hi e d fuel s = .ok (some r) := by
  unfold oneStep at h
  obtain ⟨g, hg, h⟩ := Res.bind_eq_ok.1 h
  obtain ⟨x, hx, h⟩ := Res.bind_eq_ok.1 h
  obtain ⟨g', hg', h⟩ := Res.bind_eq_ok.1 h
  cases h
  have hb' : BoxSetup m lo hi s.1 (kick (e / 2) g s.2) := hb.of_keys rfl (by rw [kick_keys])
  unfold reflectStep
  rw [hg]
  simp only [Res.ok_bind, reflectDrift_inside (fuel := fuel) hb' hx hw, hg']

/-- C55, walls that are never reached: if every one of the first `n` points of the ordinary integration is within the walls, then integrating
with reflections gives the same end point, whatever the statistic, the masses and the step size. -/
theorem C55_reflect_inside {m lo hi : ParamDict α} {e : α} {d : Differ α} {n : Nat} {s r : ParamDict α × ParamDict α} (fuel : Nat)
    (hb : BoxSetup m lo hi s.1 s.2) (h : repeatStep m e d n s = .ok r) (hw : ∀ k, 0 < k → k ≤ n → ∀ s', repeatStep m e d k s = .ok s' → Within lo hi s'.1) :
    reflectSteps m lo hi e d fuel n s = .ok (some r) := by
  induction n generalizing s with
  | zero => cases h; rfl
  | succ n ih =>
    obtain ⟨s1, h1, h2⟩ := Res.bind_eq_ok.1 h
    have w1 : Within lo hi s1.1 := hw 1 (by omega) (by omega) s1 (by simp only [repeatStep, h1, Res.ok_bind])
    obtain ⟨k1, k2⟩ := oneStep_keys hb.names h1
    unfold reflectSteps
    rw [C55_reflect_inside_step fuel hb h1 w1]
    simp only [Res.ok_bind]
    refine ih (hb.of_keys k1 k2) h2 (fun k hk0 hk s' hs' => hw (k + 1) (by omega) (by omega) s' ?_)
    simp only [repeatStep, h1, Res.ok_bind]; exact hs'

/-- C55, which integration the sampler uses: with no minima or no maxima given it takes the configured number of ordinary steps; with both,
the reflecting ones, which agree with the ordinary ones as long as these stay within the walls. -/
theorem C55_evolve (s : HamiltonianSampler α) (fuel : Nat) (x : ParamDict α × ParamDict α) (hn : 0 < s.nSteps) :
    (s.minima = [] ∨ s.maxima = [] → s.evolve fuel x = (repeatStep s.masses s.eps s.differ s.nSteps x >>= fun r => Res.ok (some r))) ∧
    (BoxSetup s.masses s.minima s.maxima x.1 x.2 →
      (∀ k, 0 < k → k ≤ s.nSteps → ∀ y, repeatStep s.masses s.eps s.differ k x = .ok y → Within s.minima s.maxima y.1) →
      ∀ r, repeatStep s.masses s.eps s.differ s.nSteps x = .ok r → s.evolve fuel x = .ok (some r)) := by
  constructor
  · intro h
    unfold HamiltonianSampler.evolve
    rw [if_neg (by rcases h with h | h <;> simp [h]), C55_n_steps hn]
  · intro hb hw r hr
    unfold HamiltonianSampler.evolve
    split
    · exact C55_reflect_inside fuel hb hr hw
    · rw [C55_n_steps hn, hr]; rfl

/-- The sampler of `a²` between walls at -2 and 2. -/
def exWalled : HamiltonianSampler ℚ where
  stat := { names := ["a"], eval := fun p => MCMC.dictAt p "a" >>= fun a => .ok (a * a) }
  masses := [("a", 1)]
  minima := [("a", -2)]
  maxima := [("a", 2)]
  eps := 1/2
  nSteps := 3

/-- Non-vacuity: three steps that stay inside, with forces acting. -/
example : BoxSetup exWalled.masses exWalled.minima exWalled.maxima [("a", 1)] [("a", 1/2)] ∧
    (∀ k, 0 < k → k ≤ 3 → ∀ y, repeatStep exWalled.masses exWalled.eps exWalled.differ k ([("a", 1)], [("a", 1/2)]) = .ok y →
      Within exWalled.minima exWalled.maxima y.1) ∧
    repeatStep exWalled.masses exWalled.eps exWalled.differ 3 ([("a", 1)], [("a", 1/2)]) = .ok ([("a", -1/4)], [("a", -11/8)]) ∧
    exWalled.evolve 0 ([("a", 1)], [("a", 1/2)]) = .ok (some ([("a", -1/4)], [("a", -11/8)])) ∧
    ({ exWalled with maxima := [] } : HamiltonianSampler ℚ).evolve 0 ([("a", 1)], [("a", 1/2)]) = .ok (some ([("a", -1/4)], [("a", -11/8)])) := by
  refine ⟨?_, ?_, by decide +kernel, by decide +kernel, by decide +kernel⟩
  · refine ⟨by decide +kernel, rfl, ?_, ?_, ?_, ?_, by decide +kernel⟩ <;> intro k hk <;>
      (obtain rfl : k = "a" := by simpa [SMap.keys] using hk) <;> decide +kernel
  · intro k h0 h3 y hy x hx
    have e1 : repeatStep exWalled.masses exWalled.eps exWalled.differ 1 ([("a", 1)], [("a", 1/2)]) = .ok ([("a", 1)], [("a", -1/2)]) := by decide +kernel
    have e2 : repeatStep exWalled.masses exWalled.eps exWalled.differ 2 ([("a", 1)], [("a", 1/2)]) = .ok ([("a", 1/2)], [("a", -5/4)]) := by decide +kernel
    have e3 : repeatStep exWalled.masses exWalled.eps exWalled.differ 3 ([("a", 1)], [("a", 1/2)]) = .ok ([("a", -1/4)], [("a", -11/8)]) := by decide +kernel
    obtain rfl | rfl | rfl : k = 1 ∨ k = 2 ∨ k = 3 := by omega
    · rw [e1] at hy; cases hy; obtain rfl := List.mem_singleton.1 hx; decide +kernel
    · rw [e2] at hy; cases hy; obtain rfl := List.mem_singleton.1 hx; decide +kernel
    · rw [e3] at hy; cases hy; obtain rfl := List.mem_singleton.1 hx; decide +kernel

end Oxsx
