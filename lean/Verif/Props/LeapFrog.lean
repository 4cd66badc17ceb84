import Verif.Model.LeapFrog
import Verif.Props.MCMC
import Mathlib.Algebra.Order.Archimedean.Basic
import Mathlib.Algebra.Order.Floor.Ring
import Mathlib.Tactic.FieldSimp
import Mathlib.Tactic.Linarith
set_option linter.unusedSectionVars false
set_option linter.unusedSimpArgs false
set_option linter.unusedVariables false
/-
C55: leapfrog integration.
-/
namespace Oxsx
open LeapFrog
variable {α : Type} [Field α] [LinearOrder α] [IsStrictOrderedRing α]

/-- Reversing the momenta. -/
def flipMomenta (s : ParamDict α × ParamDict α) : ParamDict α × ParamDict α := (s.1, s.2.map (fun p => (p.1, -p.2)))

/-- `n` single steps one after the other. -/
def repeatStep (masses : ParamDict α) (e : α) (d : Differ α) : Nat → ParamDict α × ParamDict α → Res (ParamDict α × ParamDict α)
  | 0, s => .ok s
  | n + 1, s => oneStep masses e d s >>= repeatStep masses e d n

theorem LeapFrog.kick_keys (c : α) (g p : ParamDict α) : (kick c g p).keys = p.keys := by simp [kick, SMap.keys]

theorem LeapFrog.kick_find (c : α) (g p : ParamDict α) (k : String) : (kick c g p).find k = (p.find k).map (fun v => v - c * (g.find k).getD 0) := by
  unfold kick; exact SMap.find_mapVal p (fun k v => v - c * (g.find k).getD 0) k

theorem flip_find (p : ParamDict α) (k : String) : SMap.find (p.map (fun x => (x.1, -x.2))) k = (p.find k).map (fun v => -v) :=
  SMap.find_mapVal p (fun _ v => -v) k

/-- What a drift does when every position has a momentum. -/
theorem LeapFrog.drift_eq {e : α} {m q p : ParamDict α} {r : ParamDict α × ParamDict α} (hk : ∀ x ∈ q, x.1 ∈ p.keys) (h : drift e m q p = .ok r) :
    r = (q.map (fun x => (x.1, x.2 + e * (p.find x.1).getD 0 / (m.find x.1).getD 0)), p) ∧ ∀ x ∈ q, (m.find x.1).isSome := by
  have gen : ∀ (q acc : ParamDict α), (∀ x ∈ q, x.1 ∈ p.keys) → ∀ r, Res.forFold (driftOne e m) (acc, p) q = .ok r →
      r = (acc ++ q.map (fun x => (x.1, x.2 + e * (p.find x.1).getD 0 / (m.find x.1).getD 0)), p) ∧ ∀ x ∈ q, (m.find x.1).isSome := by
    intro q
    induction q with
    | nil => intro acc _ r h; cases h; simp
    | cons x q ih =>
      intro acc hk r h
      obtain ⟨s1, h1, h2⟩ := Res.forFold_cons_eq_ok.1 h
      unfold driftOne at h1
      simp only [insertNew_mem (hk x List.mem_cons_self)] at h1
      split at h1
      · rename_i ms hms
        cases h1
        obtain ⟨e1, e2⟩ := ih _ (fun y hy => hk y (List.mem_cons_of_mem _ hy)) r h2
        refine ⟨by rw [e1]; simp [hms], ?_⟩
        intro y hy
        rcases List.mem_cons.1 hy with rfl | hy
        · rw [hms]; rfl
        · exact e2 y hy
      · cases h1
  have := gen q [] hk r h
  simpa using this

theorem LeapFrog.drift_ok {e : α} {m q p : ParamDict α} (hk : ∀ x ∈ q, x.1 ∈ p.keys) (hm : ∀ x ∈ q, (m.find x.1).isSome) :
    drift e m q p = .ok (q.map (fun x => (x.1, x.2 + e * (p.find x.1).getD 0 / (m.find x.1).getD 0)), p) := by
  have gen : ∀ (q acc : ParamDict α), (∀ x ∈ q, x.1 ∈ p.keys) → (∀ x ∈ q, (m.find x.1).isSome) → ∃ r, Res.forFold (driftOne e m) (acc, p) q = .ok r := by
    intro q
    induction q with
    | nil => intro acc _ _; exact ⟨_, rfl⟩
    | cons x q ih =>
      intro acc hk hm
      obtain ⟨ms, hms⟩ := Option.isSome_iff_exists.1 (hm x List.mem_cons_self)
      obtain ⟨r, hr⟩ := ih (acc ++ [(x.1, x.2 + e * (p.find x.1).getD 0 / ms)]) (fun y hy => hk y (List.mem_cons_of_mem _ hy)) (fun y hy => hm y (List.mem_cons_of_mem _ hy))
      refine ⟨r, Res.forFold_cons_eq_ok.2 ⟨_, ?_, hr⟩⟩
      unfold driftOne
      simp only [insertNew_mem (hk x List.mem_cons_self), hms]
  obtain ⟨r, hr⟩ := gen q [] hk hm
  rw [show drift e m q p = .ok r from hr, (drift_eq hk hr).1]

/-- Positions and momenta of the same parameters. -/
def SameNames (s : ParamDict α × ParamDict α) : Prop := s.1.keys = s.2.keys

theorem SameNames.mem {s : ParamDict α × ParamDict α} (h : SameNames s) : ∀ x ∈ s.1, x.1 ∈ s.2.keys := by
  intro x hx; rw [← h]; exact List.mem_map.2 ⟨x, hx, rfl⟩

theorem LeapFrog.oneStep_names {m : ParamDict α} {e : α} {d : Differ α} {s s' : ParamDict α × ParamDict α} (hs : SameNames s)
    (h : oneStep m e d s = .ok s') : SameNames s' := by
  unfold oneStep at h
  obtain ⟨g, hg, h⟩ := Res.bind_eq_ok.1 h
  obtain ⟨r, hr, h⟩ := Res.bind_eq_ok.1 h
  obtain ⟨g', hg', h⟩ := Res.bind_eq_ok.1 h
  cases h
  obtain ⟨e1, _⟩ := drift_eq (by intro x hx; rw [kick_keys]; exact hs.mem x hx) hr
  unfold SameNames
  rw [kick_keys, e1, kick_keys, ← hs]
  simp [SMap.keys]

/-- One step is undone by reversing the momenta and stepping again. -/
theorem LeapFrog.oneStep_reverse {m : ParamDict α} {e : α} {d : Differ α} {s s' : ParamDict α × ParamDict α} (hs : SameNames s)
    (h : oneStep m e d s = .ok s') : oneStep m e d (flipMomenta s') = .ok (flipMomenta s) := by
  unfold oneStep at h
  obtain ⟨g, hg, h⟩ := Res.bind_eq_ok.1 h
  obtain ⟨r, hr, h⟩ := Res.bind_eq_ok.1 h
  obtain ⟨g', hg', h⟩ := Res.bind_eq_ok.1 h
  cases h
  obtain ⟨e1, e2⟩ := drift_eq (by intro x hx; rw [kick_keys]; exact hs.mem x hx) hr
  obtain ⟨r1, r2⟩ := r
  simp only [Prod.mk.injEq] at e1
  obtain ⟨a1, a2⟩ := e1
  have k1 : kick (e / 2) g' ((kick (e / 2) g' r2).map (fun p => (p.1, -p.2))) = r2.map (fun p => (p.1, -p.2)) := by
    unfold kick
    rw [List.map_map, List.map_map]
    apply List.map_congr_left
    intro x _
    simp only [Function.comp]
    congr 1; ring
  have hmem : ∀ x ∈ r1, x.1 ∈ SMap.keys (r2.map (fun p => (p.1, -p.2))) := by
    intro x hx
    rw [a1] at hx
    obtain ⟨y, hy, rfl⟩ := List.mem_map.1 hx
    have : SMap.keys (r2.map (fun p => (p.1, -p.2))) = s.2.keys := by
      rw [a2]; simp [SMap.keys, kick]
    rw [this]; exact hs.mem y hy
  have hmass : ∀ x ∈ r1, (m.find x.1).isSome := by
    intro x hx
    rw [a1] at hx
    obtain ⟨y, hy, rfl⟩ := List.mem_map.1 hx
    exact e2 y hy
  have hd := drift_ok (e := e) hmem hmass
  have hq : r1.map (fun x => (x.1, x.2 + e * (SMap.find (r2.map (fun p => (p.1, -p.2))) x.1).getD 0 / (m.find x.1).getD 0)) = s.1 := by
    rw [a1, List.map_map]
    conv_rhs => rw [← List.map_id s.1]
    apply List.map_congr_left
    intro x _
    simp only [Function.comp, id]
    rw [flip_find, a2]
    refine Prod.ext rfl ?_
    simp only
    cases (kick (e / 2) g s.2).find x.1 with
    | none => simp
    | some v => simp only [Option.map_some, Option.getD_some]; ring
  rw [hq] at hd
  have k2 : kick (e / 2) g (r2.map (fun p => (p.1, -p.2))) = s.2.map (fun p => (p.1, -p.2)) := by
    rw [a2]; unfold kick
    rw [List.map_map, List.map_map]
    apply List.map_congr_left
    intro x _
    simp only [Function.comp]
    congr 1; ring
  unfold oneStep flipMomenta
  simp only
  rw [hg', Res.ok_bind, k1, hd, Res.ok_bind]
  simp only
  rw [hg, Res.ok_bind, k2]

theorem repeatStep_names {m : ParamDict α} {e : α} {d : Differ α} {n : Nat} {s s' : ParamDict α × ParamDict α} (hs : SameNames s)
    (h : repeatStep m e d n s = .ok s') : SameNames s' := by
  induction n generalizing s with
  | zero => cases h; exact hs
  | succ n ih =>
    obtain ⟨s1, h1, h2⟩ := Res.bind_eq_ok.1 h
    exact ih (oneStep_names hs h1) h2

theorem repeatStep_add {m : ParamDict α} {e : α} {d : Differ α} (n k : Nat) (s : ParamDict α × ParamDict α) :
    repeatStep m e d (n + k) s = (repeatStep m e d n s >>= repeatStep m e d k) := by
  induction n generalizing s with
  | zero => simp only [Nat.zero_add]; rfl
  | succ n ih =>
    rw [Nat.succ_add]
    show (oneStep m e d s >>= repeatStep m e d (n + k)) = _
    simp only [repeatStep, bind_assoc]
    congr 1; funext x; exact ih x

theorem repeatStep_reverse {m : ParamDict α} {e : α} {d : Differ α} {n : Nat} {s s' : ParamDict α × ParamDict α} (hs : SameNames s)
    (h : repeatStep m e d n s = .ok s') : repeatStep m e d n (flipMomenta s') = .ok (flipMomenta s) := by
  induction n generalizing s with
  | zero => cases h; rfl
  | succ n ih =>
    obtain ⟨s1, h1, h2⟩ := Res.bind_eq_ok.1 h
    have e1 := ih (oneStep_names hs h1) h2
    have e2 := oneStep_reverse hs h1
    rw [repeatStep_add n 1, e1, Res.ok_bind]
    show (oneStep m e d (flipMomenta s1) >>= repeatStep m e d 0) = _
    rw [e2]; rfl

/-- The mid-steps of the n-step integrator with the last one without a kick. -/
def loopM (m : ParamDict α) (e : α) (d : Differ α) : Nat → ParamDict α × ParamDict α → Res (ParamDict α × ParamDict α)
  | 0, s => midStep m e d true s
  | n + 1, s => midStep m e d false s >>= loopM m e d n

theorem forFold_loopM (m : ParamDict α) (e : α) (d : Differ α) (n a : Nat) (s : ParamDict α × ParamDict α) :
    Res.forFold (fun s (i : Nat) => midStep m e d (decide (i = a + n)) s) s (List.range' a (n + 1)) = loopM m e d n s := by
  induction n generalizing a s with
  | zero =>
    simp only [List.range', Res.forFold, loopM, Nat.add_zero, decide_true]
    cases midStep m e d true s <;> rfl
  | succ n ih =>
    rw [List.range'_succ]
    simp only [Res.forFold, loopM]
    have : decide (a = a + (n + 1)) = false := by simp
    rw [this]
    cases h : midStep m e d false s with
    | ok s' =>
      simp only [Res.ok_bind]
      have := ih (a + 1) s'
      rw [show a + 1 + n = a + (n + 1) by omega] at this
      exact this
    | throw x => rfl
    | ub => rfl

theorem LeapFrog.kick_twice (c : α) (g p : ParamDict α) : kick (c / 2) g (kick (c / 2) g p) = kick c g p := by
  unfold kick
  rw [List.map_map]
  apply List.map_congr_left
  intro x _
  simp only [Function.comp]
  congr 1; ring

theorem loop_eq_repeat (m : ParamDict α) (e : α) (d : Differ α) (n : Nat) (s : ParamDict α × ParamDict α) :
    (d s.1 >>= fun g => loopM m e d n (s.1, kick (e / 2) g s.2) >>= fun r => d r.1 >>= fun g => Res.ok (r.1, kick (e / 2) g r.2)) =
      repeatStep m e d (n + 1) s := by
  induction n generalizing s with
  | zero =>
    simp only [loopM, repeatStep, midStep, oneStep, if_true, bind_assoc, Res.ok_bind]
  | succ n ih =>
    simp only [loopM, repeatStep, oneStep, midStep, bind_assoc, Res.ok_bind, Bool.false_eq_true, if_false]
    congr 1; funext g
    congr 1; funext r
    cases hd : d r.1 with
    | ok g' =>
      simp only [Res.ok_bind]
      have := ih (r.1, kick (e / 2) g' r.2)
      simp only [hd, Res.ok_bind, kick_twice] at this
      rw [this]; simp only [repeatStep, oneStep, hd, Res.ok_bind, bind_assoc, kick_twice]
    | throw x => rfl
    | ub => rfl

/-- C55, consistency: integrating `n ≥ 1` steps with merged half-steps is the same as taking `n` single steps. -/
theorem C55_n_steps {n : Nat} (hn : 0 < n) (m : ParamDict α) (e : α) (d : Differ α) (s : ParamDict α × ParamDict α) :
    nSteps m e d n s = repeatStep m e d n s := by
  obtain ⟨k, rfl⟩ := Nat.exists_eq_succ_of_ne_zero hn.ne'
  rw [← loop_eq_repeat]
  unfold nSteps
  congr 1; funext g
  have := forFold_loopM m e d k 0 (s.1, kick (e / 2) g s.2)
  rw [List.range_eq_range']
  simp only [Nat.zero_add] at this
  simp only [Nat.succ_eq_add_one, Nat.add_sub_cancel]
  rw [this]

/-- C55, reversibility: for every differentiator, masses, step size and number of steps, integrating `n` steps, reversing the momenta and
integrating `n` steps again gives the starting positions with reversed momenta. (Real arithmetic, non-zero masses.) -/
theorem C55_reversible {n : Nat} {m : ParamDict α} {e : α} {d : Differ α} {s s' : ParamDict α × ParamDict α} (hs : s.1.keys = s.2.keys)
    (h : nSteps m e d n s = .ok s') : nSteps m e d n (flipMomenta s') = .ok (flipMomenta s) := by
  by_cases hn : 0 < n
  · rw [C55_n_steps hn] at h ⊢
    exact repeatStep_reverse hs h
  · obtain rfl : n = 0 := by omega
    unfold nSteps at h ⊢
    obtain ⟨g, hg, h⟩ := Res.bind_eq_ok.1 h
    simp only [List.range_zero, Res.forFold] at h ⊢
    simp only [hg, Res.ok_bind, kick_twice] at h
    cases h
    simp only [flipMomenta, hg, Res.ok_bind, kick_twice]
    congr 2
    unfold kick
    rw [List.map_map, List.map_map]
    apply List.map_congr_left
    intro x _
    simp only [Function.comp]
    congr 1; ring

/-- C55: the single-step form is reversible too. -/
theorem C55_one_step_reversible {m : ParamDict α} {e : α} {d : Differ α} {s s' : ParamDict α × ParamDict α} (hs : s.1.keys = s.2.keys)
    (h : oneStep m e d s = .ok s') : oneStep m e d (flipMomenta s') = .ok (flipMomenta s) := oneStep_reverse hs h

/-- C55: with 0 steps the positions stay but the momenta get a full kick, unlike a sequence of no steps. -/
theorem C55_zero_steps (m : ParamDict α) (e : α) (d : Differ α) {s : ParamDict α × ParamDict α} {g : ParamDict α} (hg : d s.1 = .ok g) :
    nSteps m e d 0 s = .ok (s.1, s.2.map (fun p => (p.1, p.2 - e * (g.find p.1).getD 0))) := by
  unfold nSteps
  simp only [hg, List.range_zero, Res.forFold, Res.ok_bind, kick_twice]
  rfl

/-- C55, the energy correction: with a logged statistic the acceptance exponent is minus the change of the total energy, the potential being
minus the statistic. -/
theorem C55_energy_correction {s : HamiltonianSampler α} {g : String → α → α} {fuel : Nat} {q q' : ParamDict α} {c : α}
    (h : s.draw g fuel q = .ok (some (q', c))) :
    ∃ p p' k k', (s.momenta g q).2 = p ∧ (s.momenta g q).1.evolve fuel (q, p) = .ok (some (q', p')) ∧
      HamiltonianSampler.kinetic (s.momenta g q).1.masses p = .ok k ∧ HamiltonianSampler.kinetic (s.momenta g q).1.masses p' = .ok k' ∧ c = k - k' ∧
      ∀ L L' : α, L' - L + c = (-L + k) - (-L' + k') := by
  unfold HamiltonianSampler.draw at h
  obtain ⟨k, hk, h⟩ := Res.bind_eq_ok.1 h
  obtain ⟨x, hx, h⟩ := Res.bind_eq_ok.1 h
  cases x with
  | none => cases h
  | some x =>
    simp only at h
    obtain ⟨k', hk', h⟩ := Res.bind_eq_ok.1 h
    cases h
    exact ⟨_, x.2, k, k', rfl, hx, hk, hk', rfl, fun L L' => by ring⟩

theorem kinetic_from {m p : ParamDict α} {a k : α} (h : Res.forFold (HamiltonianSampler.kineticOne m) a p = .ok k) :
    k = a + (p.map (fun x => x.2 * x.2 / 2 / (m.find x.1).getD 0)).sum := by
  induction p generalizing a with
  | nil => cases h; simp
  | cons x p ih =>
    obtain ⟨a1, h1, h2⟩ := Res.forFold_cons_eq_ok.1 h
    unfold HamiltonianSampler.kineticOne at h1
    obtain ⟨ms, hms, h1⟩ := Res.bind_eq_ok.1 h1
    cases h1
    rw [ih h2, List.map_cons, List.sum_cons, MCMC.dictAt_ok hms]
    simp [add_assoc]

/-- C55: the kinetic energy is the sum of `p² / 2m`, and is unchanged by reversing the momenta. -/
theorem C55_kinetic {m p : ParamDict α} {k : α} (h : HamiltonianSampler.kinetic m p = .ok k) :
    k = (p.map (fun x => x.2 * x.2 / 2 / (m.find x.1).getD 0)).sum ∧ HamiltonianSampler.kinetic m (p.map (fun x => (x.1, -x.2))) = .ok k := by
  refine ⟨by have := kinetic_from h; simpa using this, ?_⟩
  unfold HamiltonianSampler.kinetic at *
  rw [Res.forFold_map]
  rw [← h]
  congr 1
  funext a x
  unfold HamiltonianSampler.kineticOne
  simp

/-! The numerical derivative -/

theorem gradient_from {f : ParamDict α → Res α} {h : α} {x0 x acc g : ParamDict α} (ha : acc.Sorted) (hx : x.Sorted)
    (hg : Res.forFold (gradientOne f h x0) acc x = .ok g) :
    g.Sorted ∧ ∀ k, (x.find k = none → g.find k = acc.find k) ∧ ∀ v, x.find k = some v → ∃ a b, f (x0.insert k (v + h)) = .ok a ∧
      f (x0.insert k (v - h)) = .ok b ∧ g.find k = some ((a - b) / 2 / h) := by
  induction x generalizing acc with
  | nil => cases hg; exact ⟨ha, fun k => ⟨fun _ => rfl, fun v hv => by simp [SMap.find] at hv⟩⟩
  | cons p x ih =>
    obtain ⟨n, w⟩ := p
    obtain ⟨a1, h1, h2⟩ := Res.forFold_cons_eq_ok.1 hg
    unfold gradientOne at h1
    obtain ⟨hi, hhi, h1⟩ := Res.bind_eq_ok.1 h1
    obtain ⟨lo, hlo, h1⟩ := Res.bind_eq_ok.1 h1
    cases h1
    obtain ⟨e1, e2⟩ := ih (SMap.sorted_insert ha _ _) (List.pairwise_cons.1 hx).2 h2
    have hxn : SMap.find x n = none := by
      rw [SMap.find_none_iff]
      intro hn
      obtain ⟨q, hq, hqn⟩ := List.mem_map.1 hn
      have := (List.pairwise_cons.1 hx).1 q hq
      simp only [hqn] at this
      exact lt_irrefl _ this
    refine ⟨e1, fun k => ?_⟩
    rw [SMap.find_cons]
    by_cases hk : n = k
    · subst hk
      rw [if_pos rfl]
      refine ⟨by simp, ?_⟩
      rintro v hv
      cases hv
      refine ⟨hi, lo, hhi, hlo, ?_⟩
      rw [(e2 n).1 hxn, SMap.find_insert, if_pos rfl]
    · rw [if_neg hk]
      refine ⟨fun hn => ?_, (e2 k).2⟩
      rw [(e2 k).1 hn, SMap.find_insert, if_neg hk]

/-- C55, the derivative used: for each parameter the central difference of the statistic with only that parameter moved by `± h`. -/
theorem C55_gradient {f : ParamDict α → Res α} {h : α} {x g : ParamDict α} (hx : x.Sorted) (hg : gradient f h x = .ok g) :
    g.keys = x.keys ∧ ∀ k v, x.find k = some v → ∃ a b, f (x.insert k (v + h)) = .ok a ∧ f (x.insert k (v - h)) = .ok b ∧
      g.find k = some ((a - b) / 2 / h) := by
  obtain ⟨e1, e2⟩ := gradient_from SMap.sorted_nil hx hg
  refine ⟨?_, fun k v hv => (e2 k).2 v hv⟩
  refine SMap.sortedNames_ext (SMap.sorted_keys e1) (SMap.sorted_keys hx) ?_
  intro k
  rw [← SMap.find_isSome_iff, ← SMap.find_isSome_iff]
  cases hk : x.find k with
  | none => rw [(e2 k).1 hk]; simp [SMap.find]
  | some v => obtain ⟨a, b, _, _, h3⟩ := (e2 k).2 v hk; simp [h3]

/-- C55: the central difference is the exact derivative for statistics that are quadratic in each single parameter. -/
theorem C55_gradient_quadratic {f : ParamDict α → Res α} {h : α} (hh : h ≠ 0) {x g : ParamDict α} (hx : x.Sorted) (hg : gradient f h x = .ok g)
    {k : String} {v a b c : α} (hv : x.find k = some v) (hf : ∀ t, f (x.insert k t) = .ok (a * t ^ 2 + b * t + c)) :
    g.find k = some (2 * a * v + b) := by
  obtain ⟨hi, lo, h1, h2, h3⟩ := (C55_gradient hx hg).2 k v hv
  rw [hf] at h1 h2
  cases h1; cases h2
  rw [h3]
  congr 1
  field_simp
  ring

end Oxsx
