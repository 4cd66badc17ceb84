import Verif.Model.HamiltonianRuns
import Verif.Props.OptimiserRuns
import Verif.Props.LeapFrog
set_option linter.unusedSectionVars false
set_option linter.unusedSimpArgs false
set_option linter.unusedVariables false
/-
C112 for the Hamiltonian sampler: the sampler takes its gradients on the object that the chain moves on.
-/
namespace Oxsx
variable {W α : Type} [Field α] [LinearOrder α]

/-- Wherever `f` has a result, `F` on an object that answers like `t` has the same, and leaves an object that answers like `t`. -/
def FitObject.Follows (O : FitObject W α) (t : TestStat α) {β : Type} (f : Res β) (F : W → Res (β × W)) : Prop :=
  ∀ w, O.AnswersLike w t → ∀ x, f = .ok x → ∃ w', F w = .ok (x, w') ∧ O.AnswersLike w' t

theorem FitObject.Follows.bind {O : FitObject W α} {t : TestStat α} {β γ : Type} {f : Res β} {F : W → Res (β × W)} {k : β → Res γ} {K : β × W → Res (γ × W)}
    (h : O.Follows t f F) (hk : ∀ b, O.Follows t (k b) fun w => K (b, w)) : O.Follows t (f >>= k) fun w => F w >>= K := by
  intro w hw x e
  obtain ⟨b, e1, e2⟩ := Res.bind_eq_ok.1 e
  obtain ⟨w', a1, a2⟩ := h w hw b e1
  obtain ⟨w'', b1, b2⟩ := hk b w' a2 x e2
  exact ⟨w'', by show (F w >>= K) = _; rw [a1, Res.ok_bind]; exact b1, b2⟩

theorem FitObject.Follows.same {O : FitObject W α} {t : TestStat α} {β γ : Type} {f : Res β} {k : β → Res γ} {K : β → W → Res (γ × W)}
    (hk : ∀ b, O.Follows t (k b) (K b)) : O.Follows t (f >>= k) fun w => f >>= fun b => K b w := by
  intro w hw x e
  obtain ⟨b, e1, e2⟩ := Res.bind_eq_ok.1 e
  obtain ⟨w'', b1, b2⟩ := hk b w hw x e2
  exact ⟨w'', by show (f >>= fun b => K b w) = _; rw [e1, Res.ok_bind]; exact b1, b2⟩

theorem FitObject.Follows.done {O : FitObject W α} {t : TestStat α} {β : Type} (b : β) : O.Follows t (.ok b) fun w => .ok (b, w) := by
  intro w hw x e
  rw [← Res.ok.inj e]
  exact ⟨w, rfl, hw⟩

theorem FitObject.Follows.fold {O : FitObject W α} {t : TestStat α} {β ι : Type} {f : β → ι → Res β} {F : β × W → ι → Res (β × W)}
    (h : ∀ b i, O.Follows t (f b i) fun w => F (b, w) i) : ∀ (l : List ι) (b : β), O.Follows t (Res.forFold f b l) fun w => Res.forFold F (b, w) l := by
  intro l
  induction l with
  | nil => intro b; exact .done b
  | cons i l ih =>
    intro b w hw x e
    obtain ⟨b1, e1, e2⟩ := (Res.forFold_cons_eq_ok).1 e
    obtain ⟨w1, a1, a2⟩ := h b i w hw b1 e1
    obtain ⟨w2, c1, c2⟩ := ih b1 w1 a2 x e2
    exact ⟨w2, (Res.forFold_cons_eq_ok).2 ⟨_, a1, c1⟩, c2⟩

/-- The sampler's function, where the object gives `t`: `t`, or its negative through the energy wrapper. -/
def energyOf (t : TestStat α) (negate : Bool) (p : ParamDict α) : Res α := if negate then hmcEnergy t.eval p else t.eval p

theorem FitObject.askEnergy_follows {O : FitObject W α} {t : TestStat α} (negate : Bool) (p : ParamDict α) :
    O.Follows t (energyOf t negate p) fun w => O.askEnergy negate w p := by
  intro w hw x e
  unfold energyOf at e
  unfold FitObject.askEnergy
  cases negate with
  | false =>
    simp only [Bool.false_eq_true, if_false] at e ⊢
    obtain ⟨w', a1, a2⟩ := hw.ask e
    exact ⟨w', by rw [a1]; rfl, a2⟩
  | true =>
    simp only [if_true] at e ⊢
    unfold hmcEnergy at e
    obtain ⟨v, e1, e2⟩ := Res.bind_eq_ok.1 e
    obtain ⟨w', a1, a2⟩ := hw.ask e1
    exact ⟨w', by rw [a1, ← Res.ok.inj e2]; rfl, a2⟩

theorem gradientOn_follows {O : FitObject W α} {t : TestStat α} (negate : Bool) (h : α) (x0 : ParamDict α) :
    O.Follows t (gradient (energyOf t negate) h x0) fun w => gradientOn O negate h w x0 := by
  unfold gradient gradientOn
  refine FitObject.Follows.fold (O := O) (t := t) (F := gradientOneOn O negate h x0) (fun b i => ?_) x0 []
  unfold gradientOne gradientOneOn
  dsimp only
  refine FitObject.Follows.bind (FitObject.askEnergy_follows (O := O) (t := t) negate _) fun hi => ?_
  dsimp only
  refine FitObject.Follows.bind (FitObject.askEnergy_follows (O := O) (t := t) negate _) fun lo => ?_
  exact FitObject.Follows.done _

section
variable {O : FitObject W α} {t : TestStat α} {d : LeapFrog.Differ α} {D : LeapFrog.DifferOn W α}

theorem LeapFrog.nStepsOn_follows (hd : ∀ q, O.Follows t (d q) fun w => D w q) (masses : ParamDict α) (e : α) (n : Nat) (s : ParamDict α × ParamDict α) :
    O.Follows t (nSteps masses e d n s) fun w => nStepsOn masses e D n w s := by
  unfold nSteps nStepsOn
  refine FitObject.Follows.bind (hd _) fun g => ?_
  refine FitObject.Follows.bind (FitObject.Follows.fold (fun b i => ?_) _ _) fun r => ?_
  · unfold midStep midStepOn
    refine FitObject.Follows.same fun r => ?_
    by_cases hl : i = n - 1
    · simp only [hl, decide_true, if_true]
      exact .done r
    · simp only [hl, decide_false, Bool.false_eq_true, if_false]
      refine FitObject.Follows.bind (hd _) fun g => ?_; exact FitObject.Follows.done _
  · dsimp only
    refine FitObject.Follows.bind (hd _) fun g => ?_; exact FitObject.Follows.done _

theorem LeapFrog.reflectStepOn_follows (hd : ∀ q, O.Follows t (d q) fun w => D w q) (masses lo hi : ParamDict α) (e : α) (fuel : Nat) (s : ParamDict α × ParamDict α) :
    O.Follows t (reflectStep masses lo hi e d fuel s) fun w => reflectStepOn masses lo hi e D fuel w s := by
  unfold reflectStep reflectStepOn
  refine FitObject.Follows.bind (hd _) fun g => ?_
  refine FitObject.Follows.same fun r => ?_
  cases r with
  | none => exact .done none
  | some r => refine FitObject.Follows.bind (hd _) fun g => ?_; exact FitObject.Follows.done _

theorem LeapFrog.reflectStepsOn_follows (hd : ∀ q, O.Follows t (d q) fun w => D w q) (masses lo hi : ParamDict α) (e : α) (fuel : Nat) : ∀ (n : Nat) (s : ParamDict α × ParamDict α),
    O.Follows t (reflectSteps masses lo hi e d fuel n s) fun w => reflectStepsOn masses lo hi e D fuel n w s := by
  intro n
  induction n with
  | zero => intro s; exact .done (some s)
  | succ n ih =>
    intro s
    unfold reflectSteps reflectStepsOn
    refine FitObject.Follows.bind (LeapFrog.reflectStepOn_follows hd masses lo hi e fuel s) fun r => ?_
    cases r with
    | none => exact FitObject.Follows.done none
    | some r => exact ih r
end

section
variable {O : FitObject W α} {t : TestStat α}

theorem HamiltonianSampler.drawOn_follows {s : HamiltonianSampler α} {negate : Bool} (hs : s.stat.eval = energyOf t negate) (g : String → α → α) (fuel : Nat) (u : α) (q : ParamDict α) :
    O.Follows t ((s.input g fuel u).draw q) fun w => s.drawOn O negate g fuel w q := by
  have hm : (s.momenta g q).1.stat = s.stat ∧ (s.momenta g q).1.eps = s.eps := by
    unfold HamiltonianSampler.momenta
    have : ∀ (l : ParamDict α) (r : HamiltonianSampler α × ParamDict α), r.1.stat = s.stat ∧ r.1.eps = s.eps →
        (l.foldl (fun r p => let ms := r.1.masses.insertNew p.1 0; ({ r.1 with masses := ms }, r.2.insert p.1 (g p.1 ((ms.find p.1).getD 0)))) r).1.stat = s.stat ∧
        (l.foldl (fun r p => let ms := r.1.masses.insertNew p.1 0; ({ r.1 with masses := ms }, r.2.insert p.1 (g p.1 ((ms.find p.1).getD 0)))) r).1.eps = s.eps := by
      intro l
      induction l with
      | nil => intro r h; exact h
      | cons p l ih => intro r h; rw [List.foldl_cons]; exact ih _ h
    exact this q (s, []) ⟨rfl, rfl⟩
  have hd : ∀ y, O.Follows t ((s.momenta g q).1.differ y) fun w => (s.momenta g q).1.differOn O negate w y := by
    intro y
    unfold HamiltonianSampler.differ HamiltonianSampler.differOn
    rw [hm.1, hs]
    exact gradientOn_follows negate _ y
  intro w hw x e
  unfold HamiltonianSampler.input at e
  simp only at e
  obtain ⟨y, e1, e2⟩ := Res.bind_eq_ok.1 e
  cases y with
  | none => simp at e2
  | some y =>
    have e2 := Res.ok.inj e2
    subst e2
    unfold HamiltonianSampler.draw at e1
    simp only at e1
    obtain ⟨k0, f1, e1⟩ := Res.bind_eq_ok.1 e1
    obtain ⟨z, f2, e1⟩ := Res.bind_eq_ok.1 e1
    have hev : O.Follows t ((s.momenta g q).1.evolve fuel (q, (s.momenta g q).2)) fun w => (s.momenta g q).1.evolveOn O negate fuel w (q, (s.momenta g q).2) := by
      unfold HamiltonianSampler.evolve HamiltonianSampler.evolveOn
      split
      · exact LeapFrog.reflectStepsOn_follows hd _ _ _ _ fuel _ _
      · refine FitObject.Follows.bind (LeapFrog.nStepsOn_follows hd _ _ _ _) fun r => ?_; exact FitObject.Follows.done _
    obtain ⟨w', a1, a2⟩ := hev w hw z f2
    cases z with
    | none => simp at e1
    | some z =>
      obtain ⟨k1, f3, e1⟩ := Res.bind_eq_ok.1 e1
      refine ⟨w', ?_, a2⟩
      unfold HamiltonianSampler.drawOn
      have e1 := Option.some.inj (Res.ok.inj e1)
      simp only [f1, Res.ok_bind, a1, f3, e1]

theorem MCMC.stepAcceptedOn_follows (ex : α → α) (m : MCMC α) (p : ParamDict α) (corr u : α) :
    O.Follows t (m.stepAccepted ex t p corr u) fun w => m.stepAcceptedOn ex O w p corr u := by
  unfold MCMC.stepAccepted MCMC.stepAcceptedOn
  refine FitObject.Follows.same fun b => ?_
  cases b with
  | false => simpa using FitObject.Follows.done (O := O) (t := t) (m, false)
  | true =>
    simp only [if_true]
    refine FitObject.Follows.bind (F := fun w => m.valueOn O w p) ?_ fun v => ?_
    · intro w hw x e
      exact MCMC.valueOn_eq hw e
    · exact FitObject.Follows.done _

theorem MCMC.iterateHmcOn_follows {s : HamiltonianSampler α} {negate : Bool} (hs : s.stat.eval = energyOf t negate) (ex : α → α) (m : MCMC α) (i : MCMC.HmcNoise α) :
    O.Follows t (MCMC.iterate ex t m (s.input i.gauss i.fuel i.unif)) fun w => MCMC.iterateHmcOn ex s negate O (m, w) i := by
  unfold MCMC.iterate MCMC.iterateHmcOn
  dsimp only
  refine FitObject.Follows.bind (HamiltonianSampler.drawOn_follows (O := O) hs i.gauss i.fuel i.unif m.curStep) fun d => ?_
  refine FitObject.Follows.bind (MCMC.stepAcceptedOn_follows ex m d.1 d.2 i.unif) fun r => ?_
  refine FitObject.Follows.same fun x => ?_
  exact FitObject.Follows.done _

/-- C112, Hamiltonian Monte Carlo: the sampler takes its gradients from the object that the chain moves on (`negate`: through the negative energy), and both call it in
turn. On an object that answers like the function `t`, with the same parameter names, the chain is the one whose sampler and moves use `t` (or its negative): same states, samples and result. -/
theorem C112_hamiltonian {w : W} (h : O.AnswersLike (O.register w) t) {ps : ParamDict α} (hn : O.getParameters (O.register w) = .ok ps) (hk : ps.keys = t.names)
    {s : HamiltonianSampler α} {negate : Bool} (hs : ∀ p, s.stat.eval p = if negate then t.eval p >>= fun v => .ok (-v) else t.eval p)
    {ex : α → α} {m : MCMC α} {r : String → α} {ins : List (MCMC.HmcNoise α)} {x : MCMC α × MCMCResult α}
    (hx : m.optimise ex t r (ins.map fun i => s.input i.gauss i.fuel i.unif) = .ok x) :
    ∃ w', m.optimiseHmcOn ex s negate O w r ins = .ok (x, w') ∧ O.AnswersLike w' t := by
  have hs' : s.stat.eval = energyOf t negate := funext hs
  have hlen : ps.length = t.names.length := by rw [← hk]; simp [SMap.keys]
  unfold MCMC.optimise at hx
  unfold MCMC.optimiseHmcOn
  rw [hn, Res.ok_bind, hlen]
  split at hx
  · simp at hx
  · rename_i hc
    rw [if_neg hc]
    obtain ⟨m0, e0, hx⟩ := Res.bind_eq_ok.1 hx
    obtain ⟨m1, e1, hx⟩ := Res.bind_eq_ok.1 hx
    have hst : m.startOn r ps.keys = m.start r t := by unfold MCMC.startOn MCMC.start; rw [hk]
    unfold MCMC.begin_ at e0
    obtain ⟨v, v1, e0⟩ := Res.bind_eq_ok.1 e0
    have e0 := Res.ok.inj e0
    obtain ⟨w1, a1, a2⟩ := MCMC.valueOn_eq h v1
    rw [← List.map_take] at e1
    have hfold : ∀ (l : List (MCMC.HmcNoise α)) (b : MCMC α), Res.forFold (MCMC.iterate ex t) b (l.map fun i => s.input i.gauss i.fuel i.unif) =
        Res.forFold (fun b i => MCMC.iterate ex t b (s.input i.gauss i.fuel i.unif)) b l := by
      intro l
      induction l with
      | nil => intro b; rfl
      | cons i l ih => intro b; simp only [List.map_cons, Res.forFold, ih]
    rw [hfold] at e1
    obtain ⟨w2, b1, b2⟩ := FitObject.Follows.fold (F := MCMC.iterateHmcOn ex s negate O) (fun b i => MCMC.iterateHmcOn_follows hs' ex b i) _ m0 w1 a2 m1 e1
    refine ⟨w2, ?_, b2⟩
    rw [hst]
    unfold MCMC.beginOn
    rw [a1, Res.ok_bind]
    rw [e0, Res.ok_bind]
    simp only [b1, Res.ok_bind]
    rw [Res.ok.inj hx]
end

-- Hamiltonian Monte Carlo on an object that counts: one evaluation at the start, and in each iteration two for each of the three gradients and one for the decision
example : ((exMCMC 4 4).optimiseHmcOn id ⟨exStatA, [("a", 1)], [], [], 1/2, 2⟩ false (exRemember exStatA) ([], 0) (fun _ => 0) [⟨fun _ _ => 1, 0, 1/2⟩, ⟨fun _ _ => 2, 0, 1/2⟩] >>= fun r =>
    Res.ok (r.1.1.curStep, r.1.1.samples.total, r.2.2)) =
    ((exMCMC 4 4).optimise id exStatA (fun _ => 0) ([⟨fun _ _ => 1, 0, 1/2⟩, ⟨fun _ _ => 2, 0, 1/2⟩].map fun i : MCMC.HmcNoise ℚ =>
      (⟨exStatA, [("a", 1)], [], [], 1/2, 2⟩ : HamiltonianSampler ℚ).input i.gauss i.fuel i.unif) >>= fun r => Res.ok (r.1.curStep, r.1.samples.total, 1 + 2 * 7)) := by decide +kernel

-- with walls, and through the negative energy
example : ∃ x w', (exMCMC 4 4).optimise id exStatA (fun _ => 0) ([⟨fun _ _ => 1, 3, 1/2⟩].map fun i : MCMC.HmcNoise ℚ =>
      (⟨⟨["a"], hmcEnergy exStatA.eval⟩, [("a", 1)], [("a", 0)], [("a", 10)], 1/2, 2⟩ : HamiltonianSampler ℚ).input i.gauss i.fuel i.unif) = .ok x ∧
    (exMCMC 4 4).optimiseHmcOn id ⟨⟨["a"], hmcEnergy exStatA.eval⟩, [("a", 1)], [("a", 0)], [("a", 10)], 1/2, 2⟩ true (exRemember exStatA) ([], 0) (fun _ => 0)
      [⟨fun _ _ => 1, 3, 1/2⟩] = .ok (x, w') ∧ x.1.curStep = [("a", 11/2)] := by
  have h : ((exMCMC 4 4).optimise id exStatA (fun _ => 0) ([⟨fun _ _ => 1, 3, 1/2⟩].map fun i : MCMC.HmcNoise ℚ =>
      (⟨⟨["a"], hmcEnergy exStatA.eval⟩, [("a", 1)], [("a", 0)], [("a", 10)], 1/2, 2⟩ : HamiltonianSampler ℚ).input i.gauss i.fuel i.unif) >>= fun x => Res.ok x.1.curStep) = .ok [("a", 11/2)] := by
    decide +kernel
  obtain ⟨x, h1, h2⟩ := Res.bind_eq_ok.1 h
  obtain ⟨w', h3, _⟩ := C112_hamiltonian (O := exRemember exStatA) (w := ([], 0)) (exRemember_answers exStatA _) rfl (by decide +kernel) (negate := true) (fun p => by simp [hmcEnergy]) h1
  exact ⟨x, w', h1, h3, Res.ok.inj h2⟩

end Oxsx
