import Verif.Spec.OptimiserRuns
import Verif.Lemmas.Basic
import Verif.Props.Minuit
set_option linter.unusedSectionVars false
set_option linter.unusedSimpArgs false
set_option linter.unusedVariables false
/-
C112: an optimiser that calls an object again and again gets, and returns, the same as with a function.
-/
namespace Oxsx
variable {W α : Type} [Field α] [LinearOrder α]

theorem FitObject.AnswersLike.ask {O : FitObject W α} {w : W} {t : TestStat α} (h : O.AnswersLike w t) {p : ParamDict α} {v : α} (hp : t.eval p = .ok v) :
    ∃ w', O.ask w p = .ok (v, w') ∧ O.AnswersLike w' t := by
  have h1 := h [p] (by intro q hq; rw [List.mem_singleton] at hq; subst hq; exact ⟨v, hp⟩)
  unfold FitObject.scan at h1
  obtain ⟨_, e1, h1⟩ := Res.bind_eq_ok.1 h1
  obtain ⟨⟨y, w'⟩, e2, h1⟩ := Res.bind_eq_ok.1 h1
  have h1' := Res.ok.inj h1
  simp only [List.map_cons, List.map_nil, hp] at h1'
  have hy : y = some v := (List.cons.inj h1').1
  subst hy
  refine ⟨w', ?_, ?_⟩
  · unfold FitObject.ask
    rw [e1, Res.ok_bind, e2, Res.ok_bind]
  · intro pss hpss
    have h2 := h (p :: pss) (by
      intro q hq
      rcases List.mem_cons.1 hq with rfl | hq
      exacts [⟨v, hp⟩, hpss q hq])
    unfold FitObject.scan at h2
    rw [e1, Res.ok_bind, e2, Res.ok_bind] at h2
    obtain ⟨vs, e3, h2⟩ := Res.bind_eq_ok.1 h2
    have h2' := Res.ok.inj h2
    rw [List.map_cons] at h2'
    rw [e3, (List.cons.inj h2').2]

/-! ### Grid search -/

theorem GridSearch.loopOn_eq {O : FitObject W α} {t : TestStat α} (g : GridSearch α) : ∀ (fuel : Nat) (w : W), O.AnswersLike w t → ∀ (p : ParamDict α) (s : α × ParamDict α) x,
    g.loop t fuel p s = some (.ok x) → ∃ w', g.loopOn O fuel w p s = some (.ok (x, w')) ∧ O.AnswersLike w' t := by
  intro fuel
  induction fuel with
  | zero => intro w h p s x e; simp [GridSearch.loop] at e
  | succ n ih =>
    intro w h p s x e
    unfold GridSearch.loop at e
    unfold GridSearch.loopOn
    match hinc : g.increment g.steps.keys 0 g.steps.keys.length p with
    | .ub => simp [hinc] at e
    | .throw _ => simp [hinc] at e
    | .ok (false, _) =>
      simp only [hinc, Option.some.injEq, Res.ok.injEq] at e
      subst e
      exact ⟨w, rfl, h⟩
    | .ok (true, p') =>
      simp only [hinc] at e ⊢
      match hev : t.eval p' with
      | .ub => simp [hev] at e
      | .throw _ => simp [hev] at e
      | .ok v =>
        simp only [hev] at e
        obtain ⟨w', a1, a2⟩ := h.ask hev
        rw [a1]
        simp only
        match hl : g.loop t n p' (g.consider s p' v) with
        | none => simp [hl] at e
        | some .ub => rw [hl] at e; simp [Bind.bind, Res.bind] at e
        | some (.throw _) => rw [hl] at e; simp [Bind.bind, Res.bind] at e
        | some (.ok y) =>
          obtain ⟨w'', b1, b2⟩ := ih w' a2 p' _ y hl
          rw [hl] at e
          rw [b1]
          simp only [Option.map_some, Res.ok_bind, Option.some.injEq, Res.ok.injEq] at e ⊢
          subst e
          exact ⟨w'', rfl, b2⟩

/-- C112, grid search: on an object that answers like the function `t`, the search returns what it returns on `t`, and tries the same points. -/
theorem C112_grid {O : FitObject W α} {w : W} {t : TestStat α} (h : O.AnswersLike (O.register w) t) {ps : ParamDict α} (hn : O.getParameters (O.register w) = .ok ps)
    (g : GridSearch α) {fuel : Nat} {x : GridResult α × List (ParamDict α)} (hx : g.optimise t fuel = some (.ok x)) :
    ∃ w', g.optimiseOn O w fuel = some (.ok (x, w')) ∧ O.AnswersLike w' t := by
  unfold GridSearch.optimise at hx
  unfold GridSearch.optimiseOn
  rw [hn]
  simp only
  split at hx
  · simp at hx
  · rename_i hk
    rw [if_neg hk]
    match hc : Res.forFold (fun _ q => g.countOne q) () g.minima with
    | .ub => simp [hc] at hx
    | .throw _ => simp [hc] at hx
    | .ok _ =>
      simp only [hc] at hx ⊢
      match hl : g.loop t fuel g.minima (0, []) with
      | none => simp [hl] at hx
      | some .ub => rw [hl] at hx; simp [Bind.bind, Res.bind] at hx
      | some (.throw _) => rw [hl] at hx; simp [Bind.bind, Res.bind] at hx
      | some (.ok y) =>
        obtain ⟨w', b1, b2⟩ := GridSearch.loopOn_eq g fuel (O.register w) h _ _ y hl
        rw [hl] at hx
        rw [b1]
        simp only [Option.map_some, Res.ok_bind, Option.some.injEq, Res.ok.injEq] at hx ⊢
        subst hx
        exact ⟨w', rfl, b2⟩

/-! ### Markov chain -/

theorem MCMC.valueOn_eq {O : FitObject W α} {w : W} {t : TestStat α} (h : O.AnswersLike w t) {m : MCMC α} {p : ParamDict α} {v : α} (e : m.value t p = .ok v) :
    ∃ w', m.valueOn O w p = .ok (v, w') ∧ O.AnswersLike w' t := by
  unfold MCMC.value at e
  obtain ⟨y, e1, e⟩ := Res.bind_eq_ok.1 e
  obtain ⟨w', a1, a2⟩ := h.ask e1
  refine ⟨w', ?_, a2⟩
  unfold MCMC.valueOn
  rw [a1, Res.ok_bind, Res.ok.inj e]

theorem MCMC.iterateOn_eq {O : FitObject W α} {w : W} {t : TestStat α} (h : O.AnswersLike w t) {ex : α → α} {m m' : MCMC α} {i : MCInput α} (e : MCMC.iterate ex t m i = .ok m') :
    ∃ w', MCMC.iterateOn ex O (m, w) i = .ok (m', w') ∧ O.AnswersLike w' t := by
  unfold MCMC.iterate at e
  obtain ⟨d, e1, e⟩ := Res.bind_eq_ok.1 e
  obtain ⟨r, e2, e⟩ := Res.bind_eq_ok.1 e
  obtain ⟨s, e3, e⟩ := Res.bind_eq_ok.1 e
  have e := Res.ok.inj e
  subst e
  have key : ∃ w', m.stepAcceptedOn ex O w d.1 d.2 i.unif = .ok (r, w') ∧ O.AnswersLike w' t := by
    unfold MCMC.stepAccepted at e2
    obtain ⟨b, b1, e2⟩ := Res.bind_eq_ok.1 e2
    unfold MCMC.stepAcceptedOn
    rw [b1, Res.ok_bind]
    cases b with
    | false =>
      simp only [Bool.false_eq_true, if_false] at e2 ⊢
      rw [← Res.ok.inj e2]
      exact ⟨w, rfl, h⟩
    | true =>
      simp only [if_true] at e2 ⊢
      obtain ⟨v, v1, e2⟩ := Res.bind_eq_ok.1 e2
      obtain ⟨w', a1, a2⟩ := MCMC.valueOn_eq h v1
      rw [a1, Res.ok_bind, ← Res.ok.inj e2]
      exact ⟨w', rfl, a2⟩
  obtain ⟨w', k1, k2⟩ := key
  refine ⟨w', ?_, k2⟩
  unfold MCMC.iterateOn
  simp only [e1, Res.ok_bind, k1, e3]

theorem MCMC.iterationsOn_eq {O : FitObject W α} {t : TestStat α} {ex : α → α} : ∀ (ins : List (MCInput α)) {w : W} {m m' : MCMC α}, O.AnswersLike w t →
    Res.forFold (MCMC.iterate ex t) m ins = .ok m' → ∃ w', Res.forFold (MCMC.iterateOn ex O) (m, w) ins = .ok (m', w') ∧ O.AnswersLike w' t := by
  intro ins
  induction ins with
  | nil =>
    intro w m m' h e
    rw [Res.forFold] at e ⊢
    rw [← Res.ok.inj e]
    exact ⟨w, rfl, h⟩
  | cons i ins ih =>
    intro w m m' h e
    obtain ⟨m1, e1, e2⟩ := (Res.forFold_cons_eq_ok).1 e
    obtain ⟨w1, a1, a2⟩ := MCMC.iterateOn_eq h e1
    obtain ⟨w', b1, b2⟩ := ih a2 e2
    exact ⟨w', (Res.forFold_cons_eq_ok).2 ⟨_, a1, b1⟩, b2⟩

/-- C112, Markov chain: on an object that answers like the function `t`, with the same parameter names, the chain is the one on `t`: same states, samples and result. -/
theorem C112_chain {O : FitObject W α} {w : W} {t : TestStat α} (h : O.AnswersLike (O.register w) t) {ps : ParamDict α} (hn : O.getParameters (O.register w) = .ok ps) (hk : ps.keys = t.names)
    {ex : α → α} {m : MCMC α} {r : String → α} {ins : List (MCInput α)} {x : MCMC α × MCMCResult α} (hx : m.optimise ex t r ins = .ok x) :
    ∃ w', m.optimiseOn ex O w r ins = .ok (x, w') ∧ O.AnswersLike w' t := by
  have hlen : ps.length = t.names.length := by rw [← hk]; simp [SMap.keys]
  unfold MCMC.optimise at hx
  unfold MCMC.optimiseOn
  rw [hn, Res.ok_bind, hlen]
  split at hx
  · simp at hx
  · rename_i hc
    rw [if_neg hc]
    obtain ⟨m0, e0, hx⟩ := Res.bind_eq_ok.1 hx
    obtain ⟨m1, e1, hx⟩ := Res.bind_eq_ok.1 hx
    have hst : m.startOn r ps.keys = m.start r t := by unfold MCMC.startOn MCMC.start; rw [hk]
    unfold MCMC.begin_ at e0
    obtain ⟨v, v1, e0⟩ := Res.bind_eq_ok.1 e0
    have e0 := Res.ok.inj e0
    obtain ⟨w1, a1, a2⟩ := MCMC.valueOn_eq h v1
    obtain ⟨w2, b1, b2⟩ := MCMC.iterationsOn_eq _ a2 e1
    refine ⟨w2, ?_, b2⟩
    rw [hst]
    unfold MCMC.beginOn
    rw [a1, Res.ok_bind]
    rw [e0, Res.ok_bind]
    simp only [b1, Res.ok_bind]
    rw [Res.ok.inj hx]

/-! ### Minuit -/

theorem Minuit.runOn_eq {O : FitObject W α} {t : TestStat α} : ∀ (run : MnRun α) {f : MinuitFCN α} {w : W}, f.stat = some t → O.AnswersLike w t →
    ∀ {x}, run.run f = .ok x → ∃ w', Minuit.runOn O run f w = .ok (x, w') ∧ O.AnswersLike w' t := by
  intro run
  induction run with
  | done o =>
    intro f w hf h x e
    unfold MnRun.run at e
    rw [← Res.ok.inj e]
    exact ⟨w, rfl, h⟩
  | ask y k ih =>
    intro f w hf h x e
    unfold MnRun.run at e
    obtain ⟨r, e1, e⟩ := Res.bind_eq_ok.1 e
    obtain ⟨s, e2, e⟩ := Res.bind_eq_ok.1 e
    unfold MinuitFCN.call at e1
    rw [hf] at e1
    simp only at e1
    obtain ⟨d, d1, e1⟩ := Res.bind_eq_ok.1 e1
    obtain ⟨v, v1, e1⟩ := Res.bind_eq_ok.1 e1
    have e1 := Res.ok.inj e1
    obtain ⟨w1, a1, a2⟩ := h.ask v1
    have hf' : r.2.stat = some t := by rw [← e1]
    obtain ⟨w2, b1, b2⟩ := ih r.1 hf' a2 e2
    refine ⟨w2, ?_, b2⟩
    unfold Minuit.runOn Minuit.callOn
    simp only [d1, Res.ok_bind, a1]
    subst e1
    simp only [hf]
    rw [b1, Res.ok_bind, Res.ok.inj e]

/-- C112, Minuit: whatever Minuit2 asks for, on an object that answers like the function `t`, with the same parameter names, it is told the same, and the fit returns the same. -/
theorem C112_minuit {O : FitObject W α} {w : W} {t : TestStat α} (h : O.AnswersLike (O.register w) t) {ps : ParamDict α} (hn : O.getParameters (O.register w) = .ok ps) (hk : ps.keys = t.names)
    {m : Minuit α} {mn : MnSetup α → MnRun α} {x : Minuit α × MinuitResult α × MnSetup α × List (List α × α)} (hx : m.optimise t mn = .ok x) :
    ∃ w', m.optimiseOn O t w mn = .ok (x, w') ∧ O.AnswersLike w' t := by
  unfold Minuit.optimise at hx
  unfold Minuit.optimiseOn
  obtain ⟨i, i1, hx⟩ := Res.bind_eq_ok.1 hx
  rw [i1, Res.ok_bind, hn, Res.ok_bind, hk]
  split at hx
  · simp at hx
  · rename_i hc
    rw [if_neg hc]
    obtain ⟨fx, f1, hx⟩ := Res.bind_eq_ok.1 hx
    obtain ⟨y, r1, hx⟩ := Res.bind_eq_ok.1 hx
    obtain ⟨best, r2, hx⟩ := Res.bind_eq_ok.1 hx
    obtain ⟨c, r3, hx⟩ := Res.bind_eq_ok.1 hx
    have hf : i.1.fcn.stat = some t := by
      unfold Minuit.initialise at i1
      obtain ⟨_, _, i1⟩ := Res.bind_eq_ok.1 i1
      obtain ⟨_, _, i1⟩ := Res.bind_eq_ok.1 i1
      obtain ⟨_, _, i1⟩ := Res.bind_eq_ok.1 i1
      obtain ⟨_, _, i1⟩ := Res.bind_eq_ok.1 i1
      rw [← Res.ok.inj i1]
      rfl
    obtain ⟨w1, a1, a2⟩ := Minuit.runOn_eq _ hf h r1
    refine ⟨w1, ?_, a2⟩
    rw [f1, Res.ok_bind]
    simp only [a1, Res.ok_bind, r2, r3]
    rw [Res.ok.inj hx]

/-! ### Concrete cases -/

/-- An object that remembers the dictionary it was given and counts how often it has been evaluated. -/
def exRemember (t : TestStat ℚ) : FitObject (ParamDict ℚ × Nat) ℚ where
  evaluate w := t.eval w.1 >>= fun v => Res.ok (some v, (w.1, w.2 + 1))
  setParameters w d := ((d, w.2), .ok ())
  getParameters w := .ok (t.names.map fun n => (n, 0))
  register w := w

theorem exRemember_answers (t : TestStat ℚ) (w : ParamDict ℚ × Nat) : (exRemember t).AnswersLike w t := by
  intro pss
  induction pss generalizing w with
  | nil => intro _; rfl
  | cons p pss ih =>
    intro h
    obtain ⟨v, hv⟩ := h p (by simp)
    unfold FitObject.scan
    have e : (exRemember t).evaluate ((exRemember t).setParameters w p).1 = .ok (some v, (p, w.2 + 1)) := by
      show (t.eval p >>= fun v => Res.ok (some v, (p, w.2 + 1))) = _
      rw [hv]; rfl
    show (Res.ok () >>= fun _ => (exRemember t).evaluate ((exRemember t).setParameters w p).1 >>= _) = _
    rw [e]
    simp only [Res.ok_bind]
    rw [ih _ fun q hq => h q (by simp [hq]), List.map_cons, hv]
    rfl

-- Minuit on the object: it is told 5 and 0, as from the function, and the object has been evaluated
example : ∃ x w', twoMinuit.optimise twoStat (smallMn [1, 2] [1, 0, 1]) = .ok x ∧ twoMinuit.optimiseOn (exRemember twoStat) twoStat ([], 7) (smallMn [1, 2] [1, 0, 1]) = .ok (x, w') ∧
    x.2.1.bestFit = [("a", 1), ("b", 2)] := by
  have h : (twoMinuit.optimise twoStat (smallMn [1, 2] [1, 0, 1]) >>= fun x => Res.ok x.2.1.bestFit) = .ok [("a", 1), ("b", 2)] := by decide +kernel
  obtain ⟨x, h1, h2⟩ := Res.bind_eq_ok.1 h
  obtain ⟨w', h3, _⟩ := C112_minuit (O := exRemember twoStat) (w := ([], 7)) (exRemember_answers twoStat _) rfl (by decide +kernel) h1
  exact ⟨x, w', h1, h3, Res.ok.inj h2⟩

-- and the grid search: the object counts the evaluations
example : ((⟨[("a", 0), ("b", 0)], [("a", 2), ("b", 2)], [("a", 1), ("b", 1)], false⟩ : GridSearch ℚ).optimiseOn (exRemember twoStat) ([], 7) 20).map
    (fun r => r >>= fun x => Res.ok (x.1.1.bestFit, x.1.1.extremeVal, x.1.2.length, x.2.2)) =
    ((⟨[("a", 0), ("b", 0)], [("a", 2), ("b", 2)], [("a", 1), ("b", 1)], false⟩ : GridSearch ℚ).optimise twoStat 20).map
      (fun r => r >>= fun x => Res.ok (x.1.bestFit, x.1.extremeVal, x.2.length, x.2.length + 7)) := by decide +kernel

end Oxsx
