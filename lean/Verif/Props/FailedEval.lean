import Verif.Lemmas.FailedEval
import Verif.Lemmas.FailedConstruct
import Verif.Spec.FailedEval
import Verif.Props.Likelihood
/-
C92: a likelihood whose evaluation threw can be used further: after correcting the parameters or the data it evaluates as if the failed
evaluation had never been attempted.
-/
set_option linter.unusedSectionVars false
set_option linter.unusedSimpArgs false
set_option linter.unusedVariables false
namespace Oxsx
open NLLH
variable {σ α : Type} [Field α] [LinearOrder α]

/-- C92: the model that keeps the object of a failed evaluation returns the value, the object and the exception of the model of
`Evaluate` used everywhere else. -/
theorem C92_same_outcome (C : FitSys σ α) (fail : σ → σ) (M : CMath α) (L : NLLH σ α) :
    (∀ v L', L.evaluate C M = .ok (v, L') ↔ L.evaluateLeft C fail M = (L', .ok v)) ∧
    ∀ e, L.evaluate C M = .throw e ↔ (L.evaluateLeft C fail M).2 = .throw e := by
  rw [← doneV_evaluate C fail M L]
  generalize L.evaluateLeft C fail M = r
  obtain ⟨K, o⟩ := r
  unfold Res.doneV
  cases o with
  | ok v =>
    refine ⟨fun v' L' => ?_, fun e => ?_⟩
    · simp only [Res.ok.injEq, Prod.mk.injEq]; exact and_comm
    · simp
  | throw e => exact ⟨fun v' L' => by simp, fun e => by simp⟩
  | ub => exact ⟨fun v' L' => by simp, fun e => by simp⟩

theorem NLLH.caught_trace {C : FitSys σ α} (hC : C.Refreshing) {fail : σ → σ} (hf : C.KeepsOnFailure fail) {M : CMath α} {O : List String}
    {log : List (BinnedED α × NormStatus)} (cs : List (FitCall α)) : ∀ {L K : NLLH σ α},
      (K.sys.countSystematics = 0 → ∀ c ∈ cs, c.HasObs O) → Trace C O log L K →
      Trace C O log (L.fitCallsCaught C fail M cs) (K.fitCallsCaught C fail M (cs.filter FitCall.notEvaluate)) := by
  induction cs with
  | nil => intro L K _ h; exact h
  | cons c cs ih =>
    intro L K hO h
    have hc : L.sys.countSystematics = K.sys.countSystematics := by unfold SysManager.countSystematics; rw [h.groups]
    have hO' : K.sys.countSystematics = 0 → ∀ c ∈ cs, c.HasObs O := fun h0 c hc => hO h0 c (List.mem_cons_of_mem _ hc)
    cases c with
    | evaluate => exact ih hO' (h.evalLeft hC hf M)
    | setDataDist d =>
      exact ih (L := L.setDataDist d) (K := K.setDataDist d) hO' (setDataDist_trace h d (fun h0 => hO (hc ▸ h0) (.setDataDist d) List.mem_cons_self))
    | setDataSet d => exact ih (L := L.setDataSet d) (K := K.setDataSet d) hO' (setDataSet_trace h d)
    | setParameters d =>
      exact ih (L := (L.setParameters C d).1) (K := (K.setParameters C d).1) (by rw [setParameters_sys]; exact hO') (setParameters_trace h d).2

theorem NLLH.Trace.observed {C : FitSys σ α} {M : CMath α} {O : List String} {log : List (BinnedED α × NormStatus)} {L K : NLLH σ α}
    (h : Trace C O log L K) : L.value C M = K.value C M ∧ L.getParameters C = K.getParameters C :=
  ⟨Res.Rel.value (sim_eval M h.sim), getParameters_sim h.comps h.same (PdfManager.inv_of_built h.builtL) h.objs⟩

/-- C92 (partial): for any likelihood without buffers, after any calls that set data or parameters or evaluate, whatever number of the
evaluations threw, the next evaluation gives the same value (or error) as if the calls had been made without any evaluation between
them, and the parameters read are the same; provided there are systematics or all data has the observables of the distributions.
Missing: buffers before the first successful evaluation, for which the claim is false (`C92_buffer_wrong`, `C92_retry_wrong`), and data
of other observables without systematics (`C33_observables_wrong`). -/
theorem C92_history_partial {name : Nat → String} {C : FitSys σ α} (hC : C.Refreshing) {fail : σ → σ} (hf : C.KeepsOnFailure fail)
    {M : CMath α} {L : NLLH σ α} (hR : Reached name C M L) (hbuf : L.shrinker.buffers = []) (cs : List (FitCall α))
    (hobs : L.sys.countSystematics ≠ 0 ∨ L.SameObservables cs) :
    (L.fitCallsCaught C fail M cs).value C M = (L.fitCallsCaught C fail M (cs.filter FitCall.notEvaluate)).value C M ∧
    (L.fitCallsCaught C fail M cs).getParameters C = (L.fitCallsCaught C fail M (cs.filter FitCall.notEvaluate)).getParameters C := by
  obtain ⟨O, log, hO, ht⟩ := trace_self hR (.inl hbuf) cs hobs
  exact (caught_trace hC hf cs hO ht).observed

/-- What a successful evaluation settles. -/
theorem NLLH.settled_after {C : FitSys σ α} {M : CMath α} {L L' : NLLH σ α} {v : Fl α} (h : L.evaluate C M = .ok (v, L')) :
    L'.alreadyShrunk = true ∧ L'.sys.countSystematics = L.sys.countSystematics := by
  rw [evaluate_eq] at h
  obtain ⟨d, hd, h⟩ := Res.bind_eq_ok.1 h
  obtain ⟨m, hm, h⟩ := Res.bind_eq_ok.1 h
  obtain ⟨sd, hsd, h⟩ := Res.bind_eq_ok.1 h
  obtain ⟨so, hso, h⟩ := Res.bind_eq_ok.1 h
  obtain ⟨m1, hm1, h⟩ := Res.bind_eq_ok.1 h
  obtain ⟨vm, hvm, h⟩ := Res.bind_eq_ok.1 h
  obtain ⟨ps, hps, h⟩ := Res.bind_eq_ok.1 h
  obtain ⟨c, hc, h⟩ := Res.bind_eq_ok.1 h
  cases h
  refine ⟨rfl, ?_⟩
  show so.1.countSystematics = _
  unfold SysManager.construct at hso
  split at hso
  · cases hso; rfl
  · obtain ⟨h', _, hso⟩ := Res.bind_eq_ok.1 hso
    obtain ⟨rs, _, hso⟩ := Res.bind_eq_ok.1 hso
    cases hso; rfl

/-- C92 (partial), buffers: with at least one systematic and one evaluation that succeeded, the same holds whatever buffers are set.
Missing: as for `C92_history_partial`. -/
theorem C92_buffers_partial {name : Nat → String} {C : FitSys σ α} (hC : C.Refreshing) {fail : σ → σ} (hf : C.KeepsOnFailure fail)
    {M : CMath α} {L L' : NLLH σ α} {v : Fl α} (hR : Reached name C M L) (hsys : L.sys.countSystematics ≠ 0)
    (h : L.evaluate C M = .ok (v, L')) (cs : List (FitCall α)) :
    (L'.fitCallsCaught C fail M cs).value C M = (L'.fitCallsCaught C fail M (cs.filter FitCall.notEvaluate)).value C M ∧
    (L'.fitCallsCaught C fail M cs).getParameters C = (L'.fitCallsCaught C fail M (cs.filter FitCall.notEvaluate)).getParameters C := by
  obtain ⟨h1, h2⟩ := settled_after h
  have h0 : L'.sys.countSystematics ≠ 0 := by rw [h2]; exact hsys
  obtain ⟨O, log, hO, ht⟩ := trace_self (hR.evaluate h) (.inr ⟨h0, h1⟩) cs (.inl h0)
  exact (caught_trace hC hf cs hO ht).observed

/-- C92 (partial), the usual case: an evaluation throws, the parameters are corrected, and the value is that of a likelihood that never
attempted the failed one. Missing: as for `C92_history_partial`. -/
theorem C92_after_failure_partial {name : Nat → String} {C : FitSys σ α} (hC : C.Refreshing) {fail : σ → σ} (hf : C.KeepsOnFailure fail)
    {M : CMath α} {L : NLLH σ α} (hR : Reached name C M L) (hbuf : L.shrinker.buffers = [])
    (hobs : L.sys.countSystematics ≠ 0 ∨ L.SameObservables []) (d : ParamDict α) :
    ((L.evaluateLeft C fail M).1.setParameters C d).1.value C M = (L.setParameters C d).1.value C M :=
  (C92_history_partial hC hf (M := M) hR hbuf [.evaluate, .setParameters d] (hobs.imp id (fun ⟨o, h1, h2, h3⟩ => ⟨o, h1, h2, by
    intro c hc
    rcases List.mem_cons.1 hc with rfl | hc
    · trivial
    · rw [List.mem_singleton.1 hc]; trivial⟩))).1

/-- C92: the systematics of the library meet the condition: whatever `Construct` of a scale, shift, scale function, shape or
normalisation systematic has written when it throws, no later use tells. -/
theorem C92_systematics : (AnySys.fit (α := α)).KeepsOnFailure AnySys.left := fun s e h => AnySys.left_equiv s e h

/-- C92: what is left of a systematic by `Construct`, and its outcome, are those of the model of `Construct` used everywhere else. -/
theorem C92_construct_outcome (s : AnySys α) :
    (∀ s', s.construct = .ok s' ↔ s.constructLeft = (s', .ok ())) ∧ ∀ e, s.construct = .throw e ↔ s.constructLeft.2 = .throw e := by
  rw [← AnySys.done_construct s]
  generalize s.constructLeft = r
  obtain ⟨K, o⟩ := r
  unfold Res.done
  cases o with
  | ok v =>
    refine ⟨fun L' => ?_, fun e => ?_⟩
    · simp only [Res.ok.injEq, Prod.mk.injEq, and_true]
    · simp
  | throw e => exact ⟨fun L' => by simp, fun e => by simp⟩
  | ub => exact ⟨fun L' => by simp, fun e => by simp⟩

/-- Non-vacuity: a likelihood with a scale systematic whose factor is -1 throws ValueError; with the factor corrected to 11/10 it
evaluates, and by `C92_after_failure_partial` to what it would have without the failed attempt. -/
example : ∃ L : NLLH (AnySys ℚ) ℚ, Reached exSysName AnySys.fit exMath L ∧ L.shrinker.buffers = [] ∧ L.sys.countSystematics ≠ 0 ∧
    L.evaluate AnySys.fit exMath = .throw .value ∧
    (((L.evaluateLeft AnySys.fit AnySys.left exMath).1.setParameters AnySys.fit [("a", 10), ("f", 11/10)]).1.value AnySys.fit exMath).isOk = true ∧
    ((L.evaluateLeft AnySys.fit AnySys.left exMath).1.setParameters AnySys.fit [("a", 10), ("f", 11/10)]).1.value AnySys.fit exMath =
      (L.setParameters AnySys.fit [("a", 10), ("f", 11/10)]).1.value AnySys.fit exMath := by
  have hw : (exFitPdf "a" [("x", 4), ("y", 2)] [1, 1, 1, 1, 1, 1, 1, 1] >>= fun pdf =>
      exFitScale pdf .direct [] 10 (-1) pdf >>= fun L =>
      Res.ok (L.shrinker.buffers.length, L.sys.countSystematics, (L.evaluate AnySys.fit exMath).excOf,
        (((L.evaluateLeft AnySys.fit AnySys.left exMath).1.setParameters AnySys.fit [("a", 10), ("f", 11/10)]).1.value AnySys.fit exMath).isOk)) =
      .ok (0, 1, some .value, true) := by decide +kernel
  obtain ⟨pdf, _, hw⟩ := Res.bind_eq_ok.1 hw
  obtain ⟨L, hL, hw⟩ := Res.bind_eq_ok.1 hw
  have hw := Res.ok.inj hw
  simp only [Prod.mk.injEq] at hw
  obtain ⟨b1, b2, b3, b4⟩ := hw
  have hR : Reached exSysName AnySys.fit exMath L := by
    unfold exFitScale at hL
    obtain ⟨L1, e1, hL⟩ := Res.bind_eq_ok.1 hL
    obtain ⟨L2, e2, hL⟩ := Res.bind_eq_ok.1 hL
    cases hL
    exact .setDataDist _ (.setParameters _ (.registerFitComponents (.addPdf _ _ _ _ (.addSystematic _ _ (.new _) e1) e2)))
  have hb := List.length_eq_zero_iff.1 b1
  refine ⟨L, hR, hb, by rw [b2]; exact one_ne_zero, ?_, b4,
    C92_after_failure_partial AnySys.refreshing C92_systematics hR hb (.inl (by rw [b2]; exact one_ne_zero)) _⟩
  cases he : L.evaluate AnySys.fit exMath with
  | ok v => rw [he] at b3; cases b3
  | throw e => rw [he] at b3; cases b3; rfl
  | ub => rw [he] at b3; cases b3

/-- **C92 is false for buffers: a buffer that was too large cannot be corrected.** A 4 × 4 likelihood with three buffer bins at each
end of `y` throws ValueError. With the buffer corrected it throws at every further evaluation, because the axis `x` is still among those
of the shrunk distribution; corrected before the first evaluation, it evaluates. -/
theorem C92_buffer_wrong : ∃ L : NLLH (AnySys ℚ) ℚ, Reached exSysName AnySys.fit exMath L ∧
    L.evaluate AnySys.fit exMath = .throw .value ∧ ((L.setBuffer "y" 1 1).evaluate AnySys.fit exMath).isOk = true ∧
    ((L.evaluateLeft AnySys.fit AnySys.left exMath).1.setBuffer "y" 1 1).evaluate AnySys.fit exMath = .throw .value := by
  have hw : (exFitPdf "a" [("x", 4), ("y", 4)] (List.replicate 16 1) >>= fun pdf =>
      exFit false pdf .direct [("x", 1, 1), ("y", 3, 3)] 10 pdf >>= fun L =>
      Res.ok ((L.evaluate AnySys.fit exMath).excOf, ((L.setBuffer "y" 1 1).evaluate AnySys.fit exMath).isOk,
        (((L.evaluateLeft AnySys.fit AnySys.left exMath).1.setBuffer "y" 1 1).evaluate AnySys.fit exMath).excOf)) =
      .ok (some .value, true, some .value) := by decide +kernel
  obtain ⟨pdf, _, hw⟩ := Res.bind_eq_ok.1 hw
  obtain ⟨L, hL, hw⟩ := Res.bind_eq_ok.1 hw
  have hw := Res.ok.inj hw
  simp only [Prod.mk.injEq] at hw
  obtain ⟨b1, b2, b3⟩ := hw
  have exc : ∀ {β : Type} {r : Res β}, r.excOf = some .value → r = .throw .value := by
    intro β r h
    cases r with
    | ok v => cases h
    | throw e => cases h; rfl
    | ub => cases h
  exact ⟨L, exFit_reached hL _, exc b1, b2, exc b3⟩

/-- A likelihood with two distributions fitted directly. -/
def exFitTwo (p q : BinnedED ℚ) (lower upper : Nat) (d : BinnedED ℚ) : Res (NLLH (AnySys ℚ) ℚ) := do
  let L ← (NLLH.new (fun _ => .renorm ⟨.new, none, []⟩) : NLLH (AnySys ℚ) ℚ).addPdf exSysName p none none .direct
  let L ← L.addPdf exSysName q none none .direct
  let L := L.setBuffer "x" lower upper
  pure (((L.registerFitComponents exSysName).setParameters AnySys.fit [(p.name, 10), (q.name, 10)]).1.setDataDist d)

/-- **C92 is false for buffers: an evaluation that throws returns a number when it is repeated.** Two distributions, of 4 and of 5
bins, with buffers and no systematics: the first evaluation throws `std::out_of_range` when the second distribution is shrunk, after the
first was; the second evaluation takes the first distribution's size for all of them, shrinks nothing and returns 30. -/
theorem C92_retry_wrong : ∃ L : NLLH (AnySys ℚ) ℚ, Reached exSysName AnySys.fit exMath L ∧
    L.evaluate AnySys.fit exMath = .throw .outOfRange ∧
    (L.evaluateLeft AnySys.fit AnySys.left exMath).1.value AnySys.fit exMath = .ok (some 30) := by
  have hw : (exFitPdf "a" [("x", 4)] [1, 1, 1, 1] >>= fun p => exFitPdf "b" [("x", 5)] [1, 1, 1, 1, 1] >>= fun q =>
      exFitTwo p q 1 1 p >>= fun L =>
      Res.ok ((L.evaluate AnySys.fit exMath).excOf, ((L.evaluateLeft AnySys.fit AnySys.left exMath).1.value AnySys.fit exMath).toOption)) =
      .ok (some .outOfRange, some (some 30)) := by decide +kernel
  obtain ⟨p, _, hw⟩ := Res.bind_eq_ok.1 hw
  obtain ⟨q, _, hw⟩ := Res.bind_eq_ok.1 hw
  obtain ⟨L, hL, hw⟩ := Res.bind_eq_ok.1 hw
  have hw := Res.ok.inj hw
  simp only [Prod.mk.injEq] at hw
  obtain ⟨b1, b2⟩ := hw
  refine ⟨L, ?_, ?_, ?_⟩
  · unfold exFitTwo at hL
    obtain ⟨L1, e1, hL⟩ := Res.bind_eq_ok.1 hL
    obtain ⟨L2, e2, hL⟩ := Res.bind_eq_ok.1 hL
    cases hL
    exact .setDataDist _ (.setParameters _ (.registerFitComponents (.setBuffer _ _ _ (.addPdf _ _ _ _ (.addPdf _ _ _ _ (.new _) e1) e2))))
  · cases he : L.evaluate AnySys.fit exMath with
    | ok v => rw [he] at b1; cases b1
    | throw e => rw [he] at b1; cases b1; rfl
    | ub => rw [he] at b1; cases b1
  · generalize (L.evaluateLeft AnySys.fit AnySys.left exMath).1.value AnySys.fit exMath = r at b2
    cases r with
    | ok v => cases b2; rfl
    | throw e => cases b2
    | ub => cases b2

end Oxsx
