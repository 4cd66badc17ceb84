import Verif.Model.ConstrainedFit
import Verif.Props.ConstraintManager
import Verif.Props.FitQuality
import Verif.Lemmas.FailedConstruct
set_option linter.unusedSectionVars false
set_option linter.unusedSimpArgs false
set_option linter.unusedVariables false
/-
C101: constraining a fit adds the penalties of the constraints to the value, and nothing else.
-/
namespace Oxsx
open ConstraintManager
variable {σ α : Type} [Field α] [LinearOrder α] [IsStrictOrderedRing α]

namespace NLLH

/-- The likelihood with the constraints `K` instead of its own. -/
def under (L : NLLH σ α) (K : ConstraintManager α) : NLLH σ α := { L with constraints := K }

theorem binData_under (L : NLLH σ α) (K : ConstraintManager α) :
    (L.under K).binData = L.binData >>= fun P => .ok (P.under K) := by
  unfold binData
  show (at_ L.pdfs.orig 0 >>= _) = _
  rw [Res.bind_assoc']
  cases at_ L.pdfs.orig 0 with
  | throw e => rfl
  | ub => rfl
  | ok o =>
    simp only [Res.ok_bind]
    have : (L.under K).data = L.data := rfl
    rw [this]
    cases L.data with
    | none => rfl
    | some d =>
      simp only
      rw [Res.bind_assoc']
      have : (L.under K).cuts = L.cuts := rfl
      rw [this]
      cases DistFiller.fillDistLog { o with hist := o.hist.emptyContents } d L.cuts (CutLog.ofNames L.cuts.getCutNames) [] (-1) <;> rfl

theorem shrinkData_under (L : NLLH σ α) (K : ConstraintManager α) :
    (L.under K).shrinkData = L.shrinkData >>= fun P => .ok (P.under K) := by
  unfold shrinkData
  by_cases h : L.alreadyShrunk
  · rw [if_pos h, if_pos (show (L.under K).alreadyShrunk = true from h)]; rfl
  · rw [if_neg h, if_neg (show ¬ (L.under K).alreadyShrunk = true from h)]
    rw [Res.bind_assoc']
    show (L.shrinker.setBinMap L.dataDist >>= _) = _
    cases L.shrinker.setBinMap L.dataDist with
    | throw e => rfl
    | ub => rfl
    | ok s =>
      simp only [Res.ok_bind]
      rw [Res.bind_assoc']
      show (s.shrinkDist L.dataDist >>= _) = _
      cases s.shrinkDist L.dataDist <;> rfl

theorem prepare_under (C : FitSys σ α) (L : NLLH σ α) (K : ConstraintManager α) :
    (L.under K).prepare C = L.prepare C >>= fun P => .ok (P.under K) := by
  unfold prepare
  have h1 : (if (L.under K).calculated then pure (L.under K) else (L.under K).binData) =
      (if L.calculated then pure L else L.binData) >>= fun P => .ok (P.under K) := by
    by_cases h : L.calculated
    · rw [if_pos h, if_pos (show (L.under K).calculated = true from h)]; rfl
    · rw [if_neg h, if_neg (show ¬ (L.under K).calculated = true from h), binData_under]
  have h0 : Res.throwIf ((L.under K).data.isNone ∧ ¬ (L.under K).calculated) .logic =
      Res.throwIf (L.data.isNone ∧ ¬ L.calculated) .logic := rfl
  rw [h0, h1]
  cases Res.throwIf (L.data.isNone ∧ ¬ L.calculated) .logic with
  | throw e => rfl
  | ub => rfl
  | ok u =>
    simp only [Res.ok_bind]
    cases (if L.calculated then (pure L : Res (NLLH σ α)) else L.binData) with
    | throw e => rfl
    | ub => rfl
    | ok L1 =>
      simp only [Res.ok_bind]
      show (L1.pdfs.reassertNorms false >>= _) = _
      cases L1.pdfs.reassertNorms false with
      | throw e => rfl
      | ub => rfl
      | ok m =>
        simp only [Res.ok_bind]
        have h2 := shrinkData_under { L1 with pdfs := m } K
        have h3 : ({ L1.under K with pdfs := m } : NLLH σ α) = ({ L1 with pdfs := m } : NLLH σ α).under K := rfl
        rw [h3, h2]
        cases shrinkData ({ L1 with pdfs := m } : NLLH σ α) with
        | throw e => rfl
        | ub => rfl
        | ok L2 =>
          simp only [Res.ok_bind]
          show (L2.sys.construct C.toSysClass L2.objs >>= _) = _
          cases L2.sys.construct C.toSysClass L2.objs with
          | throw e => rfl
          | ub => rfl
          | ok so =>
            obtain ⟨sm, objs⟩ := so
            simp only [Res.ok_bind]
            show (L2.pdfs.applySystematics sm >>= _) = _
            cases L2.pdfs.applySystematics sm with
            | throw e => rfl
            | ub => rfl
            | ok m2 =>
              simp only [Res.ok_bind]
              show (m2.assertDimensions L2.dataDist.obs.names >>= _) = _
              cases m2.assertDimensions L2.dataDist.obs.names with
              | throw e => rfl
              | ub => rfl
              | ok m3 =>
                simp only [Res.ok_bind]
                show (m3.applyShrink L2.shrinker >>= _) = _
                cases m3.applyShrink L2.shrinker <;> rfl

end NLLH
open NLLH

theorem Fl.add_zero' (v : Fl α) : Fl.add v (some 0) = v := by
  cases v <;> simp [Fl.add]

/-- C101: for every likelihood, in whatever state and with whatever constraints `K`, `Evaluate` is the evaluation without any
constraint, then the evaluation of the constraints at the parameters that leaves; the value is the sum of the two and what is
left behind differs in the constraints only. In particular it fails as soon as the unconstrained one does. -/
theorem C101_separate (C : FitSys σ α) (M : CMath α) (L : NLLH σ α) (K : ConstraintManager α) :
    (L.under K).evaluate C M = (do
      let r ← (L.under .empty).evaluate C M
      let ps ← r.2.getParameters C
      let c ← K.evaluate ps
      pure (Fl.add r.1 c, r.2.under K)) := by
  have base : ∀ K, (L.under K).evaluate C M = (L.prepare C >>= fun P =>
      Res.forFold (binStep M P) (some 0, P.pdfs) (List.range P.dataDist.hist.nBins) >>= fun vm =>
      ({ P with pdfs := vm.2 } : NLLH σ α).getParameters C >>= fun ps => K.evaluate ps >>= fun c =>
      .ok (Fl.add vm.1 c, ({ P with pdfs := vm.2 } : NLLH σ α).under K)) := by
    intro K
    unfold NLLH.evaluate
    rw [prepare_under, Res.bind_assoc']
    cases L.prepare C <;> rfl
  rw [base, base]
  cases L.prepare C with
  | throw e => rfl
  | ub => rfl
  | ok P =>
    simp only [Res.ok_bind]
    cases Res.forFold (binStep M P) (some 0, P.pdfs) (List.range P.dataDist.hist.nBins) with
    | throw e => rfl
    | ub => rfl
    | ok vm =>
      simp only [Res.ok_bind]
      have hp : ∀ K, (({ P with pdfs := vm.2 } : NLLH σ α).under K).getParameters C =
        ({ P with pdfs := vm.2 } : NLLH σ α).getParameters C := fun K => rfl
      cases hps : ({ P with pdfs := vm.2 } : NLLH σ α).getParameters C with
      | throw e => rfl
      | ub => rfl
      | ok ps =>
        have he : (ConstraintManager.empty : ConstraintManager α).evaluate ps = .ok (some 0) := rfl
        simp only [Res.ok_bind, he, hp, hps, Fl.add_zero']
        cases K.evaluate ps <;> rfl

namespace FitConstraint

/-- The constraint the user asked for: the narrow side and the wide side by name. -/
def asked : FitConstraint α → ConCall α
  | .sym n mean sigma => .ind n { mean := mean, width := sigma, widthLo := 0, isAsym := false }
  | .asym n mean lo hi => .ind n { mean := mean, width := hi, widthLo := lo, isAsym := true }
  | .pair a m1 s1 b m2 s2 c => .pair a m1 s1 b m2 s2 c
  | .ratio a b mean s => .ratio a b mean s
  | .shape p f mean s => .shape p f mean s
  | .interp l h => .interp l h

end FitConstraint

theorem NLLH.constrain_exec (m : ConstraintManager α) (c : FitConstraint α) : constrain m c = m.exec c.asked := by
  cases c <;> rfl

/-- The likelihood after the calls, each exception caught by the caller. -/
def NLLH.constrained (L : NLLH σ α) (cs : List (FitConstraint α)) : NLLH σ α := cs.foldl (fun L c => (L.setConstraint c).1) L

/-- C101: setting constraints on a likelihood changes its constraints only, and leaves those in force which the history of
calls on a constraint manager (C37) does, whatever throws on the way. -/
theorem C101_history (L : NLLH σ α) (cs : List (FitConstraint α)) (h0 : L.constraints = .empty) :
    L.constrained cs = L.under (runCalls (cs.map FitConstraint.asked)) := by
  have gen : ∀ (cs : List (FitConstraint α)) (K : ConstraintManager α), (L.under K).constrained cs =
      L.under ((cs.map FitConstraint.asked).foldl (fun m c => match m.exec c with
        | .ok m' => m'
        | _ => m) K) := by
    intro cs
    induction cs with
    | nil => intro K; rfl
    | cons c cs ih =>
      intro K
      have hstep : ((L.under K).setConstraint c).1 = L.under (match K.exec c.asked with
          | .ok m' => m'
          | _ => K) := by
        unfold NLLH.setConstraint
        rw [show (L.under K).constraints = K from rfl, NLLH.constrain_exec]
        cases K.exec c.asked <;> rfl
      simp only [NLLH.constrained, List.foldl_cons, List.map_cons]
      rw [hstep]
      exact ih _
  have := gen cs .empty
  rw [show L.under .empty = L from by rw [← h0]; rfl] at this
  exact this

/-- C101: a call is refused exactly when the constraint manager's specification (C37) says so, and a refused call changes
nothing. -/
theorem C101_refused (L : NLLH σ α) (cs : List (FitConstraint α)) (h0 : L.constraints = .empty) (c : FitConstraint α) :
    (∀ e, (Registered.run (cs.map FitConstraint.asked)).outcome c.asked = some e ↔
      (L.constrained cs).setConstraint c = (L.constrained cs, .throw e)) ∧
    ((Registered.run (cs.map FitConstraint.asked)).outcome c.asked = none ↔ ((L.constrained cs).setConstraint c).2 = .ok ()) := by
  obtain ⟨h1, h2⟩ := C37_calls (cs.map FitConstraint.asked) c.asked
  have hK : (L.constrained cs).constraints = runCalls (cs.map FitConstraint.asked) := by rw [C101_history L cs h0]; rfl
  constructor
  · intro e
    rw [h1]
    unfold NLLH.setConstraint
    rw [hK, NLLH.constrain_exec]
    cases (runCalls (cs.map FitConstraint.asked)).exec c.asked with
    | ok m => simp [Res.keep, bind, Res.bind, pure]
    | ub => simp [Res.keep, bind, Res.bind]
    | throw e' => simp [Res.keep, bind, Res.bind]
  · rw [h2]
    unfold NLLH.setConstraint
    rw [hK, NLLH.constrain_exec]
    cases (runCalls (cs.map FitConstraint.asked)).exec c.asked with
    | ok m => simp [Res.keep, bind, Res.bind, pure]
    | ub => simp [Res.keep, bind, Res.bind]
    | throw e' => simp [Res.keep, bind, Res.bind]

/-- C101: hence the value of a constrained fit is the value of the same fit without constraints plus, for every constraint in
force, its penalty at the parameters of the fit. -/
theorem C101_value (C : FitSys σ α) (M : CMath α) (L L' : NLLH σ α) (cs : List (FitConstraint α)) (h0 : L.constraints = .empty)
    {v : α} (he : L.evaluate C M = .ok (some v, L')) {ps : ParamDict α} (hp : L'.getParameters C = .ok ps)
    (vi : String → α) (vp vr vf : String × String → α) (vh : String → α) (vs : ParamDict α → α)
    (hv : (Registered.run (cs.map FitConstraint.asked)).Values ps vi vp vr vf vh vs) :
    (L.constrained cs).evaluate C M = .ok (some (v + (∑ᶠ n, vi n + ∑ᶠ k, vp k + ∑ᶠ k, vr k + ∑ᶠ k, vf k + ∑ᶠ l, vh l
      + ∑ᶠ k, vs k)), L'.under (runCalls (cs.map FitConstraint.asked))) := by
  rw [C101_history L cs h0, C101_separate, show L.under .empty = L from by rw [← h0]; rfl, he]
  simp only [Res.ok_bind, hp, C37_total _ ps vi vp vr vf vh vs hv]
  rfl

/-- C101: with one asymmetric constraint the penalty of a value below the mean is that of the lower width, above that of the
upper width, in the order of the arguments of `SetConstraint`. -/
theorem C101_asymmetric (C : FitSys σ α) (M : CMath α) (L L' : NLLH σ α) (h0 : L.constraints = .empty) {v : α}
    (he : L.evaluate C M = .ok (some v, L')) {ps : ParamDict α} (hp : L'.getParameters C = .ok ps)
    (n : String) (mean lo hi x : α) (hx : SMap.find ps n = some x) (hlo : lo ≠ 0) (hhi : hi ≠ 0) :
    ∃ L2, (L.setConstraint (.asym n mean lo hi)).1.evaluate C M =
      .ok (some (v + if x < mean then ((x - mean) / lo) ^ 2 / 2 else ((x - mean) / hi) ^ 2 / 2), L2) := by
  have h1 : (L.setConstraint (.asym n mean lo hi)).1 = L.under { ConstraintManager.empty with ind := [(n, .asym mean hi lo)], useInd := [(n, true)] } := by
    unfold NLLH.setConstraint
    rw [h0]
    rfl
  rw [h1, C101_separate, show L.under .empty = L from by rw [← h0]; rfl, he]
  simp only [Res.ok_bind, hp]
  have hq : (QuadraticConstraint.asym mean hi lo).evaluate x =
      some (if x < mean then ((x - mean) / lo) ^ 2 / 2 else ((x - mean) / hi) ^ 2 / 2) := by
    unfold QuadraticConstraint.evaluate QuadraticConstraint.asym Fl.div
    by_cases hm : x < mean
    · simp only [if_true, hm, if_neg (not_le.2 hm), ge_iff_le]
      rw [if_neg (by positivity)]
      congr 1; field_simp
    · simp only [if_true, hm, if_pos (not_lt.1 hm), if_false, ge_iff_le]
      rw [if_neg (by positivity)]
      congr 1; field_simp
  have hk : ({ (ConstraintManager.empty : ConstraintManager α) with ind := [(n, .asym mean hi lo)], useInd := [(n, true)] } : ConstraintManager α).evaluate ps =
      .ok (some (if x < mean then ((x - mean) / lo) ^ 2 / 2 else ((x - mean) / hi) ^ 2 / 2)) := by
    unfold ConstraintManager.evaluate sumOver
    simp only [ConstraintManager.empty, Res.forFold, dictAt, hx, Res.ok_bind, hq, pure, Fl.add, zero_add]
  rw [hk]
  exact ⟨_, rfl⟩

/-- Beside them: a fit of one distribution to data at the normalisation 10, its value and parameters. -/
example : (exFitPdf "a" [("x", 2)] [1/2, 1/2] >>= fun pdf => exFitPdf "d" [("x", 2)] [3, 4] >>= fun d =>
    exFit false pdf .direct [] 10 d >>= fun L => L.evaluate AnySys.fit exMath >>= fun r =>
    r.2.getParameters AnySys.fit >>= fun ps => (L.setConstraint (.asym "a" 12 1 4)).1.evaluate AnySys.fit exMath >>= fun r' =>
    Res.ok (r.1, ps, r'.1)) = .ok (some 10, [("a", 10)], some 12) := by decide +kernel

/-- And above the mean, a second constraint on the same parameter replacing the first, a pair with it being refused. -/
example : (exFitPdf "a" [("x", 2)] [1/2, 1/2] >>= fun pdf => exFitPdf "d" [("x", 2)] [3, 4] >>= fun d =>
    exFit false pdf .direct [] 10 d >>= fun L =>
    (L.constrained [.sym "a" 9 1, .asym "a" 8 1 2, .pair "a" 0 1 "b" 0 1 0]).evaluate AnySys.fit exMath >>= fun r' =>
    Res.ok (L.constraints.ind.length, r'.1)) = .ok (0, some (10 + 1/2)) := by decide +kernel

end Oxsx
