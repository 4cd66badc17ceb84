import Verif.Model.ChiSquare
import Verif.Lemmas.Basic
import Verif.Props.BinnedEDGenerator
set_option linter.unusedSectionVars false
set_option linter.unusedSimpArgs false
set_option linter.unusedVariables false
/-
C100: the χ² statistic. The property one would rely on is that, once configured with distributions and data, `Evaluate` returns
the sum over bins of (observed − expected)² / expected. The class has no member through which a distribution can be given to it,
so no sequence of calls ever makes `Evaluate` return.
-/
namespace Oxsx
variable {σ α : Type} [Field α] [LinearOrder α] [IsStrictOrderedRing α]

/-- Two events in one observable. -/
def exChiData : DataSet ℚ := { names := ["energy"], data := [[1], [2]], nObs := 1 }

namespace ChiSquare

/-- The object a program has after making the calls in order on a fresh object. -/
def after (C : FitSys σ α) (name : Nat → String) (objs : Nat → σ) (calls : List (Call σ α)) : ChiSquare σ α :=
  calls.foldl (step C name) (new objs)

/-- What stays true whatever is called. -/
def Untouched (X : ChiSquare σ α) : Prop :=
  X.pdfs = .new ∧ X.sys = .new ∧ X.calculated = false ∧ ∃ k, X.components = List.replicate k .pdfs

theorem setParameters_new (d : ParamDict α) : (PdfManager.new : PdfManager α).setParameters d = (.new, .ok ()) := by
  simp only [PdfManager.setParameters, PdfManager.new, ParamManager.setParameters, SMap.keys, List.map_nil, ParamManager.setLoop,
    PdfManager.withStore, PdfManager.store]
  simp

theorem setLoop_new (C : FitSys σ α) (d : ParamDict α) {X : ChiSquare σ α} (hX : X.pdfs = .new) (k : Nat) :
    setLoop C d X (List.replicate k .pdfs) = (X, .ok ()) := by
  induction k with
  | zero => rfl
  | succ k ih =>
    have hs : setComponent C d X .pdfs = (X, .ok ()) := by
      simp only [setComponent]
      rw [hX, setParameters_new]
      cases X
      simp only at hX
      subst hX
      rfl
    rw [List.replicate_succ, setLoop, hs]
    exact ih

theorem setParameters_untouched (C : FitSys σ α) (d : ParamDict α) {X : ChiSquare σ α} (h : X.Untouched) :
    X.setParameters C d = (X, .ok ()) := by
  obtain ⟨h1, h2, h3, k, h4⟩ := h
  unfold setParameters
  split
  · rfl
  · rw [h4]; exact setLoop_new C d h1 k

theorem evaluate_untouched (C : FitSys σ α) {X : ChiSquare σ α} (h : X.Untouched) : X.evaluate C = .throw .outOfRange := by
  obtain ⟨h1, h2, h3, k, h4⟩ := h
  unfold evaluate
  rw [h3]
  simp only [binData, h1, PdfManager.new, at_]
  rfl

theorem step_untouched (C : FitSys σ α) (name : Nat → String) {X : ChiSquare σ α} (h : X.Untouched) (c : Call σ α) :
    (step C name X c).Untouched := by
  cases c with
  | addSystematic p g =>
    simp only [step]
    split
    · rename_i Y hY
      simp only [addSystematic] at hY
      obtain ⟨s, hs, hY⟩ := Res.bind_eq_ok.1 hY
      cases hY
      exact h
    · exact h
  | registerFitComponents =>
    obtain ⟨h1, h2, h3, k, h4⟩ := h
    refine ⟨h1, h2, h3, k + 1, ?_⟩
    simp only [step, registerFitComponents, h2, h4, SysManager.new]
    rw [List.replicate_succ']
    rfl
  | setParameters d =>
    simp only [step]
    rw [setParameters_untouched C d h]
    exact h
  | evaluate =>
    simp only [step]
    rw [evaluate_untouched C h]
    exact h
  | _ => exact h

theorem after_untouched (C : FitSys σ α) (name : Nat → String) (objs : Nat → σ) (calls : List (Call σ α)) :
    (after C name objs calls).Untouched := by
  have : ∀ (l : List (Call σ α)) (X : ChiSquare σ α), X.Untouched → (l.foldl (step C name) X).Untouched := by
    intro l
    induction l with
    | nil => intro X h; exact h
    | cons c l ih => intro X h; exact ih _ (step_untouched C name h c)
  exact this calls _ ⟨rfl, rfl, rfl, 0, rfl⟩

end ChiSquare
open ChiSquare

/-- C100: whatever is called on a χ² statistic before, in whatever order, with whatever data and systematics, its `Evaluate`
throws `std::out_of_range`: it never returns a value. -/
theorem C100_evaluate_wrong (C : FitSys σ α) (name : Nat → String) (objs : Nat → σ) (calls : List (Call σ α)) :
    (after C name objs calls).evaluate C = .throw .outOfRange :=
  evaluate_untouched C (after_untouched C name objs calls)

/-- C100: and it has no parameter, even after systematics were added and the components registered. -/
theorem C100_parameters_wrong (C : FitSys σ α) (name : Nat → String) (objs : Nat → σ) (calls : List (Call σ α)) :
    (after C name objs calls).getParameters C = .ok [] := by
  obtain ⟨h1, h2, h3, k, h4⟩ := after_untouched C name objs calls
  unfold getParameters
  rw [h4]
  clear h4
  induction k with
  | zero => rfl
  | succ k ih =>
    rw [List.replicate_succ]
    refine Res.forFold_cons_eq_ok.2 ⟨[], ?_, ih⟩
    simp only [componentParameters, h1]
    rfl

/-- C100: it accepts every dictionary of parameters without looking at it, and is left as it was. -/
theorem C100_set_parameters_wrong (C : FitSys σ α) (name : Nat → String) (objs : Nat → σ) (calls : List (Call σ α))
    (d : ParamDict α) : (after C name objs calls).setParameters C d = (after C name objs calls, .ok ()) :=
  setParameters_untouched C d (after_untouched C name objs calls)

/-- Beside it: the calls of a program that does everything the interface offers, in a sensible order. -/
example (C : FitSys Unit ℚ) : ((after C (fun _ => "scale") (fun _ => ()) [.addSystematic 0 none, .setDataSet (some exChiData),
    .registerFitComponents, .setParameters [("scale", 1)]]).data = some exChiData ∧
    (after C (fun _ => "scale") (fun _ => ()) [.addSystematic 0 none, .setDataSet (some exChiData),
    .registerFitComponents, .setParameters [("scale", 1)]]).evaluate C = .throw .outOfRange) :=
  ⟨rfl, C100_evaluate_wrong C _ _ _⟩

/-- A bin centre becomes an event without names, so that no distribution with an observable can be asked about it. -/
theorem probability_unnamed (m : PdfManager α) (vs : List α) {w : BinnedED α} {ws : List (BinnedED α)} (hw : m.work = w :: ws)
    {n : String} {ns : List String} (hn : w.obs.names = n :: ns) : (m.probability (Event.ofData vs)).isOk = false := by
  unfold PdfManager.probability
  cases hr : m.reassertNorms true with
  | throw e => rfl
  | ub => rfl
  | ok m' =>
    have hm : m'.work = m.work := by
      unfold PdfManager.reassertNorms at hr
      split at hr
      · cases hr; rfl
      · obtain ⟨x, hx, hr⟩ := Res.bind_eq_ok.1 hr
        cases hr; rfl
    have hp : w.probabilityEvent (Event.ofData vs) = .ub := by
      unfold BinnedED.probabilityEvent Event.toObsSet
      rw [hn]
      rfl
    have hstep : (m'.probStep (fun (w : BinnedED α) => w.probabilityEvent (Event.ofData vs)) (0, 0) 0).isOk = false := by
      unfold PdfManager.probStep
      cases hs : at_ m'.status 0 with
      | throw e => rfl
      | ub => rfl
      | ok st =>
        have ha : at_ m'.work 0 = .ok w := by rw [hm, hw]; rfl
        simp only [Res.ok_bind, ha]
        cases st with
        | direct =>
          simp only [hp]
          cases at_ m'.norms 0 <;> rfl
        | indirect =>
          simp only [hp]
          cases at_ m'.fitNorms 0 <;> rfl
        | off => simp only [hp]; rfl
    simp only [Res.ok_bind]
    rw [hm, hw, List.length_cons, List.range_succ_eq_map]
    cases hx : m'.probStep (fun (w : BinnedED α) => w.probabilityEvent (Event.ofData vs)) (0, 0) 0 with
    | ok a => rw [hx] at hstep; cases hstep
    | throw e => simp only [Res.forFold, hx]; rfl
    | ub => simp only [Res.forFold, hx]; rfl

/-- C100: and even an object holding distributions and binned data, without systematics, could not be evaluated: with at least
one bin and a first distribution in at least one observable, `Evaluate` returns no value. -/
theorem C100_unnamed_wrong (C : FitSys σ α) (X : ChiSquare σ α) (hc : X.calculated = true) (hs : X.sys = .new)
    {w : BinnedED α} {ws : List (BinnedED α)} (hw : X.pdfs.work = w :: ws) {n : String} {ns : List String}
    (hn : w.obs.names = n :: ns) (hb : 0 < X.dataDist.hist.nBins) : (X.evaluate C).isOk = false := by
  have hcount : X.sys.countSystematics = 0 := by rw [hs]; rfl
  have h1 : X.sys.construct C.toSysClass X.objs = .ok (X.sys, X.objs) := by
    unfold SysManager.construct; rw [if_pos hcount]; rfl
  have h2 : X.pdfs.applySystematics X.sys = .ok X.pdfs := by
    unfold PdfManager.applySystematics; rw [if_pos hcount]
  obtain ⟨k, hk⟩ : ∃ k, X.dataDist.hist.nBins = k + 1 := ⟨_, (Nat.succ_pred_eq_of_pos hb).symm⟩
  have h3 : (binStep X (some 0, X.pdfs) 0).isOk = false := by
    unfold binStep
    cases hcen : X.dataDist.hist.axes.getBinCentres 0 X.dataDist.hist.axes.nDims with
    | throw e => rfl
    | ub => rfl
    | ok c =>
      simp only [Res.ok_bind]
      have := probability_unnamed X.pdfs c hw hn
      cases hp : X.pdfs.probability (Event.ofData c) with
      | ok a => rw [hp] at this; cases this
      | throw e => rfl
      | ub => rfl
  unfold evaluate
  rw [if_pos hc]
  simp only [pure, Res.ok_bind, h1, h2, hk, List.range_succ_eq_map]
  cases hx : binStep X (some 0, X.pdfs) 0 with
  | ok a => rw [hx] at h3; cases h3
  | throw e => simp only [Res.forFold, hx]; rfl
  | ub => simp only [Res.forFold, hx]; rfl

/-- An object with one distribution and binned data, which the class gives no way to make. -/
def exChi : ChiSquare Unit ℚ :=
  let m : PdfManager ℚ := { PdfManager.new with orig := [genEx [1/3, 2/3]], work := [genEx [1/3, 2/3]], norms := [3], status := [.direct] }
  { ChiSquare.new (fun _ => ()) with calculated := true, dataDist := genEx [1, 2], pdfs := m }

example (C : FitSys Unit ℚ) : 0 < exChi.dataDist.hist.nBins ∧ (exChi.evaluate C).isOk = false :=
  ⟨by decide +kernel, C100_unnamed_wrong C exChi rfl rfl (w := genEx [1/3, 2/3]) (ws := []) rfl (n := "x") (ns := []) rfl
    (by decide +kernel)⟩

end Oxsx
