import Verif.Props.Filling
import Verif.Props.EventDist
import Verif.Props.LikelihoodSet
/-
C67, C69, C89: what objects do before they are told everything: a distribution without observables, a manager without distributions,
a likelihood whose fit components were never registered.
-/
set_option linter.unusedVariables false
set_option linter.unusedSectionVars false
set_option linter.unusedSimpArgs false
namespace Oxsx
variable {σ α : Type} [Field α] [LinearOrder α]

/-- C67: a distribution made from axes has no observables until they are set, whatever the axes are called: filling with any event and
asking for the probability of any event are refused, and the distribution is as before. -/
theorem C67_unset (name : String) (as : List (BinAxis α)) (c : AxisCollection α)
    (hb : (AxisCollection.empty : AxisCollection α).addAxes as = .ok c) (hne : as ≠ []) (e : Event α) (w : α) :
    (BinnedED.ofAxes name c).obs.names = [] ∧ (BinnedED.ofAxes name c).fillEvent e w = .throw .representation := by
  have hv : (BinnedED.ofAxes name c).hist.Valid as := Histogram.valid_ofAxes (AxisCollection.holds_of_addAxes hb) hne
  refine ⟨rfl, ?_⟩
  unfold BinnedED.fillEvent
  have h1 : e.toObsSet (BinnedED.ofAxes name c).obs = .ok [] := rfl
  have h2 : (BinnedED.ofAxes name c).hist.fill [] w = .throw .dimension := by
    unfold Histogram.fill
    rw [Res.throwIf_true_of (by
      rw [hv.nd]
      have := List.length_pos_iff.2 hne
      simp only [List.length_nil]
      omega)]
    rfl
  rw [h1, Res.ok_bind, h2]
  rfl

/-- C69: the number of dimensions a manager of distributions reports: that of every distribution in it, and 0 as long as it has none. -/
theorem C69_dims {ds : List (EDist α)} {m : EDManager α} (h : EDManager.Built ds m) :
    (∀ d ∈ ds, m.nDims = d.nDims) ∧ (ds = [] → m.nDims = 0) := by
  refine ⟨fun d hd => ((EDManager.inv_of_built h).dims d hd).symm, ?_⟩
  induction h with
  | new => intro _; rfl
  | addDist d _ _ _ => intro h; simp at h
  | setNormalisations ns _ hs ih =>
    intro h
    unfold EDManager.setNormalisations at hs
    split at hs
    · cases hs
    · cases hs; exact ih h
  | setParameters d _ ih => intro h; exact ih h
  | setParameter n v _ hs ih =>
    intro h
    unfold EDManager.setParameter at hs
    obtain ⟨st, _, hs⟩ := Res.bind_eq_ok.1 hs
    cases hs
    exact ih h

/-- What a likelihood can be told before its fit components are registered. -/
inductive NLLH.Unregistered (name : Nat → String) (objs : Nat → σ) : NLLH σ α → Prop
  | new : Unregistered name objs (.new objs)
  | addPdf {L L'} (pdf groups rate st) : Unregistered name objs L → L.addPdf name pdf groups rate st = .ok L' → Unregistered name objs L'
  | addSystematic {L L'} (p g) : Unregistered name objs L → L.addSystematic name p g = .ok L' → Unregistered name objs L'
  | setDataDist {L} (d) : Unregistered name objs L → Unregistered name objs (L.setDataDist d)
  | setBarlowBeeston {L} (b) : Unregistered name objs L → Unregistered name objs (L.setBarlowBeeston b)
  | setBuffer {L} (n lo hi) : Unregistered name objs L → Unregistered name objs (L.setBuffer n lo hi)
  | setConstraints {L} (c) : Unregistered name objs L → Unregistered name objs { L with constraints := c }

/-- C89: until the fit components are registered a likelihood has no parameters, whatever distributions, systematics and constraints
it was given, and setting parameters is accepted but changes nothing. -/
theorem C89_unregistered {name : Nat → String} {objs : Nat → σ} {L : NLLH σ α} (h : NLLH.Unregistered name objs L) (C : FitSys σ α)
    (d : ParamDict α) : L.getParameters C = .ok [] ∧ L.setParameters C d = (L, .ok ()) := by
  have hc : L.components = [] := by
    induction h with
    | new => rfl
    | addPdf pdf groups rate st _ hs ih =>
      unfold NLLH.addPdf at hs
      obtain ⟨_, _, hs⟩ := Res.bind_eq_ok.1 hs
      obtain ⟨_, _, hs⟩ := Res.bind_eq_ok.1 hs
      obtain ⟨_, _, hs⟩ := Res.bind_eq_ok.1 hs
      rw [← Res.ok.inj hs]
      exact ih
    | addSystematic p g _ hs ih =>
      unfold NLLH.addSystematic at hs
      obtain ⟨_, _, hs⟩ := Res.bind_eq_ok.1 hs
      rw [← Res.ok.inj hs]
      exact ih
    | setDataDist d _ ih => exact ih
    | setBarlowBeeston b _ ih => exact ih
    | setBuffer n lo hi _ ih => exact ih
    | setConstraints c _ ih => exact ih
  unfold NLLH.getParameters NLLH.setParameters
  rw [hc]
  refine ⟨rfl, ?_⟩
  split <;> rfl

-- a distribution with a fitted normalisation, added but not registered
example : ∃ L : NLLH (Nat × ℚ) ℚ, NLLH.Unregistered exSysName (fun p => (p, (1 : ℚ))) L ∧ L.pdfs.work.length = 1 := by
  have : ∃ L, (NLLH.new (fun p => (p, (1 : ℚ))) : NLLH (Nat × ℚ) ℚ).addPdf exSysName ⟨"s", .empty, .ofNames ["x"]⟩ none none .direct = .ok L ∧ L.pdfs.work.length = 1 :=
    ⟨_, rfl, rfl⟩
  obtain ⟨L, h1, h2⟩ := this
  exact ⟨L, .addPdf _ _ _ _ .new h1, h2⟩

end Oxsx
