import Verif.Props.Filling
import Mathlib.Tactic.FieldSimp
/-
Property C51: counting experiments.
-/
set_option linter.unusedSectionVars false
set_option linter.unusedSimpArgs false
set_option linter.unusedVariables false
namespace Oxsx
variable {α : Type} [Field α] [LinearOrder α] [IsStrictOrderedRing α]

/-- Number of entries of the data set which, after the systematics, pass every cut. -/
def DataSet.nPass (d : DataSet α) (cuts : CutCollection α) (ss : List (EventSys α)) : Nat :=
  (List.range d.getNEntries).countP (d.selected cuts ss)

namespace CountingExperiment

theorem countPassed_eq (x : CountingExperiment α) (d : DataSet α) (hd : d.Ready x.cuts x.systs) :
    ∃ log, x.countPassed d = .ok (d.nPass x.cuts x.systs, log) ∧ log.nEvents = d.getNEntries ∧
      log.names = x.cuts.getCutNames ∧ log.counts.length = x.cuts.length ∧
      ∀ k, log.counts.getD k 0 = (List.range d.getNEntries).countP (d.failsAt x.cuts x.systs k) := by
  have key := Res.forFold_range (n := d.getNEntries) (s := ((0 : Nat), CutLog.ofNames x.cuts.getCutNames))
    (f := fun (s : Nat × CutLog) i => do
      let e ← d.getEntry i
      let ev ← EventSys.applyAll x.systs e
      let r ← x.cuts.passesCutsLog ev s.2
      pure (if r.1 then s.1 + 1 else s.1, r.2))
    (fun i p => p.1 = (List.range i).countP (d.selected x.cuts x.systs) ∧
      p.2.nEvents = i ∧ p.2.names = x.cuts.getCutNames ∧ p.2.counts.length = x.cuts.length ∧
      ∀ k, p.2.counts.getD k 0 = (List.range i).countP (d.failsAt x.cuts x.systs k))
    ⟨rfl, rfl, rfl, by simp [CutLog.ofNames, CutCollection.getCutNames], by
      intro k
      simp [CutLog.ofNames, List.getD, List.getElem?_replicate]
      split <;> rfl⟩ (by
      rintro i ⟨p, l⟩ hi ⟨a1, a2, a3, a4, a5⟩
      simp only at a1 a2 a3 a4 a5
      obtain ⟨e, ev, h1, h2, h3, h4⟩ := hd.event hi
      have h5 := hd.passes h3 h4
      obtain ⟨g1, g2, g3⟩ := C41_logged x.cuts ev l a4
      rcases CutCollection.evaluable_cases (hd.evaluable h3) with hp | hp
      · obtain ⟨l', k1, k2, k3, k4⟩ := g1 hp
        have hsel : d.selected x.cuts x.systs i = true := by rw [hp] at h5; exact (Res.ok.inj h5).symm
        have hno : ∀ k, d.failsAt x.cuts x.systs k i = false := by
          intro k
          simp only [DataSet.failsAt, h4, decide_eq_false_iff_not]
          intro hk
          rw [(CutCollection.passes_false_iff x.cuts ev).2 ⟨k, hk⟩] at hp; cases hp
        refine ⟨(p + 1, l'), by simp [h1, h2, k1], by simp only; rw [a1, countP_range_succ, hsel]; simp,
          by simp only; rw [k2, a2], by simp only; rw [k4, a3],
          by simp only; rw [k3, a4], ?_⟩
        intro k
        simp only
        rw [k3, a5 k, countP_range_succ, hno k]; simp
      · obtain ⟨k0, hk0⟩ := (CutCollection.passes_false_iff x.cuts ev).1 hp
        obtain ⟨l', k1, k2, k3, k4, k5⟩ := g2 k0 hk0
        have hsel : d.selected x.cuts x.systs i = false := by rw [hp] at h5; exact (Res.ok.inj h5).symm
        refine ⟨(p, l'), by simp [h1, h2, k1], by simp only; rw [a1, countP_range_succ, hsel]; simp,
          by simp only; rw [k2, a2], by simp only; rw [k3, a3],
          by simp only; rw [k4, a4], ?_⟩
        intro k
        simp only
        rw [k5 k, a5 k, countP_range_succ]
        have : d.failsAt x.cuts x.systs k i = decide (k = k0) := by
          simp only [DataSet.failsAt, h4]
          by_cases hkk : k = k0
          · subst hkk; simp [hk0]
          · have : ¬ FirstFail x.cuts k ev := fun h => hkk (CutCollection.firstFail_unique h hk0)
            simp [hkk, this]
        rw [this]
        by_cases hkk : k = k0 <;> simp [hkk])
  obtain ⟨⟨p, l⟩, k1, k2, k3, k4, k5, k6⟩ := key
  simp only at k2 k3 k4 k5 k6
  refine ⟨l, ?_, k3, k4, k5, k6⟩
  unfold countPassed
  rw [k1, k2]; rfl

end CountingExperiment
open CountingExperiment

/-- C51 (data): counting a data set sets the observed counts to the number of its entries that pass all cuts after
the systematics, and touches no expected count. The log has one count per entry, at the first cut failed. -/
theorem C51_data (x : CountingExperiment α) (d : DataSet α) (hd : d.Ready x.cuts x.systs) :
    ∃ x', x.countData d = .ok x' ∧ x'.result.observed = (d.nPass x.cuts x.systs : Int) ∧
      x'.result.rates = x.result.rates ∧ x'.result.sigEff = x.result.sigEff ∧
      x'.result.dataLog.nEvents = d.getNEntries ∧
      (∀ k, x'.result.dataLog.counts.getD k 0 = (List.range d.getNEntries).countP (d.failsAt x.cuts x.systs k)) ∧
      x'.cuts = x.cuts ∧ x'.systs = x.systs ∧ x'.backgrounds = x.backgrounds := by
  obtain ⟨log, h1, h2, h3, h4, h5⟩ := x.countPassed_eq d hd
  exact ⟨{ x with result := { x.result with observed := d.nPass x.cuts x.systs, dataLog := log } },
    by simp [countData, h1], rfl, rfl, rfl, h2, h5, rfl, rfl, rfl⟩

/-- C51 (backgrounds): counting the backgrounds appends, for each background in the order registered, the expected
counts `rate · (passing/total)`, with the error `sqrt(passing) · rate/total` and its name. -/
theorem C51_backgrounds (sqrt : α → α) (x : CountingExperiment α)
    (hb : ∀ b ∈ x.backgrounds, b.1.Ready x.cuts x.systs) :
    ∃ x', x.countBackgrounds sqrt = .ok x' ∧
      x'.result.rates = x.result.rates ++ x.backgrounds.map (fun b =>
        b.2.1 * ((b.1.nPass x.cuts x.systs : α) / (b.1.getNEntries : α))) ∧
      x'.result.rateErrors = x.result.rateErrors ++ x.backgrounds.map (fun b =>
        sqrt (b.1.nPass x.cuts x.systs : α) * (b.2.1 / (b.1.getNEntries : α))) ∧
      x'.result.bgNames = x.result.bgNames ++ x.backgrounds.map (fun b => b.2.2) ∧
      x'.result.observed = x.result.observed ∧ x'.result.sigEff = x.result.sigEff ∧
      x'.cuts = x.cuts ∧ x'.systs = x.systs ∧ x'.backgrounds = x.backgrounds := by
  unfold countBackgrounds
  suffices h : ∀ (bs : List (DataSet α × α × String)) (y : CountingExperiment α), y.cuts = x.cuts → y.systs = x.systs →
      (∀ b ∈ bs, b.1.Ready x.cuts x.systs) → ∃ x', Res.forFold (fun (y : CountingExperiment α) b => do
        let r ← y.countPassed b.1
        let counts := (r.1 : α) * b.2.1 / (b.1.getNEntries : α)
        let error := sqrt (r.1 : α) * b.2.1 / (b.1.getNEntries : α)
        pure { y with result := y.result.addBackground counts b.2.2 error r.2 }) y bs = .ok x' ∧
      x'.result.rates = y.result.rates ++ bs.map (fun b =>
        b.2.1 * ((b.1.nPass x.cuts x.systs : α) / (b.1.getNEntries : α))) ∧
      x'.result.rateErrors = y.result.rateErrors ++ bs.map (fun b =>
        sqrt (b.1.nPass x.cuts x.systs : α) * (b.2.1 / (b.1.getNEntries : α))) ∧
      x'.result.bgNames = y.result.bgNames ++ bs.map (fun b => b.2.2) ∧
      x'.result.observed = y.result.observed ∧ x'.result.sigEff = y.result.sigEff ∧
      x'.cuts = y.cuts ∧ x'.systs = y.systs ∧ x'.backgrounds = y.backgrounds by
    exact h _ x rfl rfl hb
  intro bs
  induction bs with
  | nil => intro y _ _ _; exact ⟨y, rfl, by simp, by simp, by simp, rfl, rfl, rfl, rfl, rfl⟩
  | cons b bs ih =>
    intro y hc hs hb
    obtain ⟨log, h1, _⟩ := y.countPassed_eq b.1 (by rw [hc, hs]; exact hb b List.mem_cons_self)
    obtain ⟨x', g1, g2, g3, g4, g5, g6, g7, g8, g9⟩ := ih (CountingExperiment.mk y.cuts y.systs y.backgrounds y.signal (y.result.addBackground ((b.1.nPass y.cuts y.systs : α) * b.2.1 / (b.1.getNEntries : α)) b.2.2 (sqrt (b.1.nPass y.cuts y.systs : α) * b.2.1 / (b.1.getNEntries : α)) log)) hc hs (fun b h => hb b (List.mem_cons_of_mem _ h))
    refine ⟨x', ?_, ?_, ?_, ?_, g5, g6, g7, g8, g9⟩
    · simp only [Res.forFold, h1, Res.ok_bind, Res.pure_eq]; exact g1
    · rw [g2]; simp [CountingResult.addBackground, hc, hs]; ring
    · rw [g3]; simp [CountingResult.addBackground, hc, hs]; ring
    · rw [g4]; simp [CountingResult.addBackground]

/-- C51 (totals): the reported total is the sum of the per-background expected counts, and the square of the reported
error (with a correct square root) is the sum of the squared per-background errors. -/
theorem C51_totals (sqrt : α → α) (hs : ∀ v : α, 0 ≤ v → sqrt v * sqrt v = v) (r : CountingResult α) :
    r.expectedCounts = r.rates.sum ∧
    r.expectedCountError sqrt * r.expectedCountError sqrt = (r.rateErrors.map (fun e => e * e)).sum := by
  constructor
  · unfold CountingResult.expectedCounts; rw [List.sum_eq_foldl]
  · unfold CountingResult.expectedCountError
    have h : ∀ (l : List α) (s : α), l.foldl (fun s x => s + x * x) s = s + (l.map (fun e => e * e)).sum := by
      intro l
      induction l with
      | nil => simp
      | cons a l ih => intro s; simp [ih]; ring
    rw [h, zero_add]
    apply hs
    apply List.sum_nonneg
    intro y hy
    obtain ⟨z, _, rfl⟩ := List.mem_map.1 hy
    exact mul_self_nonneg z

/-- C51 (statistical error of one background): with a correct square root the squared error is
`passing · (rate/total)²`. -/
theorem C51_error (sqrt : α → α) (hs : ∀ v : α, 0 ≤ v → sqrt v * sqrt v = v) (n : Nat) (f : α) :
    (sqrt (n : α) * f) * (sqrt (n : α) * f) = (n : α) * (f * f) := by
  have := hs (n : α) (Nat.cast_nonneg n)
  calc (sqrt (n : α) * f) * (sqrt (n : α) * f) = (sqrt (n : α) * sqrt (n : α)) * (f * f) := by ring
    _ = _ := by rw [this]

/-- C51 (consistency of estimates): each background's expected counts lie between zero and its rate, if the rate is not
negative and the simulated sample is not empty. -/
theorem C51_bounds (cuts : CutCollection α) (ss : List (EventSys α)) (d : DataSet α) (hne : 0 < d.getNEntries) (rate : α)
    (hr : 0 ≤ rate) : 0 ≤ rate * ((d.nPass cuts ss : α) / (d.getNEntries : α)) ∧
      rate * ((d.nPass cuts ss : α) / (d.getNEntries : α)) ≤ rate := by
  have h1 : (0 : α) < d.getNEntries := by exact_mod_cast hne
  have h2 : (d.nPass cuts ss : α) ≤ d.getNEntries := by
    have : d.nPass cuts ss ≤ d.getNEntries := by
      unfold DataSet.nPass
      exact (List.countP_le_length).trans (by simp)
    exact_mod_cast this
  constructor
  · positivity
  · have : (d.nPass cuts ss : α) / (d.getNEntries : α) ≤ 1 := (div_le_one h1).2 h2
    exact mul_le_of_le_one_right hr this

/-- C51 (signal): the efficiency is the passing fraction of the signal sample; without a signal sample the call is
undefined behaviour. -/
theorem C51_signal (x : CountingExperiment α) :
    (x.signal = none → x.countSignal = .ub) ∧
    (∀ d n, x.signal = some (d, n) → d.Ready x.cuts x.systs →
      ∃ x', x.countSignal = .ok x' ∧ x'.result.sigEff = (d.nPass x.cuts x.systs : α) / (d.getNEntries : α) ∧
        x'.result.sigName = n ∧ x'.result.rates = x.result.rates ∧ x'.result.observed = x.result.observed) := by
  constructor
  · intro h; simp [countSignal, h]
  · intro d n h hd
    obtain ⟨log, h1, _⟩ := x.countPassed_eq d hd
    refine ⟨{ x with result := { x.result with sigEff := 1 * (d.nPass x.cuts x.systs : α) / (d.getNEntries : α), sigName := n, sigLog := log } },
      by simp [countSignal, h, h1], by simp, rfl, rfl, rfl⟩

/-- C51 (repeated call): counting the backgrounds is not idempotent; each call adds every background again, so the
second call doubles the expected counts of a fresh experiment. -/
theorem C51_repeated_wrong (sqrt : α → α) (x : CountingExperiment α) (hx : x.result.rates = [])
    (hb : ∀ b ∈ x.backgrounds, b.1.Ready x.cuts x.systs) :
    ∃ x1 x2, x.countBackgrounds sqrt = .ok x1 ∧ x1.countBackgrounds sqrt = .ok x2 ∧
      x2.result.expectedCounts = 2 * x1.result.expectedCounts ∧
      x2.result.rates.length = 2 * x.backgrounds.length := by
  obtain ⟨x1, h1, h2, _, _, _, _, h3, h4, h5⟩ := C51_backgrounds sqrt x hb
  obtain ⟨x2, g1, g2, _⟩ := C51_backgrounds sqrt x1 (by rw [h3, h4, h5]; exact hb)
  refine ⟨x1, x2, h1, g1, ?_, ?_⟩
  · unfold CountingResult.expectedCounts
    rw [← List.sum_eq_foldl, ← List.sum_eq_foldl, g2, h3, h4, h5, h2, hx]
    simp; ring
  · rw [g2, h5, h2, hx]; simp; omega

/-! ### Non-vacuity -/

example : ∃ x x' : CountingExperiment ℚ, (∀ b ∈ x.backgrounds, b.1.Ready x.cuts x.systs) ∧ x.backgrounds.length = 2 ∧
    x.countBackgrounds (fun v => v) = .ok x' ∧ x'.result.rates = [6, 15/2] := by
  have hr : exData.Ready [.line "c" "q" (1/2) "lower"] [⟨.shift, 1, "shift", [], ["x"]⟩] := by
    refine ⟨by decide +kernel, by decide, by decide, by decide, ?_⟩
    intro s hs
    simp only [List.mem_singleton] at hs
    subst hs
    exact ⟨⟨"x", [], rfl, by decide⟩, by intro h; cases h⟩
  have hb : ∀ b ∈ ([(exData, (8 : ℚ), "a"), (exData, 10, "b")] : List (DataSet ℚ × ℚ × String)),
      b.1.Ready [.line "c" "q" (1/2) "lower"] [⟨.shift, 1, "shift", [], ["x"]⟩] := by
    intro b hb
    rcases List.mem_cons.1 hb with h | h
    · subst h; exact hr
    · rw [List.mem_singleton] at h; subst h; exact hr
  obtain ⟨x', h1, h2, _⟩ := C51_backgrounds (fun v => v) (⟨[.line "c" "q" (1/2) "lower"], [⟨.shift, 1, "shift", [], ["x"]⟩],
    [(exData, (8 : ℚ), "a"), (exData, 10, "b")], none, .new⟩ : CountingExperiment ℚ) hb
  refine ⟨_, x', hb, rfl, h1, ?_⟩
  rw [h2]
  have : exData.nPass [.line "c" "q" (1/2) "lower"] [⟨.shift, 1, "shift", [], ["x"]⟩] = 3 := by decide +kernel
  simp only [List.map_cons, List.map_nil, this]
  simp [CountingResult.new, exData, DataSet.getNEntries]; norm_num

/-- A call that configures a counting experiment. -/
inductive ExperimentCall (α : Type) where
  | cut (c : Cut α)
  | syst (s : EventSys α)
  | background (d : DataSet α) (rate : α) (name : String)
  | signal (d : DataSet α) (name : String)

namespace ExperimentCall
variable {α : Type} [Field α] [LinearOrder α]

/-- The call made on the experiment. -/
def run (x : CountingExperiment α) : ExperimentCall α → CountingExperiment α
  | cut c => x.addCut c
  | syst s => x.addSystematic s
  | background d r n => x.addBackground d r n
  | signal d n => x.setSignal d n

/-- What each call contributes, and to what. -/
def asCut : ExperimentCall α → Option (Cut α) | cut c => some c | _ => none
def asSyst : ExperimentCall α → Option (EventSys α) | syst s => some s | _ => none
def asBackground : ExperimentCall α → Option (DataSet α × α × String) | background d r n => some (d, r, n) | _ => none
def asSignal : ExperimentCall α → Option (DataSet α × String) | signal d n => some (d, n) | _ => none

theorem run_all (calls : List (ExperimentCall α)) (x : CountingExperiment α) :
    (calls.foldl run x).cuts = x.cuts ++ calls.filterMap asCut ∧ (calls.foldl run x).systs = x.systs ++ calls.filterMap asSyst ∧
    (calls.foldl run x).backgrounds = x.backgrounds ++ calls.filterMap asBackground ∧
    (calls.foldl run x).signal = ((calls.filterMap asSignal).getLast?).or x.signal ∧ (calls.foldl run x).result = x.result := by
  induction calls generalizing x with
  | nil => simp
  | cons c cs ih =>
    rw [List.foldl_cons]
    obtain ⟨h1, h2, h3, h4, h5⟩ := ih (run x c)
    rw [h1, h2, h3, h4, h5]
    cases c with
    | cut c => simp [run, CountingExperiment.addCut, CutCollection.addCut, asCut, asSyst, asBackground, asSignal, List.filterMap_cons]
    | syst c => simp [run, CountingExperiment.addSystematic, asCut, asSyst, asBackground, asSignal, List.filterMap_cons]
    | background d r n => simp [run, CountingExperiment.addBackground, asCut, asSyst, asBackground, asSignal, List.filterMap_cons]
    | signal d n =>
      simp only [run, CountingExperiment.setSignal, asCut, asSyst, asBackground, asSignal, List.filterMap_cons]
      refine ⟨trivial, trivial, trivial, ?_, trivial⟩
      rw [List.getLast?_cons]
      cases (List.filterMap asSignal cs).getLast? <;> rfl

end ExperimentCall

/-- C51 (a whole experiment): whatever cuts, systematics, backgrounds and signals are given to a new experiment, in whatever order the calls are made, every sample is
then counted with all the systematics and all the cuts in the order given: the data give the number of events passing; the backgrounds give, in the order
given, the rate times the fraction passing under the name given; the signal set last gives the efficiency. -/
theorem C51_experiment (sqrt : α → α) (calls : List (ExperimentCall α)) (d : DataSet α) :
    let cuts := calls.filterMap ExperimentCall.asCut
    let ss := calls.filterMap ExperimentCall.asSyst
    let bgs := calls.filterMap ExperimentCall.asBackground
    let x := calls.foldl ExperimentCall.run CountingExperiment.new
    (d.Ready cuts ss → ∃ x', x.countData d = .ok x' ∧ x'.result.observed = (d.nPass cuts ss : Int) ∧ x'.result.rates = []) ∧
    ((∀ b ∈ bgs, b.1.Ready cuts ss) → ∃ x', x.countBackgrounds sqrt = .ok x' ∧
      x'.result.rates = bgs.map (fun b => b.2.1 * ((b.1.nPass cuts ss : α) / (b.1.getNEntries : α))) ∧ x'.result.bgNames = bgs.map (fun b => b.2.2)) ∧
    (∀ s n, (calls.filterMap ExperimentCall.asSignal).getLast? = some (s, n) → s.Ready cuts ss → ∃ x', x.countSignal = .ok x' ∧
      x'.result.sigEff = (s.nPass cuts ss : α) / (s.getNEntries : α) ∧ x'.result.sigName = n) ∧
    (calls.filterMap ExperimentCall.asSignal = [] → x.countSignal = .ub) := by
  intro cuts ss bgs x
  obtain ⟨h1, h2, h3, h4, h5⟩ := ExperimentCall.run_all calls (CountingExperiment.new : CountingExperiment α)
  have e1 : x.cuts = cuts := by rw [h1]; rfl
  have e2 : x.systs = ss := by rw [h2]; rfl
  have e3 : x.backgrounds = bgs := by rw [h3]; rfl
  have e4 : x.signal = (calls.filterMap ExperimentCall.asSignal).getLast? := by
    rw [h4]; show Option.or _ none = _; simp
  have e5 : x.result = CountingResult.new := by rw [h5]; rfl
  refine ⟨fun hd => ?_, fun hb => ?_, fun s n hs hr => ?_, fun hs => ?_⟩
  · obtain ⟨x', a1, a2, a3, _⟩ := C51_data x d (by rw [e1, e2]; exact hd)
    rw [e1, e2] at a2; rw [e5] at a3
    exact ⟨x', a1, a2, a3⟩
  · obtain ⟨x', a1, a2, _, a3, _⟩ := C51_backgrounds sqrt x (by rw [e1, e2, e3]; exact hb)
    rw [e1, e2, e3, e5] at a2; rw [e3, e5] at a3
    exact ⟨x', a1, a2, a3⟩
  · obtain ⟨x', a1, a2, a3, _⟩ := (C51_signal x).2 s n (by rw [e4, hs]) (by rw [e1, e2]; exact hr)
    rw [e1, e2] at a2
    exact ⟨x', a1, a2, a3⟩
  · exact (C51_signal x).1 (by rw [e4, hs]; rfl)

example : let calls : List (ExperimentCall ℚ) := [.cut (.bool "c" "e" 7), .background ⟨[[7], [4]], ["e"], 1⟩ 10 "b", .signal ⟨[[7], [7]], ["e"], 1⟩ "s", .cut (.box "d" "e" 0 9)]
    (calls.foldl ExperimentCall.run CountingExperiment.new).cuts.getCutNames = ["c", "d"] ∧
    ((calls.foldl ExperimentCall.run CountingExperiment.new).countBackgrounds id >>= fun x => x.countSignal >>= fun x => Res.ok (x.result.rates, x.result.sigEff)) =
      .ok ([5], 1) := by decide +kernel

end Oxsx
