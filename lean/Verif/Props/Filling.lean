import Verif.Props.EventSystematic
import Verif.Props.DataSet
import Verif.Props.Histogram
/-
Property C67: filling a distribution from a data set.
-/
set_option linter.unusedSectionVars false
set_option linter.unusedSimpArgs false
set_option linter.unusedVariables false
namespace Oxsx
variable {α : Type} [Field α] [LinearOrder α] [IsStrictOrderedRing α]

/-- The data set is well formed with distinct names, and the cuts and systematics refer to observables it has. -/
structure DataSet.Ready (d : DataSet α) (cuts : CutCollection α) (ss : List (EventSys α)) : Prop where
  wf : d.WF
  nodup : d.names.Nodup
  len : d.data ≠ [] → d.names.length = d.nObs
  cutObs : ∀ c ∈ cuts, c.observable ∈ d.names
  sys : ∀ s ∈ ss, s.Configured d.names

/-- Entry `i` of the data set after the systematics. -/
def DataSet.transformed (d : DataSet α) (ss : List (EventSys α)) (i : Nat) : Option (Event α) :=
  (d.getEntry i >>= EventSys.applyAll ss).toOption

/-- Entry `i`, after the systematics, passes every cut. -/
def DataSet.selected (d : DataSet α) (cuts : CutCollection α) (ss : List (EventSys α)) (i : Nat) : Bool :=
  match d.transformed ss i with
  | some ev => cuts.all (fun c => decide (c.passesCut ev = .ok true))
  | none => false

/-- Entry `i`, after the systematics, falls in bin `b` of the distribution. -/
def DataSet.inBin (d : DataSet α) (ss : List (EventSys α)) (pdf : BinnedED α) (b i : Nat) : Bool :=
  match d.transformed ss i with
  | some ev => decide ((ev.toObsSet pdf.obs >>= pdf.hist.findBin) = .ok b)
  | none => false

namespace DataSet.Ready
variable {d : DataSet α} {cuts : CutCollection α} {ss : List (EventSys α)}

theorem event (h : d.Ready cuts ss) {i : Nat} (hi : i < d.getNEntries) :
    ∃ e ev, d.getEntry i = .ok e ∧ EventSys.applyAll ss e = .ok ev ∧ ev.Complete d.names ∧
      d.transformed ss i = some ev := by
  have hr : d.data[i]? = some d.data[i] := List.getElem?_eq_getElem hi
  have he : d.getEntry i = .ok ⟨d.data[i], some d.names⟩ := by simp [DataSet.getEntry, hr]
  have hc : (Event.mk d.data[i] (some d.names)).Complete d.names := by
    refine ⟨h.nodup, rfl, ?_⟩
    rw [h.len (List.ne_nil_of_length_pos (by unfold DataSet.getNEntries at hi; omega))]
    exact h.wf.1 _ (List.getElem_mem _)
  obtain ⟨ev, h1, h2, _⟩ := C64_locality ss d.names h.sys _ hc
  exact ⟨_, ev, he, h1, h2, by simp [DataSet.transformed, he, h1, Res.toOption]⟩

theorem evaluable (h : d.Ready cuts ss) {ev : Event α} (hc : ev.Complete d.names) : Evaluable cuts ev := by
  intro c hcm
  obtain ⟨v, hv⟩ := hc.get (h.cutObs c hcm)
  cases c <;> simp only [Cut.observable] at hv <;> simp [Cut.passesCut, hv]

/-- One entry: the cuts accept it exactly when it is selected. -/
theorem passes (h : d.Ready cuts ss) {i : Nat} {ev : Event α} (hc : ev.Complete d.names)
    (ht : d.transformed ss i = some ev) : cuts.passesCuts ev = .ok (d.selected cuts ss i) := by
  have e : d.selected cuts ss i = cuts.all (fun c => decide (c.passesCut ev = .ok true)) := by
    simp [DataSet.selected, ht]
  rcases CutCollection.evaluable_cases (h.evaluable hc) with h1 | h1
  · rw [h1, e]
    have := (CutCollection.passes_true_iff cuts ev).1 h1
    simp only [Res.ok.injEq]; symm
    rw [List.all_eq_true]; intro c hc; simpa using this c hc
  · rw [h1, e]
    simp only [Res.ok.injEq]; symm
    rw [Bool.eq_false_iff, ne_eq, List.all_eq_true]
    intro hall
    have : CutCollection.passesCuts cuts ev = .ok true :=
      (CutCollection.passes_true_iff cuts ev).2 (fun c hc => by simpa using hall c hc)
    rw [this] at h1; cases h1

end DataSet.Ready

/-- The distribution's observables are among the data set's, one per axis. -/
structure BinnedED.Fits (pdf : BinnedED α) (as : List (BinAxis α)) (names : List String) : Prop where
  valid : pdf.hist.Valid as
  contig : ∀ a ∈ as, a.Contiguous
  obs : pdf.obs.names.length = as.length ∧ ∀ n ∈ pdf.obs.names, n ∈ names

theorem Event.Complete.toObsSet {ev : Event α} {names : List String} (hc : ev.Complete names) {o : ObsSet}
    (ho : ∀ n ∈ o.names, n ∈ names) : ∃ vs, ev.toObsSet o = .ok vs ∧ vs.length = o.names.length := by
  unfold Event.toObsSet
  revert ho
  induction o.names with
  | nil => intro _; exact ⟨[], rfl, rfl⟩
  | cons n l ih =>
    intro ho
    obtain ⟨vs, h1, h2⟩ := ih (fun n h => ho n (List.mem_cons_of_mem _ h))
    obtain ⟨v, hv⟩ := hc.get (ho n List.mem_cons_self)
    exact ⟨v :: vs, by simp only [Res.traverse, hv, h1], by simp [h2]⟩

/-- One fill of an event that has the distribution's observables. -/
theorem BinnedED.Fits.fill {pdf : BinnedED α} {as : List (BinAxis α)} {names : List String} (hf : pdf.Fits as names)
    {ev : Event α} (hc : ev.Complete names) (w : α) :
    ∃ pdf' b x, pdf.fillEvent ev w = .ok pdf' ∧ pdf'.Fits as names ∧ pdf'.obs = pdf.obs ∧ pdf'.name = pdf.name ∧
      pdf'.hist.axes = pdf.hist.axes ∧ pdf'.hist.nBins = pdf.hist.nBins ∧
      (ev.toObsSet pdf.obs >>= pdf.hist.findBin) = .ok b ∧ b < pdf.hist.nBins ∧
      pdf.hist.getBinContent b = .ok x ∧ pdf'.hist.getBinContent b = .ok (x + w) ∧
      (∀ b', b' ≠ b → b' < pdf.hist.nBins → pdf'.hist.getBinContent b' = pdf.hist.getBinContent b') ∧
      pdf'.hist.integral = pdf.hist.integral + w := by
  obtain ⟨vs, h1, h2⟩ := hc.toObsSet hf.obs.2
  have hl : vs.length = as.length := by rw [h2, hf.obs.1]
  obtain ⟨h', b, x, g1, g2, g3, g4, g5, g6, g7, g8⟩ := (C07_fill_one as pdf.hist hf.valid hf.contig vs w).2 hl
  obtain ⟨h'', k1, k2, k3, k4, k5⟩ := C07_fill_sequence as pdf.hist hf.valid hf.contig [(vs, w)] (by simpa using hl)
  have : h'' = h' := by
    simp only [fillAll, Res.forFold, g1] at k1; exact (Res.ok.inj k1).symm
  subst this
  refine ⟨{ pdf with hist := h'' }, b, x, ?_, ⟨fill_valid hf.valid g1, hf.contig, hf.obs⟩, rfl, rfl, g6, g7, ?_,
    g3, g4, g5, g8, by simpa using k5⟩
  · simp [BinnedED.fillEvent, h1, g1, Res.mapExc]
  · simp [h1, g2]

theorem countP_range_succ (p : Nat → Bool) (n : Nat) :
    (List.range (n + 1)).countP p = (List.range n).countP p + if p n then 1 else 0 := by
  rw [List.range_succ, List.countP_append]; simp [List.countP_cons]

namespace DistFiller
variable {d : DataSet α} {cuts : CutCollection α} {ss : List (EventSys α)}

/-- The state of the distribution after the first `n` entries. -/
structure FilledTo (d : DataSet α) (cuts : CutCollection α) (ss : List (EventSys α)) (pdf : BinnedED α)
    (as : List (BinAxis α)) (n : Nat) (pdf' : BinnedED α) : Prop where
  fits : pdf'.Fits as d.names
  obs : pdf'.obs = pdf.obs
  name : pdf'.name = pdf.name
  axes : pdf'.hist.axes = pdf.hist.axes
  nBins : pdf'.hist.nBins = pdf.hist.nBins
  content : ∀ b, b < pdf.hist.nBins → ∃ x, pdf.hist.getBinContent b = .ok x ∧ pdf'.hist.getBinContent b =
    .ok (x + (((List.range n).countP (fun i => d.selected cuts ss i && d.inBin ss pdf b i) : Nat) : α))
  integral : pdf'.hist.integral = pdf.hist.integral + (((List.range n).countP (d.selected cuts ss) : Nat) : α)

theorem FilledTo.step {pdf p : BinnedED α} {as : List (BinAxis α)} (h : d.Ready cuts ss) {n : Nat}
    (hp : FilledTo d cuts ss pdf as n p) {ev : Event α} (hc : ev.Complete d.names)
    (ht : d.transformed ss n = some ev) :
    (d.selected cuts ss n = true → ∃ p', p.fillEvent ev 1 = .ok p' ∧ FilledTo d cuts ss pdf as (n + 1) p') ∧
    (d.selected cuts ss n = false → FilledTo d cuts ss pdf as (n + 1) p) := by
  constructor
  · intro hs
    obtain ⟨p', b, x, h1, h2, h3, h4, h5, h6, h7, h8, h9, h10, h11, h12⟩ := hp.fits.fill hc 1
    have hb : (ev.toObsSet pdf.obs >>= pdf.hist.findBin) = .ok b := by
      rw [← h7, hp.obs]
      have : p.hist.findBin = pdf.hist.findBin := by funext v; show p.hist.axes.findBin v = _; rw [hp.axes]; rfl
      rw [this]
    refine ⟨p', h1, ⟨h2, h3.trans hp.obs, h4.trans hp.name, h5.trans hp.axes, h6.trans hp.nBins, ?_, ?_⟩⟩
    · intro b' hb'
      obtain ⟨y, y1, y2⟩ := hp.content b' hb'
      refine ⟨y, y1, ?_⟩
      rw [countP_range_succ]
      have hin : d.inBin ss pdf b' n = decide (b = b') := by
        simp only [DataSet.inBin, ht, hb]
        by_cases hbb : b = b' <;> simp [hbb]
      simp only [hs, hin, Bool.true_and, decide_eq_true_eq]
      by_cases hbb : b = b'
      · subst hbb
        rw [h9] at y2
        rw [h10, Res.ok.inj y2]; simp; ring
      · rw [h11 b' (Ne.symm hbb) (by rw [hp.nBins]; exact hb'), y2]; simp [hbb]
    · rw [h12, hp.integral, countP_range_succ]; simp [hs]; ring
  · intro hs
    refine ⟨hp.fits, hp.obs, hp.name, hp.axes, hp.nBins, ?_, ?_⟩
    · intro b hb
      obtain ⟨y, y1, y2⟩ := hp.content b hb
      exact ⟨y, y1, by rw [countP_range_succ]; simpa [hs] using y2⟩
    · rw [hp.integral, countP_range_succ]; simp [hs]

end DistFiller
open DistFiller

/-- Number of entries the call processes. -/
def requested (d : DataSet α) (nEv : Int) : Nat := if nEv < 0 then d.getNEntries else nEv.toNat

theorem DistFiller.nEvents_eq {d : DataSet α} (hsmall : d.getNEntries < 2 ^ 31) (nEv : Int) :
    (nEvents d nEv).toNat = requested d nEv := by
  unfold nEvents requested
  split
  · have h : toInt32 d.getNEntries = (d.getNEntries : Int) := by
      unfold toInt32
      have : ((d.getNEntries : Int)) % 2 ^ 32 = d.getNEntries := by omega
      rw [this, if_pos (by omega)]
    rw [h]; rfl
  · rfl

/-- The loop of `FillDist` over the first `n` entries. -/
theorem DistFiller.loop (d : DataSet α) (cuts : CutCollection α) (ss : List (EventSys α)) (hd : d.Ready cuts ss)
    (pdf : BinnedED α) (as : List (BinAxis α)) (hf : pdf.Fits as d.names) (n : Nat) (hn : n ≤ d.getNEntries) :
    ∃ pdf', Res.forFold (fun (p : BinnedED α) i => do
      let e ← d.getEntry i
      let ev ← EventSys.applyAll ss e
      let b ← cuts.passesCuts ev
      if b then p.fillEvent ev 1 else pure p) pdf (List.range n) = .ok pdf' ∧ FilledTo d cuts ss pdf as n pdf' := by
  apply Res.forFold_range (fun i p => FilledTo d cuts ss pdf as i p)
  · exact ⟨hf, rfl, rfl, rfl, rfl, fun b hb => by
      have hx := hf.valid.get hb; exact ⟨_, hx, by rw [hx]; simp⟩, by simp⟩
  · intro i s hi hs
    obtain ⟨e, ev, h1, h2, h3, h4⟩ := hd.event (Nat.lt_of_lt_of_le hi hn)
    have h5 := hd.passes h3 h4
    obtain ⟨k1, k2⟩ := hs.step hd h3 h4
    cases hsel : d.selected cuts ss i with
    | true =>
      obtain ⟨p', q1, q2⟩ := k1 hsel
      exact ⟨p', by simp [h1, h2, h5, hsel, q1], q2⟩
    | false => exact ⟨s, by simp [h1, h2, h5, hsel], k2 hsel⟩

/-- C67: with cuts and systematics on observables the (non-gigantic) data set has, and a distribution whose
observables it has, filling with a limit not beyond the number of entries succeeds and increases every bin by exactly
the number of processed entries that pass all the cuts after the systematics and fall in that bin, the integral by
the number that pass; nothing else about the distribution changes. With a negative limit all entries are
processed. -/
theorem C67_fill (d : DataSet α) (cuts : CutCollection α) (ss : List (EventSys α)) (hd : d.Ready cuts ss)
    (hsmall : d.getNEntries < 2 ^ 31) (pdf : BinnedED α) (as : List (BinAxis α)) (hf : pdf.Fits as d.names) (nEv : Int)
    (hn : requested d nEv ≤ d.getNEntries) :
    ∃ pdf', fillDist pdf d cuts ss nEv = .ok pdf' ∧ pdf'.name = pdf.name ∧ pdf'.obs = pdf.obs ∧
      pdf'.hist.axes = pdf.hist.axes ∧ pdf'.hist.nBins = pdf.hist.nBins ∧
      (∀ b, b < pdf.hist.nBins → ∃ x, pdf.hist.getBinContent b = .ok x ∧ pdf'.hist.getBinContent b =
        .ok (x + (((List.range (requested d nEv)).countP (fun i => d.selected cuts ss i && d.inBin ss pdf b i) : Nat) : α))) ∧
      pdf'.hist.integral = pdf.hist.integral + (((List.range (requested d nEv)).countP (d.selected cuts ss) : Nat) : α) := by
  obtain ⟨pdf', h1, h2⟩ := DistFiller.loop d cuts ss hd pdf as hf _ hn
  rw [← nEvents_eq hsmall nEv] at h1
  exact ⟨pdf', h1, h2.name, h2.obs, h2.axes, h2.nBins, h2.content, h2.integral⟩


/-- C67 (limit beyond the data): asking for more events than the data set has throws `NotFoundError`. -/
theorem C67_beyond (d : DataSet α) (cuts : CutCollection α) (ss : List (EventSys α)) (hd : d.Ready cuts ss)
    (pdf : BinnedED α) (as : List (BinAxis α)) (hf : pdf.Fits as d.names) (nEv : Int)
    (hn : (d.getNEntries : Int) < nEv) : fillDist pdf d cuts ss nEv = .throw .notFound := by
  obtain ⟨pdf', h1, h2⟩ := DistFiller.loop d cuts ss hd pdf as hf _ (Nat.le_refl _)
  obtain ⟨k, hk⟩ : ∃ k, nEv.toNat = d.getNEntries + (k + 1) := ⟨nEv.toNat - d.getNEntries - 1, by omega⟩
  unfold fillDist nEvents
  rw [if_neg (by omega), hk, List.range_add, Res.forFold_append, h1]
  show Res.forFold _ pdf' _ = _
  rw [List.range_succ_eq_map]
  have : d.getEntry (d.getNEntries + 0) = .throw .notFound := by
    simp [DataSet.getEntry, DataSet.getNEntries]
  rw [List.map_cons]
  unfold Res.forFold
  simp only [this, Res.throw_bind]

/-- Entry `i`, after the systematics, fails cut number `k` first. -/
def DataSet.failsAt (d : DataSet α) (cuts : CutCollection α) (ss : List (EventSys α)) (k i : Nat) : Bool :=
  match d.transformed ss i with
  | some ev => decide (FirstFail cuts k ev)
  | none => false

/-- C67 (with a cut log): the logged overload returns the same distribution, and the log (one counter per cut)
counts every processed entry once, and each rejected one at the first cut it fails. -/
theorem C67_fill_log (d : DataSet α) (cuts : CutCollection α) (ss : List (EventSys α)) (hd : d.Ready cuts ss)
    (hsmall : d.getNEntries < 2 ^ 31) (pdf : BinnedED α) (as : List (BinAxis α)) (hf : pdf.Fits as d.names) (nEv : Int)
    (hn : requested d nEv ≤ d.getNEntries) (log : CutLog) (hl : log.counts.length = cuts.length) :
    ∃ pdf' log', fillDist pdf d cuts ss nEv = .ok pdf' ∧ fillDistLog pdf d cuts log ss nEv = .ok (pdf', log') ∧
      log'.nEvents = log.nEvents + requested d nEv ∧ log'.names = log.names ∧ log'.counts.length = cuts.length ∧
      ∀ k, log'.counts.getD k 0 = log.counts.getD k 0 + (List.range (requested d nEv)).countP (d.failsAt cuts ss k) := by
  have key := Res.forFold_range (n := requested d nEv) (s := (pdf, log)) (f := fun (p : BinnedED α × CutLog) i => do
      let e ← d.getEntry i
      let ev ← EventSys.applyAll ss e
      let r ← cuts.passesCutsLog ev p.2
      if r.1 then do
        let q ← p.1.fillEvent ev 1
        pure (q, r.2)
      else pure (p.1, r.2))
    (fun i p => Res.forFold (fun (p : BinnedED α) i => do
        let e ← d.getEntry i
        let ev ← EventSys.applyAll ss e
        let b ← cuts.passesCuts ev
        if b then p.fillEvent ev 1 else pure p) pdf (List.range i) = .ok p.1 ∧
      p.2.nEvents = log.nEvents + i ∧ p.2.names = log.names ∧ p.2.counts.length = cuts.length ∧
      ∀ k, p.2.counts.getD k 0 = log.counts.getD k 0 + (List.range i).countP (d.failsAt cuts ss k))
    ⟨rfl, by simp, rfl, hl, by simp⟩ (by
      rintro i ⟨p, l⟩ hi ⟨a1, a2, a3, a4, a5⟩
      simp only at a1 a2 a3 a4 a5
      obtain ⟨e, ev, h1, h2, h3, h4⟩ := hd.event (Nat.lt_of_lt_of_le hi hn)
      obtain ⟨p1, b1, b2⟩ := DistFiller.loop d cuts ss hd pdf as hf i (by omega)
      obtain ⟨p2, c1, c2⟩ := DistFiller.loop d cuts ss hd pdf as hf (i + 1) (by omega)
      rw [a1] at b1; cases b1
      have c1' := c1
      rw [List.range_succ, Res.forFold_append, a1] at c1
      simp only [Res.bind, Res.forFold, h1, h2, Res.ok_bind] at c1
      obtain ⟨g1, g2, g3⟩ := C41_logged cuts ev l a4
      rcases CutCollection.evaluable_cases (hd.evaluable h3) with hp | hp
      · obtain ⟨l', k1, k2, k3, k4⟩ := g1 hp
        have hno : ∀ k, d.failsAt cuts ss k i = false := by
          intro k
          simp only [DataSet.failsAt, h4, decide_eq_false_iff_not]
          intro hk
          rw [(CutCollection.passes_false_iff cuts ev).2 ⟨k, hk⟩] at hp; cases hp
        rw [hp] at c1
        simp only [Res.ok_bind, if_true] at c1
        have hfill : p.fillEvent ev 1 = .ok p2 := by
          cases hfe : p.fillEvent ev 1 <;> simp [hfe] at c1
          rw [c1]
        refine ⟨(p2, l'), by simp [h1, h2, k1, hfill], c1', by simp only; rw [k2, a2]; omega, by simp only; rw [k4, a3],
          by simp only; rw [k3, a4], ?_⟩
        intro k
        simp only
        rw [k3, a5 k, countP_range_succ, hno k]; simp
      · obtain ⟨k0, hk0⟩ := (CutCollection.passes_false_iff cuts ev).1 hp
        obtain ⟨l', k1, k2, k3, k4, k5⟩ := g2 k0 hk0
        rw [hp] at c1
        simp only [Res.ok_bind, Bool.false_eq_true, if_false, Res.pure_eq] at c1
        cases c1
        refine ⟨(p, l'), by simp [h1, h2, k1], c1', by simp only; rw [k2, a2]; omega, by simp only; rw [k3, a3],
          by simp only; rw [k4, a4], ?_⟩
        intro k
        simp only
        rw [k5 k, a5 k, countP_range_succ]
        have : d.failsAt cuts ss k i = decide (k = k0) := by
          simp only [DataSet.failsAt, h4]
          by_cases hkk : k = k0
          · subst hkk; simp [hk0]
          · have : ¬ FirstFail cuts k ev := fun h => hkk (CutCollection.firstFail_unique h hk0)
            simp [hkk, this]
        rw [this]
        by_cases hkk : k = k0 <;> simp [hkk]; omega)
  obtain ⟨⟨p, l⟩, k1, k2, k3, k4, k5, k6⟩ := key
  refine ⟨p, l, ?_, ?_, k3, k4, k5, k6⟩
  · unfold fillDist; rw [nEvents_eq hsmall]; exact k2
  · unfold fillDistLog; rw [nEvents_eq hsmall]; exact k1

/-- C67 is false of gigantic data sets: the number of entries is converted to a 32-bit `int`, so with the default limit
a set with between 2^31 and 2^32 entries fills nothing. -/
theorem C67_large_set_wrong (d : DataSet α) (cuts : CutCollection α) (ss : List (EventSys α)) (pdf : BinnedED α)
    (h1 : 2 ^ 31 ≤ d.getNEntries) (h2 : d.getNEntries < 2 ^ 32) : fillDist pdf d cuts ss (-1) = .ok pdf := by
  have : (nEvents d (-1)).toNat = 0 := by
    unfold nEvents toInt32
    rw [if_pos (by omega)]
    have : ((d.getNEntries : Int)) % 2 ^ 32 = d.getNEntries := by omega
    rw [this, if_neg (by omega)]; omega
  unfold fillDist
  rw [this]; rfl

/-! ### Non-vacuity -/

/-- Four events with four observables, a cut on `q`, a shift of `x`. -/
def exData : DataSet ℚ := ⟨[[1/2, 1/2, 1/2, 1], [3/2, 1/2, 1/2, 1], [1/2, 5/2, 1/2, 0], [-3, 1/2, 3/2, 2]], ["x", "y", "z", "q"], 4⟩

example : ∃ pdf pdf' : BinnedED ℚ, exData.Ready [.line "c" "q" (1/2) "lower"] [⟨.shift, 1, "shift", [], ["x"]⟩] ∧
    exData.getNEntries < 2 ^ 31 ∧ pdf.Fits exAxes exData.names ∧
    fillDist pdf exData [.line "c" "q" (1/2) "lower"] [⟨.shift, 1, "shift", [], ["x"]⟩] (-1) = .ok pdf' ∧
    pdf'.hist.integral = 3 := by
  obtain ⟨c, hc⟩ := (C04_build exAxes).1 (by decide +kernel)
  have hv : (Histogram.ofAxes c).Valid exAxes := C06_reachable_valid _ (by decide) _ (Histogram.Reachable.new c hc)
  have hr : exData.Ready [.line "c" "q" (1/2) "lower"] [⟨.shift, 1, "shift", [], ["x"]⟩] := by
    refine ⟨by decide +kernel, by decide, by decide, by decide, ?_⟩
    intro s hs
    simp only [List.mem_singleton] at hs
    subst hs
    exact ⟨⟨"x", [], rfl, by decide⟩, by intro h; cases h⟩
  have hf : ((BinnedED.ofAxes "p" c).setObservables ["x", "y", "z"]).Fits exAxes exData.names :=
    ⟨hv, exAxes_contiguous, rfl, show ∀ n ∈ ["x", "y", "z"], n ∈ exData.names by decide⟩
  obtain ⟨pdf', h1, h2, h3, h4, h5, h6, h7⟩ := C67_fill exData _ _ hr (by decide) _ exAxes hf (-1) (by decide)
  refine ⟨_, pdf', hr, by decide, hf, h1, ?_⟩
  rw [h7]
  have : (List.range (requested exData (-1))).countP
      (exData.selected [.line "c" "q" (1/2) "lower"] [⟨.shift, 1, "shift", [], ["x"]⟩]) = 3 := by decide +kernel
  rw [this]
  show (Histogram.ofAxes c).integral + _ = _
  rw [hv.integral, Histogram.ofAxes_contents]
  simp

/-- C67 and C42, the start of every filling: a new distribution over some axes, told which observables they stand for, has the name given, no content in any bin and
the observables in the order given; it can be filled from any data set that has them. -/
theorem C67_new (name : String) (as : List (BinAxis α)) (c : AxisCollection α) (hb : (AxisCollection.empty : AxisCollection α).addAxes as = .ok c)
    (hne : as ≠ []) (hc : ∀ a ∈ as, a.Contiguous) (ns names : List String) (hl : ns.length = as.length) (hin : ∀ n ∈ ns, n ∈ names) :
    let pdf := (BinnedED.ofAxes name c).setObservables ns
    pdf.Fits as names ∧ pdf.name = name ∧ pdf.obs.names = ns ∧ (∀ b, b < pdf.hist.nBins → pdf.hist.getBinContent b = .ok 0) ∧ pdf.hist.integral = 0 := by
  intro pdf
  have hv : pdf.hist.Valid as := Histogram.valid_ofAxes (AxisCollection.holds_of_addAxes hb) hne
  have hz : pdf.hist.contents = List.replicate pdf.hist.nBins 0 := by
    show resize [] _ 0 = _
    simp [resize]; rfl
  refine ⟨⟨hv, hc, by exact ⟨hl, hin⟩⟩, rfl, rfl, ?_, ?_⟩
  · intro b hb'
    rw [hv.get hb', hz]
    simp [List.getD_eq_getElem?_getD, List.getElem?_replicate, hb']
  · rw [hv.integral, hz]; simp

end Oxsx
