import Verif.Props.FitData
import Verif.Props.LikelihoodSys
/-
C104: a fit to a data set, with systematics, constraints and any other configuration.
-/
set_option linter.unusedVariables false
set_option linter.unusedSectionVars false
set_option linter.unusedSimpArgs false
namespace Oxsx
variable {σ : Type}
open NLLH

theorem NLLH.first_of_recorded {name : Nat → String} {C : FitSys σ ℝ} {M : CMath ℝ} {calls : List ManagerCall}
    {log : List (BinnedED ℝ × NormStatus)} {L : NLLH σ ℝ} (hR : Recorded name C M calls log L) {first : BinnedED ℝ}
    (hfirst : (log.map (·.1))[0]? = some first) : at_ L.pdfs.orig 0 = .ok first := by
  rw [(PdfManager.inv_of_built hR.facts.1).orig]
  unfold at_
  rw [hfirst]

/-- C104: after any history of calls - distributions with or without systematics, buffers, Barlow-Beeston, constraints, earlier evaluations -
evaluating with a data set not yet binned is exactly evaluating with a histogram as data: that of the events passing the cuts of the likelihood
in the binning of the first distribution, as `DistFiller::FillDist` makes it, with in each bin their number. The histogram has the observables
and the bins of the first distribution as it was added, whatever the systematics do. -/
theorem C104_equivalent {name : Nat → String} {C : FitSys σ ℝ} {M : CMath ℝ} {calls : List ManagerCall} {log : List (BinnedED ℝ × NormStatus)}
    {L : NLLH σ ℝ} (hR : Recorded name C M calls log L) {d : DataSet ℝ} {first : BinnedED ℝ} {as : List (BinAxis ℝ)}
    (hdat : L.data = some d) (hcal : L.calculated = false) (hfirst : (log.map (·.1))[0]? = some first) (hfit : first.Fits as d.names)
    (hready : d.Ready L.cuts []) (hsmall : d.getNEntries < 2 ^ 31) :
    ∃ dist, DistFiller.fillDist { first with hist := first.hist.emptyContents } d L.cuts [] (-1) = .ok dist ∧
      dist.obs = first.obs ∧ dist.hist.nBins = first.hist.nBins ∧ dist.hist.contents.length = first.hist.nBins ∧
      (∀ b, b < first.hist.nBins → dist.hist.contents.getD b 0 = ((d.passing L.cuts).countP (fun e => decide (first.binOf e = b)) : Nat)) ∧
      L.evaluate C M = (L.setDataDist dist).evaluate C M := by
  obtain ⟨dist, lg, kb, o0, o1, o2, o3, o4, _⟩ := NLLH.binned_any (NLLH.first_of_recorded hR hfirst) hdat hfit hready hsmall
  have hb : L.binData = .ok { L with dataDist := dist, calculated := true } := by rw [← NLLH.binDataLog_fst, kb]; rfl
  exact ⟨dist, o0, o1, o2, o3, o4, NLLH.evaluate_binned hcal hdat hb⟩

/-- The sum over bins of the Poisson terms of counted events is their extended likelihood. -/
theorem extended_of_counts {B : Nat} {mu : Nat → ℝ} {es : List (Event ℝ)} {bin : Event ℝ → Nat} (hbin : ∀ e ∈ es, bin e < B) {n : Nat → ℝ}
    (hn : ∀ b, b < B → n b = (es.countP (fun e => decide (bin e = b)) : Nat)) :
    ((List.range B).map (fun b => poissonTerm (n b) (mu b))).sum = extendedNLL B mu (fun e => mu (bin e)) es := by
  unfold extendedNLL
  rw [← sum_by_bins es bin B (fun b => Real.log (mu b)) hbin, eq_sub_iff_add_eq, ← List.sum_map_add]
  congr 1
  apply List.map_congr_left
  intro b hb
  rw [← hn b (List.mem_range.1 hb)]
  unfold poissonTerm
  ring

/-- C104 (partial): with systematics. After any history of calls that added at least one systematic, no buffers, no Barlow-Beeston, and a data set
not yet binned: if the likelihood evaluates, its value is the number of events expected in all bins minus the sum, over the events passing the
cuts, of the logarithm of the number expected in the bin of the event, plus the constraint term, where the number expected sums over the
distributions the normalisation times the contents distorted by the systematics acting on it at the current parameters. (Not finite if some
expected number is negative.) Missing: as for C87, equal names, an indirectly fitted distribution before a directly fitted one, Barlow-Beeston
and buffers. -/
theorem C104_systematics_partial {name : Nat → String} {C : FitSys σ ℝ} (hC : C.Refreshing) {calls : List ManagerCall}
    {log : List (BinnedED ℝ × NormStatus)} {L L' : NLLH σ ℝ} {v : Fl ℝ} (hR : Recorded name C CMath.real calls log L)
    (hadd : SysLog.added calls ≠ []) (hbb : L.useBB = false) (hbuf : L.shrinker.buffers = [])
    {d : DataSet ℝ} {first : BinnedED ℝ} {as : List (BinAxis ℝ)} (hdat : L.data = some d) (hcal : L.calculated = false)
    (h : CanFitData log first as L.cuts d)
    (value : String → ℝ) (hval : ∀ n ∈ PdfLog.fitted log, L.pdfs.getParameter n = .ok (value n))
    (hev : L.evaluate C CMath.real = .ok (v, L')) :
    ∃ (R : Nat → Matrix' ℝ) (cs : List (List ℝ)) (ps : ParamDict ℝ) (c : Fl ℝ),
      (∀ p ∈ SysLog.added calls, L.CurrentResponse C p (R p)) ∧ cs.length = log.length ∧
      (∀ (j : Nat) p, log[j]? = some p → ∃ gs c, SysLog.assigned calls p.1.name = some gs ∧ cs[j]? = some c ∧
        Distorts calls R gs p.1.hist.contents c) ∧
      L.getParameters C = .ok ps ∧ L.constraints.evaluate ps = .ok c ∧
      v = Fl.add (if ∀ b, b < first.hist.nBins → 0 < distortedRate value log cs b then
          some (extendedNLL first.hist.nBins (distortedRate value log cs) (fun e => distortedRate value log cs (first.binOf e))
            (d.passing L.cuts)) else none) c := by
  obtain ⟨dist, o0, o1, o2, o3, o4, he⟩ := C104_equivalent hR hdat hcal h.head h.fits h.ready h.small
  rw [he] at hev
  obtain ⟨R, cs, ps, c, k1, k2, k3, k4, k5, k6⟩ := C87_value_partial hC (hR.setDataDist dist) hadd hbb hbuf rfl h.distinct h.order
    (show dist.hist.contents.length = dist.hist.nBins by rw [o3, o2])
    (fun p hp => by
      obtain ⟨d1, d2, d3⟩ := h.same p hp
      exact ⟨by rw [d1]; exact (congrArg _ o1).symm, by rw [d2]; exact le_of_eq o2, by rw [d3, d2]⟩) value hval hev
  refine ⟨R, cs, ps, c, k1, k2, k3, k4, k5, k6.trans ?_⟩
  have e : (L.setDataDist dist).dataDist.hist.nBins = first.hist.nBins := o2
  rw [e, extended_of_counts (fun e he => (h.fits.binOf (DataSet.mem_passing h.ready he)).1) (n := fun b => (L.setDataDist dist).dataDist.hist.contents.getD b 0)
    (fun b hb => o4 b hb)]

/-- C104 (partial), the outcome with systematics: under the hypotheses of `C104_systematics_partial`, if moreover the systematics can be constructed,
have responses of the number of bins, and the constraints can be evaluated at the current parameters, the likelihood evaluates to that value
when no bin has rate zero and throws when some bin has. -/
theorem C104_systematics_outcome_partial {name : Nat → String} {C : FitSys σ ℝ} (hC : C.Refreshing) {calls : List ManagerCall}
    {log : List (BinnedED ℝ × NormStatus)} {L : NLLH σ ℝ} (hR : Recorded name C CMath.real calls log L)
    (hadd : SysLog.added calls ≠ []) (hbb : L.useBB = false) (hbuf : L.shrinker.buffers = [])
    {d : DataSet ℝ} {first : BinnedED ℝ} {as : List (BinAxis ℝ)} (hdat : L.data = some d) (hcal : L.calculated = false)
    (h : CanFitData log first as L.cuts d)
    (hobjs : ∀ p ∈ SysLog.added calls, ∃ s, C.construct (L.objs p) = .ok s ∧ SysManager.Square first.hist.nBins (C.response s))
    (value : String → ℝ) (hval : ∀ n ∈ PdfLog.fitted log, L.pdfs.getParameter n = .ok (value n))
    {ps : ParamDict ℝ} {c : Fl ℝ} (hps : L.getParameters C = .ok ps) (hc : L.constraints.evaluate ps = .ok c) :
    ∃ (R : Nat → Matrix' ℝ) (cs : List (List ℝ)),
      (∀ p ∈ SysLog.added calls, L.CurrentResponse C p (R p)) ∧ cs.length = log.length ∧
      (∀ (j : Nat) p, log[j]? = some p → ∃ gs c, SysLog.assigned calls p.1.name = some gs ∧ cs[j]? = some c ∧
        Distorts calls R gs p.1.hist.contents c) ∧
      ((∃ b, b < first.hist.nBins ∧ distortedRate value log cs b = 0) → L.evaluate C CMath.real = .throw .runtime) ∧
      ((∀ b, b < first.hist.nBins → distortedRate value log cs b ≠ 0) → ∃ L',
        L.evaluate C CMath.real = .ok (Fl.add (if ∀ b, b < first.hist.nBins → 0 < distortedRate value log cs b then
          some (extendedNLL first.hist.nBins (distortedRate value log cs) (fun e => distortedRate value log cs (first.binOf e))
            (d.passing L.cuts)) else none) c, L')) := by
  obtain ⟨dist, o0, o1, o2, o3, o4, he⟩ := C104_equivalent hR hdat hcal h.head h.fits h.ready h.small
  obtain ⟨R, cs, k1, k2, k3, k4, k5⟩ := C87_outcome_partial hC (hR.setDataDist dist) hadd hbb hbuf rfl h.distinct h.order
    (show dist.hist.contents.length = dist.hist.nBins by rw [o3, o2]) first.hist.nBins (show dist.hist.nBins ≤ _ from le_of_eq o2)
    (fun p hp => by
      obtain ⟨d1, d2, d3⟩ := h.same p hp
      exact ⟨by rw [d1]; exact (congrArg _ o1).symm, d2, d3⟩) hobjs value hval (ps := ps) (c := c) hps hc
  have e : (L.setDataDist dist).dataDist.hist.nBins = first.hist.nBins := o2
  rw [e, ← he] at k4 k5
  rw [extended_of_counts (fun e he => (h.fits.binOf (DataSet.mem_passing h.ready he)).1) (n := fun b => (L.setDataDist dist).dataDist.hist.contents.getD b 0)
    (fun b hb => o4 b hb)] at k5
  exact ⟨R, cs, k1, k2, k3, k4, k5⟩

section
variable {α : Type} [Field α] [LinearOrder α] [IsStrictOrderedRing α]

theorem DistFiller.missing (d : DataSet α) (cuts : CutCollection α) (ss : List (EventSys α)) (hd : d.Ready cuts ss)
    (pdf : BinnedED α) (hmiss : ∃ n ∈ pdf.obs.names, n ∉ d.names) (log : CutLog) (hl : log.counts.length = cuts.length) (n : Nat) (hn : n ≤ d.getNEntries) :
    ((∃ l, Res.forFold (fun (p : BinnedED α × CutLog) i => do
        let e ← d.getEntry i
        let ev ← EventSys.applyAll ss e
        let r ← cuts.passesCutsLog ev p.2
        if r.1 then do
          let q ← p.1.fillEvent ev 1
          pure (q, r.2)
        else pure (p.1, r.2)) (pdf, log) (List.range n) = .ok (pdf, l) ∧ l.counts.length = cuts.length) ∧
        (∀ i, i < n → d.selected cuts ss i = false)) ∨
    (Res.forFold (fun (p : BinnedED α × CutLog) i => do
        let e ← d.getEntry i
        let ev ← EventSys.applyAll ss e
        let r ← cuts.passesCutsLog ev p.2
        if r.1 then do
          let q ← p.1.fillEvent ev 1
          pure (q, r.2)
        else pure (p.1, r.2)) (pdf, log) (List.range n) = .throw .notFound ∧ ∃ i, i < n ∧ d.selected cuts ss i = true) := by
  induction n with
  | zero => exact .inl ⟨⟨log, rfl, hl⟩, fun i hi => by omega⟩
  | succ n ih =>
    rcases ih (by omega) with ⟨⟨l, h1, h2⟩, h3⟩ | ⟨h1, i, hi, h2⟩
    · obtain ⟨e, ev, g1, g2, g3, g4⟩ := hd.event (show n < d.getNEntries by omega)
      have hp := hd.passes g3 g4
      obtain ⟨k1, k2, _⟩ := C41_logged cuts ev l h2
      rw [List.range_succ, Res.forFold_append, h1]
      simp only [Res.bind, Res.forFold, g1, g2, Res.ok_bind]
      cases hs : d.selected cuts ss n with
      | false =>
        rw [hs] at hp
        obtain ⟨k, hk⟩ := (CutCollection.passes_false_iff cuts ev).1 hp
        obtain ⟨l', m1, m2, m3, m4, m5⟩ := k2 k hk
        refine .inl ⟨⟨l', ?_, by rw [m4, h2]⟩, ?_⟩
        · rw [m1]; rfl
        · intro i hi
          rcases Nat.lt_succ_iff_lt_or_eq.1 hi with h | h
          · exact h3 i h
          · rw [h]; exact hs
      | true =>
        rw [hs] at hp
        obtain ⟨l', m1, m2, m3, m4⟩ := k1 hp
        refine .inr ⟨?_, n, by omega, hs⟩
        rw [m1]
        have hx : ev.toObsSet pdf.obs = .throw .notFound := by
          obtain ⟨q1, q2, q3⟩ := g3
          have := (C42_extract d.names ev.obs q1 q3 pdf.obs.names).2 hmiss
          have e' : ev = ⟨ev.obs, some d.names⟩ := by cases ev; simp only at q2; rw [q2]
          rw [e']
          exact this
        have hfill : pdf.fillEvent ev 1 = .throw .notFound := by
          unfold BinnedED.fillEvent
          rw [hx]
          rfl
        simp only [Res.ok_bind, if_true, hfill]
        rfl
    · refine .inr ⟨?_, i, by omega, h2⟩
      rw [List.range_succ, Res.forFold_append, h1]
      rfl

/-- C67: filling a distribution one of whose observables the data set does not have: if some entry passes the cuts the call fails with
`NotFoundError`; if none does, nothing is filled and nothing fails. -/
theorem C67_missing_observable (d : DataSet α) (cuts : CutCollection α) (ss : List (EventSys α)) (hd : d.Ready cuts ss)
    (hsmall : d.getNEntries < 2 ^ 31) (pdf : BinnedED α) (hmiss : ∃ n ∈ pdf.obs.names, n ∉ d.names) (nEv : Int)
    (hn : requested d nEv ≤ d.getNEntries) (log : CutLog) (hl : log.counts.length = cuts.length) :
    ((∃ i, i < requested d nEv ∧ d.selected cuts ss i = true) → DistFiller.fillDistLog pdf d cuts log ss nEv = .throw .notFound) ∧
    ((∀ i, i < requested d nEv → d.selected cuts ss i = false) → ∃ log', DistFiller.fillDistLog pdf d cuts log ss nEv = .ok (pdf, log')) := by
  unfold DistFiller.fillDistLog
  rw [DistFiller.nEvents_eq hsmall]
  rcases DistFiller.missing d cuts ss hd pdf hmiss log hl _ hn with ⟨⟨l, h1, h2⟩, h3⟩ | ⟨h1, i, hi, h2⟩
  · refine ⟨?_, fun _ => ⟨l, h1⟩⟩
    rintro ⟨i, hi, hs⟩
    rw [h3 i hi] at hs
    cases hs
  · refine ⟨fun _ => h1, fun h => ?_⟩
    rw [h i hi] at h2
    cases h2

/-- C104: with a data set that lacks an observable of the first distribution, the evaluation fails with `NotFoundError` as soon as one event passes
the cuts, whatever else the likelihood holds; and every evaluation without a distribution fails. -/
theorem C104_missing_observable {name : Nat → String} {C : FitSys σ α} {M : CMath α} {calls : List ManagerCall} {log : List (BinnedED α × NormStatus)}
    {L : NLLH σ α} (hR : Recorded name C M calls log L) {d : DataSet α} (hdat : L.data = some d) (hcal : L.calculated = false) :
    (log = [] → L.evaluate C M = .throw .outOfRange) ∧
    ∀ first, (log.map (·.1))[0]? = some first → d.Ready L.cuts [] → d.getNEntries < 2 ^ 31 → (∃ n ∈ first.obs.names, n ∉ d.names) →
      d.passing L.cuts ≠ [] → L.evaluate C M = .throw .notFound := by
  have horig := (PdfManager.inv_of_built hR.facts.1).orig
  constructor
  · intro h0
    subst h0
    unfold NLLH.evaluate NLLH.prepare
    rw [Res.throwIf_false_of (by rw [hdat]; simp)]
    simp only [Res.ok_bind]
    rw [if_neg (by rw [hcal]; simp)]
    unfold NLLH.binData
    rw [horig]
    rfl
  · intro first hfirst hready hsmall hmiss hpass
    have hl : (CutLog.ofNames (CutCollection.getCutNames L.cuts)).counts.length = L.cuts.length := by simp [CutLog.ofNames, CutCollection.getCutNames]
    have hreq : requested d (-1) = d.getNEntries := rfl
    have hsel : ∃ i, i < requested d (-1) ∧ d.selected L.cuts [] i = true := by
      by_contra hno
      apply hpass
      unfold DataSet.passing
      rw [List.filter_eq_nil_iff]
      intro e he hall
      obtain ⟨r, hr, rfl⟩ := List.mem_map.1 he
      obtain ⟨i, hi, rfl⟩ := List.mem_iff_getElem.1 hr
      apply hno
      refine ⟨i, hi, ?_⟩
      simp only [DataSet.selected, DataSet.transformed_nil (d := d) hi]
      simpa using hall
    have hf := (C67_missing_observable d L.cuts [] hready hsmall { first with hist := first.hist.emptyContents } hmiss (-1) (by rw [hreq]) _ hl).1 hsel
    unfold NLLH.evaluate NLLH.prepare
    rw [Res.throwIf_false_of (by rw [hdat]; simp)]
    simp only [Res.ok_bind]
    rw [if_neg (by rw [hcal]; simp)]
    unfold NLLH.binData
    have h0 : at_ L.pdfs.orig 0 = .ok first := by
      rw [horig]; unfold at_; rw [hfirst]
    rw [h0]
    simp only [Res.ok_bind]
    rw [hdat]
    simp only
    rw [hf]
    rfl

end

/-! ### The same fit with a gain on the signal -/

/-- A signal in group "gr" with the gain acting on that group, and a background; a cut and a data set; gain 2. -/
noncomputable def exGainData : Res (NLLH ℝ ℝ) := do
  let L ← (NLLH.new (fun _ => 1) : NLLH ℝ ℝ).addSystematic exSysName 0 (some "gr")
  let L ← L.addPdf exSysName (exRealPdf "s" (1/2) (1/2)) (some ["gr"]) none .direct
  let L ← L.addPdf exSysName (exRealPdf "b" (1/4) (3/4)) (some [""]) none .indirect
  let L := ((L.registerFitComponents exSysName).setParameters exGain [("b", 3), ("g", 2), ("s", 2)]).1
  pure (({ L with cuts := [.line "c" "q" 1 "upper"] } : NLLH ℝ ℝ).setDataSet (some (exEntries [[0, 1/2], [5, 1/2]])))

/-- Non-vacuity of `C104_systematics_outcome_partial`: rates 2 · (1/2 · 2) + 3 · 1/4 = 11/4 and 2 · 1/2 + 3 · 3/4 = 13/4, one event in the first bin
passes the cut. -/
example : ∃ L L', exGainData = .ok L ∧ L.evaluate exGain CMath.real = .ok (some (6 - Real.log (11/4)), L') := by
  obtain ⟨L, hL, hrec, e1, e2, e3, e4, e5, e6, e7, e8, e9⟩ : ∃ L, exGainData = .ok L ∧
      Recorded exSysName exGain CMath.real [.addTo 0 "gr", .addDist "s" ["gr"], .addDist "b" [""]] exTwo L ∧
      L.useBB = false ∧ L.shrinker.buffers = [] ∧ L.data = some (exEntries [[0, 1/2], [5, 1/2]]) ∧ L.calculated = false ∧
      L.cuts = [.line "c" "q" 1 "upper"] ∧
      (L.pdfs.getParameter "s" = .ok 2 ∧ L.pdfs.getParameter "b" = .ok 3) ∧ L.getParameters exGain = .ok [("b", 3), ("g", 2), ("s", 2)] ∧
      L.objs 0 = 2 ∧ L.constraints.evaluate [("b", 3), ("g", 2), ("s", 2)] = .ok (some 0) := by
    refine ⟨_, rfl, ?_, rfl, rfl, rfl, rfl, rfl, ⟨rfl, rfl⟩, rfl, rfl, rfl⟩
    exact .setDataSet _ (.setCuts [.line "c" "q" 1 "upper"] (.setParameters [("b", 3), ("g", 2), ("s", 2)] (.registerFitComponents
        (.addPdf (exRealPdf "b" (1/4) (3/4)) (some [""]) none .indirect (.addPdf (exRealPdf "s" (1/2) (1/2)) (some ["gr"]) none .direct
          (.addSystematic 0 (some "gr") (.new (fun _ => 1)) rfl) rfl) rfl))))
  obtain ⟨R, cs, h1, h2, h3, h4, h5⟩ := C104_systematics_outcome_partial exGain_refreshing hrec (by simp [SysLog.added, ManagerCall.added?]) e1 e2 e3 e4
    (by rw [e5]; exact exTwo_data [.line "c" "q" 1 "upper"] (by simp [Cut.observable]) [[0, 1/2], [5, 1/2]] (by simp) (by simp) (by norm_num))
    (fun p _ => ⟨_, rfl, rfl, rfl⟩)
    (fun n => if n = "s" then 2 else 3) (by
      intro n hn
      have : n ∈ (["s", "b"] : List String) := hn
      simp only [List.mem_cons, List.not_mem_nil, or_false] at this
      rcases this with rfl | rfl
      · exact e6.1
      · rw [if_neg (by decide)]; exact e6.2) e7 e9
  obtain ⟨gs, c, c1, c2, c3⟩ := h3 0 (exRealPdf "s" (1/2) (1/2), .direct) rfl
  obtain ⟨gs', c', c1', c2', c3'⟩ := h3 1 (exRealPdf "b" (1/4) (3/4), .indirect) rfl
  have hgs : gs = ["gr"] := by
    have : SysLog.assigned [.addTo 0 "gr", .addDist "s" ["gr"], .addDist "b" [""]] "s" = some ["gr"] := by decide +kernel
    exact Option.some.inj (c1.symm.trans this)
  have hgs' : gs' = [""] := by
    have : SysLog.assigned [.addTo 0 "gr", .addDist "s" ["gr"], .addDist "b" [""]] "b" = some [""] := by decide +kernel
    exact Option.some.inj (c1'.symm.trans this)
  subst hgs hgs'
  obtain ⟨g, g1, g2⟩ := h1 0 (by simp [SysLog.added, ManagerCall.added?])
  have hg : g = 2 := by
    rw [← e8]; exact (Res.ok.inj g1).symm
  subst hg
  have hc : c = [1, 1/2] := by
    unfold Distorts applyInOrder at c3
    have hact : SysLog.acting [.addTo 0 "gr", .addDist "s" ["gr"], .addDist "b" [""]] ["gr"] = [0] := by decide +kernel
    rw [hact] at c3
    simp only [List.map_cons, List.map_nil, Res.forFold, ← g2] at c3
    have he : (exGain.response (2 : ℝ)).apply (exRealPdf "s" (1/2) (1/2)).hist.contents = .ok [1, 1/2] := by
      unfold Matrix'.apply ArmaMat.mulVec
      simp [exGain, exRealPdf, List.range_succ]
      rfl
    rw [he] at c3
    exact (Res.ok.inj c3).symm
  have hc' : c' = [1/4, 3/4] := by
    unfold Distorts applyInOrder at c3'
    have hact : SysLog.acting [.addTo 0 "gr", .addDist "s" ["gr"], .addDist "b" [""]] [""] = [] := by decide +kernel
    rw [hact] at c3'
    exact (Res.ok.inj c3').symm
  subst hc hc'
  have hcs : cs = [[1, 1/2], [1/4, 3/4]] := by
    match cs, h2, c2, c2' with
    | [x, y], _, c2, c2' =>
      simp only [List.getElem?_cons_zero, List.getElem?_cons_succ, Option.some.injEq] at c2 c2'
      rw [c2, c2']
  subst hcs
  have hr0 : distortedRate (fun n => if n = "s" then (2 : ℝ) else 3) exTwo [[1, 1/2], [1/4, 3/4]] 0 = 11/4 := by
    norm_num [distortedRate, exTwo, normOf, NormStatus.fittable, exRealPdf, show ("b" : String) ≠ "s" by decide]
  have hr1 : distortedRate (fun n => if n = "s" then (2 : ℝ) else 3) exTwo [[1, 1/2], [1/4, 3/4]] 1 = 13/4 := by
    norm_num [distortedRate, exTwo, normOf, NormStatus.fittable, exRealPdf, show ("b" : String) ≠ "s" by decide]
  have hpos : ∀ b, b < 2 → 0 < distortedRate (fun n => if n = "s" then (2 : ℝ) else 3) exTwo [[1, 1/2], [1/4, 3/4]] b := by
    intro b hb
    have hb' : b = 0 ∨ b = 1 := by omega
    rcases hb' with rfl | rfl
    · rw [hr0]; norm_num
    · rw [hr1]; norm_num
  obtain ⟨L', hL'⟩ := h5 (fun b hb => ne_of_gt (hpos b hb))
  refine ⟨L, L', hL, ?_⟩
  refine hL'.trans ?_
  rw [if_pos (show ∀ b, b < (exRealPdf "s" (1/2) (1/2)).hist.nBins → _ from hpos), e5, exTwo_passing.1]
  have hb : (exRealPdf "s" (1/2) (1/2)).binOf ⟨[0, 1/2], some ["q", "x"]⟩ = 0 := by
    have hb1 := (exTwo_fits.binOf (ev := ⟨[0, 1/2], some ["q", "x"]⟩) ⟨by decide, rfl, rfl⟩).2
    have e : ((⟨[0, 1/2], some ["q", "x"]⟩ : Event ℝ).toObsSet (exRealPdf "s" (1/2) (1/2)).obs) = .ok [1/2] := rfl
    rw [e, Res.ok_bind] at hb1
    have hf : exRealAxis.findBin (1/2) = 0 :=
      (C03_findBin_centre exRealAxis exRealAxis_contiguous 0 0 1 ⟨rfl, rfl⟩ (by norm_num)).2 _ rfl
    have hl : (exRealPdf "s" (1/2) (1/2)).hist.findBin [1/2] = .ok (exRealAxis.findBin (1/2)) := rfl
    rw [hl, hf] at hb1
    exact (Res.ok.inj hb1).symm
  unfold extendedNLL
  have hr : List.range (exRealPdf "s" (1/2) (1/2)).hist.nBins = [0, 1] := rfl
  rw [hr]
  simp only [List.map_cons, List.map_nil, List.sum_cons, List.sum_nil, hb, hr0, hr1, Fl.add]
  norm_num

-- a data set without the observable of the distributions: one event passes the cut
example : ∃ L : NLLH ℝ ℝ, Recorded exSysName exGain CMath.real [.addDist "s" [""]] [(exRealPdf "s" (1/2) (1/2), .direct)] L ∧
    L.evaluate exGain CMath.real = .throw .notFound := by
  obtain ⟨L, hrec, e1, e2, e3⟩ : ∃ L : NLLH ℝ ℝ, Recorded exSysName exGain CMath.real [.addDist "s" [""]] [(exRealPdf "s" (1/2) (1/2), .direct)] L ∧
      L.data = some ⟨[[5, 1], [0, 1]], ["q", "y"], 2⟩ ∧ L.calculated = false ∧ L.cuts = [.line "c" "q" 1 "upper"] :=
    ⟨_, .setDataSet (some ⟨[[5, 1], [0, 1]], ["q", "y"], 2⟩) (.setCuts [.line "c" "q" 1 "upper"]
      (.addPdf (exRealPdf "s" (1/2) (1/2)) none none .direct (.new (fun _ => 1)) rfl)), rfl, rfl, rfl⟩
  refine ⟨L, hrec, (C104_missing_observable hrec e1 e2).2 _ rfl ?_ (by show 2 < 2 ^ 31; norm_num) ⟨"x", by show "x" ∈ ["x"]; simp, by decide⟩ ?_⟩
  · exact ⟨⟨by simp, by simp⟩, by show (["q", "y"] : List String).Nodup; decide, fun _ => rfl, by rw [e3]; simp [Cut.observable], by simp⟩
  · rw [e3]
    intro h0
    unfold DataSet.passing at h0
    rw [List.filter_eq_nil_iff] at h0
    refine h0 ⟨[0, 1], some ["q", "y"]⟩ (by simp) ?_
    have e : (Cut.line "c" "q" (1 : ℝ) "upper").passesCut ⟨[0, 1], some ["q", "y"]⟩ = .ok (decide ((0 : ℝ) < 1)) := rfl
    simp [e]

end Oxsx
