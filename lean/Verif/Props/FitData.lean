import Verif.Spec.FitData
import Verif.Props.Invariance
import Verif.Props.Filling
/-
C104: a fit to a data set.
-/
set_option linter.unusedVariables false
set_option linter.unusedSectionVars false
set_option linter.unusedSimpArgs false
namespace Oxsx
variable {σ α : Type} [Field α] [LinearOrder α] [IsStrictOrderedRing α]
open NLLH

theorem NLLH.binDataLog_fst (L : NLLH σ α) : (L.binDataLog >>= fun p => Res.ok p.1) = L.binData := by
  unfold NLLH.binDataLog NLLH.binData
  cases at_ L.pdfs.orig 0 with
  | throw e => rfl
  | ub => rfl
  | ok o =>
    simp only [Res.ok_bind]
    cases L.data with
    | none => rfl
    | some d =>
      simp only
      cases DistFiller.fillDistLog _ d L.cuts _ [] (-1) <;> rfl

/-- Evaluating before the events are binned is binning them and evaluating. -/
theorem NLLH.evaluate_binned {C : FitSys σ α} {M : CMath α} {K K' : NLLH σ α} {d : DataSet α} (hc : K.calculated = false)
    (hd : K.data = some d) (hb : K.binData = .ok K') : K.evaluate C M = K'.evaluate C M := by
  have hK' : K'.calculated = true := by
    unfold NLLH.binData at hb
    obtain ⟨o, _, hb⟩ := Res.bind_eq_ok.1 hb
    rw [hd] at hb
    simp only at hb
    obtain ⟨p, _, hb⟩ := Res.bind_eq_ok.1 hb
    rw [← Res.ok.inj hb]
  unfold NLLH.evaluate
  congr 1
  unfold NLLH.prepare
  rw [Res.throwIf_false_of (by rw [hd]; simp), Res.throwIf_false_of (by rw [hK']; simp)]
  simp only [Res.ok_bind]
  rw [if_neg (by rw [hc]; simp), if_pos hK', hb]
  rfl

/-- C104: the value of an evaluation is the same with the log of the cuts kept. -/
theorem NLLH.evaluateLog_value (C : FitSys σ α) (M : CMath α) (L : NLLH σ α) (lg : CutLog) :
    (L.evaluateLog C M lg >>= fun r => Res.ok (r.1, r.2.1)) = L.evaluate C M := by
  unfold NLLH.evaluateLog
  by_cases h : L.data.isNone ∧ ¬ L.calculated
  · rw [Res.throwIf_true_of h]
    unfold NLLH.evaluate NLLH.prepare
    rw [Res.throwIf_true_of h]
    rfl
  · rw [Res.throwIf_false_of h]
    simp only [Res.ok_bind]
    by_cases hc : L.calculated = true
    · rw [if_pos hc]
      simp only [pure_bind]
      cases hev : L.evaluate C M <;> rfl
    · have hcf : L.calculated = false := by simpa using hc
      rw [if_neg hc]
      have hds : ∃ d, L.data = some d := by
        rw [hcf] at h
        simp at h
        exact Option.isSome_iff_exists.1 (by cases hL : L.data <;> simp_all)
      obtain ⟨d, hd⟩ := hds
      have hf := NLLH.binDataLog_fst L
      cases hb : L.binDataLog with
      | ok p =>
        rw [hb] at hf
        simp only [Res.ok_bind] at hf
        rw [NLLH.evaluate_binned hcf hd hf.symm]
        simp only [Res.ok_bind]
        cases p.1.evaluate C M <;> rfl
      | throw e =>
        rw [hb] at hf
        unfold NLLH.evaluate NLLH.prepare
        rw [Res.throwIf_false_of h, if_neg hc, ← hf]
        rfl
      | ub =>
        rw [hb] at hf
        unfold NLLH.evaluate NLLH.prepare
        rw [Res.throwIf_false_of h, if_neg hc, ← hf]
        rfl

/-- A sum over bins, weighted by the number of events in each, is a sum over the events. -/
theorem sum_by_bins {β : Type} (l : List β) (bin : β → Nat) (B : Nat) (f : Nat → ℝ) (h : ∀ x ∈ l, bin x < B) :
    ((List.range B).map (fun b => ((l.countP (fun x => decide (bin x = b)) : Nat) : ℝ) * f b)).sum = (l.map (fun x => f (bin x))).sum := by
  induction l with
  | nil => simp
  | cons x l ih =>
    have hx := h x (by simp)
    have e : ∀ b, ((((x :: l).countP (fun x => decide (bin x = b)) : Nat) : ℝ) * f b) =
        ((l.countP (fun x => decide (bin x = b)) : Nat) : ℝ) * f b + (if b = bin x then f (bin x) else 0) := by
      intro b
      rw [List.countP_cons]
      by_cases hb : b = bin x
      · subst hb; simp; ring
      · simp [hb, Ne.symm hb]
    simp only [e]
    rw [List.sum_map_add, ih (fun y hy => h y (by simp [hy])), List.map_cons, List.sum_cons]
    have one : ∀ n, bin x < n → ((List.range n).map (fun b => if b = bin x then f (bin x) else 0)).sum = f (bin x) := by
      intro n
      induction n with
      | zero => intro h; omega
      | succ n ih =>
        intro hn
        rw [List.range_succ, List.map_append, List.sum_append]
        by_cases hnx : bin x = n
        · have z : ((List.range n).map (fun b => if b = bin x then f (bin x) else 0)).sum = 0 := by
            apply List.sum_eq_zero
            intro y hy
            obtain ⟨b, hb, rfl⟩ := List.mem_map.1 hy
            have := List.mem_range.1 hb
            rw [if_neg (by omega)]
          rw [z]; simp [hnx]
        · rw [ih (by omega)]
          simp [Ne.symm hnx]
    rw [one B hx]
    ring

theorem NLLH.setLoop_cuts (C : FitSys σ α) (ps : ParamDict α) (cs : List NllhComponent) (L : NLLH σ α) :
    (NLLH.setLoop C ps L cs).1.cuts = L.cuts := by
  induction cs generalizing L with
  | nil => rfl
  | cons c cs ih =>
    unfold NLLH.setLoop
    have h : (NLLH.setComponent C ps L c).1.cuts = L.cuts := by cases c <;> rfl
    rcases hc : NLLH.setComponent C ps L c with ⟨L', r⟩
    rw [hc] at h
    cases r with
    | ok u => simp only; rw [ih]; exact h
    | throw e => exact h
    | ub => exact h

theorem foldl_addCut (cuts : List (Cut α)) (L : NLLH σ α) : cuts.foldl NLLH.addCut L = { L with cuts := L.cuts ++ cuts } := by
  induction cuts generalizing L with
  | nil => simp
  | cons c cuts ih => rw [List.foldl_cons, ih]; simp [NLLH.addCut, CutCollection.addCut]

/-- What `configuredData` makes: the likelihood `configured` makes, with the data set not yet binned. -/
theorem NLLH.configuredData_facts {name : Nat → String} {C : FitSys σ α} {objs : Nat → σ} {log : List (BinnedED α × NormStatus)}
    {cons : ConstraintManager α} {ps : ParamDict α} {cuts : List (Cut α)} {d : DataSet α} (hd : PdfLog.DistinctNames log) (hne : ps ≠ [])
    (hall : ∀ n ∈ PdfLog.fitted log, (SMap.find ps n).isSome) :
    ∃ K, NLLH.configuredData name C objs log cons ps cuts d = .ok K ∧ K.cuts = cuts ∧ K.data = some d ∧ K.calculated = false ∧
      (∀ n ∈ PdfLog.fitted log, ∀ v, SMap.find ps n = some v → K.pdfs.getParameter n = .ok v) ∧
      ∀ dist, ({ K with dataDist := dist, calculated := true } : NLLH σ α).Simple log cons dist := by
  obtain ⟨L, h1, hS, hset⟩ := NLLH.configured_simple (name := name) (C := C) (objs := objs) (cons := cons) (d := ⟨"", .empty, ⟨[], []⟩⟩) hd hne hall
  unfold NLLH.configured at h1
  obtain ⟨L1, e1, h1⟩ := Res.bind_eq_ok.1 h1
  have c1 : L1.cuts = [] := by
    refine Res.forFold_inv (fun (L : NLLH σ α) => L.cuts = []) rfl e1 ?_
    intro L p L' hL _ hp
    unfold NLLH.addPdf at hp
    obtain ⟨_, _, hp⟩ := Res.bind_eq_ok.1 hp
    obtain ⟨_, _, hp⟩ := Res.bind_eq_ok.1 hp
    obtain ⟨_, _, hp⟩ := Res.bind_eq_ok.1 hp
    rw [← Res.ok.inj hp]
    exact hL
  have c2 : ((({ L1 with constraints := cons } : NLLH σ α).registerFitComponents name).setParameters C ps).1.cuts = [] := by
    unfold NLLH.setParameters
    split
    · exact c1
    · rw [NLLH.setLoop_cuts]; exact c1
  unfold NLLH.configuredData
  rw [e1]
  simp only [Res.ok_bind] at h1 ⊢
  rcases h2 : (({ L1 with constraints := cons } : NLLH σ α).registerFitComponents name).setParameters C ps with ⟨L2, r⟩
  rw [h2] at h1 c2
  simp only at h1 c2
  obtain ⟨u, hr, h1⟩ := Res.bind_eq_ok.1 h1
  have hL := Res.ok.inj h1
  subst hr
  simp only [Res.ok_bind, foldl_addCut, c2, List.nil_append]
  refine ⟨_, rfl, rfl, rfl, rfl, ?_, ?_⟩
  · intro n hn v hv
    have := hset n hn v hv
    rw [← hL] at this
    exact this
  · intro dist
    rw [← hL] at hS
    exact ⟨hS.built, hS.work, hS.bb, hS.buf, hS.sys, rfl, rfl, hS.cons, hS.comp⟩

/-- Entry `i` as an event. -/
theorem DataSet.transformed_nil {d : DataSet α} {i : Nat} (hi : i < d.getNEntries) :
    d.transformed [] i = some ⟨d.data[i]'hi, some d.names⟩ := by
  have hr : d.data[i]? = some (d.data[i]'hi) := List.getElem?_eq_getElem hi
  simp [DataSet.transformed, DataSet.getEntry, hr, EventSys.applyAll, Res.forFold, Res.toOption]

/-- Counting entries by index is counting events. -/
theorem DataSet.countP_range {d : DataSet α} {p : Nat → Bool} {q : Event α → Bool}
    (h : ∀ i (hi : i < d.getNEntries), p i = q ⟨d.data[i]'hi, some d.names⟩) :
    (List.range d.getNEntries).countP p = (d.data.map (fun r => (⟨r, some d.names⟩ : Event α))).countP q := by
  have : d.data.map (fun r => (⟨r, some d.names⟩ : Event α)) =
      (List.range d.getNEntries).map (fun i => ⟨d.data.getD i [], some d.names⟩) := by
    apply List.ext_getElem
    · simp [DataSet.getNEntries]
    · intro i h1 h2
      have : i < d.data.length := by simpa using h1
      simp [this]
  rw [this, List.countP_map]
  apply List.countP_congr
  intro i hi
  have hi := List.mem_range.1 hi
  rw [h i hi]
  have : d.data.getD i [] = d.data[i]'hi := by
    rw [List.getD_eq_getElem?_getD, List.getElem?_eq_getElem hi]; rfl
  simp only [Function.comp_apply, this]

/-- The bin of an entry of the data set. -/
theorem BinnedED.Fits.binOf {pdf : BinnedED α} {as : List (BinAxis α)} {names : List String} (hf : pdf.Fits as names)
    {ev : Event α} (hc : ev.Complete names) : pdf.binOf ev < pdf.hist.nBins ∧
      (ev.toObsSet pdf.obs >>= pdf.hist.findBin) = .ok (pdf.binOf ev) := by
  obtain ⟨_, b, _, _, _, _, _, _, _, h7, h8, _⟩ := hf.fill hc 1
  unfold BinnedED.binOf
  rw [h7]
  exact ⟨h8, rfl⟩

theorem DataSet.Ready.complete {d : DataSet α} {cuts : CutCollection α} {ss : List (EventSys α)} (h : d.Ready cuts ss) {r : List α}
    (hr : r ∈ d.data) : (⟨r, some d.names⟩ : Event α).Complete d.names := by
  refine ⟨h.nodup, rfl, ?_⟩
  rw [h.len (List.ne_nil_of_mem hr)]
  exact h.wf.1 _ hr

theorem DataSet.mem_passing {d : DataSet α} {cuts : CutCollection α} {ss : List (EventSys α)} (h : d.Ready cuts ss) {e : Event α}
    (he : e ∈ d.passing cuts) : e.Complete d.names := by
  obtain ⟨r, hr, rfl⟩ := List.mem_map.1 (List.mem_filter.1 he).1
  exact h.complete hr

/-- The number of selected entries in a bin is the number of passing events in it. -/
theorem DataSet.Ready.count {d : DataSet α} {cuts : CutCollection α} (h : d.Ready cuts []) {pdf : BinnedED α} {as : List (BinAxis α)}
    (hf : pdf.Fits as d.names) (b : Nat) : (List.range d.getNEntries).countP (fun i => d.selected cuts [] i && d.inBin [] pdf b i) =
      (d.passing cuts).countP (fun e => decide (pdf.binOf e = b)) := by
  rw [DataSet.passing, List.countP_filter, DataSet.countP_range]
  intro i hi
  have ht := DataSet.transformed_nil hi
  have hc := (hf.binOf (h.complete (List.getElem_mem hi))).2
  simp only [DataSet.selected, DataSet.inBin, ht, hc]
  rw [Bool.and_comm]
  simp

theorem Histogram.Valid.emptyContents {h : Histogram α} {as : List (BinAxis α)} (hv : h.Valid as) : h.emptyContents.Valid as := by
  exact ⟨hv.axes, hv.ne, hv.nb, hv.nd, by simpa [Histogram.emptyContents] using hv.len⟩

/-- What is needed to fit distributions to a data set: distinct names, directly before indirectly fitted ones (C27, C28), the observables and
binning of the first one, all of them observables of the data set; cuts on observables it has; fewer than 2^31 entries (C67). -/
structure CanFitData (log : List (BinnedED ℝ × NormStatus)) (first : BinnedED ℝ) (as : List (BinAxis ℝ)) (cuts : List (Cut ℝ)) (d : DataSet ℝ) :
    Prop where
  distinct : PdfLog.DistinctNames log
  order : PdfLog.Before .direct .indirect log
  same : ∀ p ∈ log, p.1.obs.names = first.obs.names ∧ p.1.hist.nBins = first.hist.nBins ∧ p.1.hist.contents.length = first.hist.nBins
  fits : first.Fits as d.names
  ready : d.Ready cuts []
  small : d.getNEntries < 2 ^ 31
  head : (log.map (·.1))[0]? = some first

/-- A likelihood of distributions `log` and constraints `cons` at `ps`, with these cuts and a data set not yet binned. -/
structure NLLH.Unbinned (log : List (BinnedED α × NormStatus)) (cons : ConstraintManager α) (ps : ParamDict α) (cuts : List (Cut α)) (d : DataSet α)
    (K : NLLH σ α) : Prop where
  cuts : K.cuts = cuts
  data : K.data = some d
  calced : K.calculated = false
  params : ∀ n ∈ PdfLog.fitted log, ∃ v, SMap.find ps n = some v ∧ K.pdfs.getParameter n = .ok v
  simple : ∀ dist, ({ K with dataDist := dist, calculated := true } : NLLH σ α).Simple log cons dist

theorem NLLH.configuredData_unbinned {name : Nat → String} {C : FitSys σ α} {objs : Nat → σ} {log : List (BinnedED α × NormStatus)}
    {cons : ConstraintManager α} {ps : ParamDict α} {cuts : List (Cut α)} {d : DataSet α} (hd : PdfLog.DistinctNames log) (hne : ps ≠ [])
    (hall : ∀ n ∈ PdfLog.fitted log, (SMap.find ps n).isSome) :
    ∃ K, NLLH.configuredData name C objs log cons ps cuts d = .ok K ∧ K.Unbinned log cons ps cuts d := by
  obtain ⟨K, k1, k2, k3, k4, k5, k6⟩ := NLLH.configuredData_facts (name := name) (C := C) (objs := objs) (cons := cons) (cuts := cuts) (d := d) hd hne hall
  refine ⟨K, k1, k2, k3, k4, fun n hn => ?_, k6⟩
  obtain ⟨v, hv⟩ := Option.isSome_iff_exists.1 (hall n hn)
  exact ⟨v, hv, k5 n hn v hv⟩

theorem NLLH.Unbinned.setParameters {log : List (BinnedED α × NormStatus)} {cons : ConstraintManager α} {ps₀ ps : ParamDict α} {cuts : List (Cut α)}
    {d : DataSet α} {K : NLLH σ α} (h : K.Unbinned log cons ps₀ cuts d) (C : FitSys σ α) (hd : PdfLog.DistinctNames log) (hne : ps ≠ [])
    (hall : ∀ n ∈ PdfLog.fitted log, (SMap.find ps n).isSome) :
    (K.setParameters C ps).2 = .ok () ∧ (K.setParameters C ps).1.Unbinned log cons ps cuts d := by
  have s := h.simple ⟨"", .empty, ⟨[], []⟩⟩
  obtain ⟨_, s1, s2⟩ := C28_set_get_partial s.built hd ps hall
  have hset : K.setParameters C ps = ({ K with pdfs := (K.pdfs.setParameters ps).1 }, .ok ()) := by
    unfold NLLH.setParameters
    rw [if_neg (by intro h; exact hne (List.length_eq_zero_iff.1 h)),
      show setLoop C ps K K.components = setLoop C ps K [.pdfs] from congrArg _ s.comp]
    unfold setLoop setComponent
    simp only
    rw [s1]
    rfl
  rw [hset]
  have hi := PdfManager.inv_of_built s.built
  refine ⟨rfl, h.cuts, h.data, h.calced, ?_, fun dist => ⟨s.built.setParameters ps,
    (PdfManager.setParameters_congr (.refl _) hi hi ps).2.2.2.1.trans s.work, s.bb, s.buf, s.sys, rfl, rfl, s.cons, s.comp⟩⟩
  intro n hn
  obtain ⟨v, hv⟩ := Option.isSome_iff_exists.1 (hall n hn)
  exact ⟨v, hv, s2 n hn v hv⟩

/-- What binning the data set does, whatever else the likelihood holds. -/
theorem NLLH.binned_any {d : DataSet ℝ} {first : BinnedED ℝ} {as : List (BinAxis ℝ)} {K : NLLH σ ℝ} (ho : at_ K.pdfs.orig 0 = .ok first)
    (hdat : K.data = some d) (hfit : first.Fits as d.names) (hready : d.Ready K.cuts []) (hsmall : d.getNEntries < 2 ^ 31) :
    ∃ dist lg, K.binDataLog = .ok ({ K with dataDist := dist, calculated := true }, lg) ∧
      DistFiller.fillDist { first with hist := first.hist.emptyContents } d K.cuts [] (-1) = .ok dist ∧
      dist.obs = first.obs ∧ dist.hist.nBins = first.hist.nBins ∧ dist.hist.contents.length = first.hist.nBins ∧
      (∀ b, b < first.hist.nBins → countIn dist b = ((d.passing K.cuts).countP (fun e => decide (first.binOf e = b)) : Nat)) ∧
      lg.nEvents = d.getNEntries ∧ lg.names = CutCollection.getCutNames K.cuts ∧ lg.counts.length = K.cuts.length ∧
      ∀ k, lg.counts.getD k 0 = (List.range d.getNEntries).countP (d.failsAt K.cuts [] k) := by
  obtain ⟨pdf, hpdf⟩ : ∃ pdf : BinnedED ℝ, pdf = { first with hist := first.hist.emptyContents } := ⟨_, rfl⟩
  have hf : pdf.Fits as d.names := by rw [hpdf]; exact ⟨hfit.valid.emptyContents, hfit.contig, hfit.obs⟩
  have hreq : requested d (-1) = d.getNEntries := rfl
  obtain ⟨dist, lg, f1, f2, f3, f4, f5, f6⟩ := C67_fill_log d K.cuts [] hready hsmall pdf as hf (-1) (by rw [hreq])
    (CutLog.ofNames (CutCollection.getCutNames K.cuts)) (by simp [CutLog.ofNames, CutCollection.getCutNames])
  obtain ⟨dist', g1, g2, g3, g4, g5, g6, g7⟩ := C67_fill d K.cuts [] hready hsmall pdf as hf (-1) (by rw [hreq])
  rw [f1] at g1
  cases g1
  obtain ⟨dist'', l1, l2⟩ := DistFiller.loop d K.cuts [] hready pdf as hf _ (Nat.le_refl _)
  have hdd : dist'' = dist := by
    have : DistFiller.fillDist pdf d K.cuts [] (-1) = .ok dist'' := by
      unfold DistFiller.fillDist
      rw [DistFiller.nEvents_eq hsmall, hreq]
      exact l1
    rw [f1] at this
    exact (Res.ok.inj this).symm
  subst hdd
  have hlen : dist''.hist.contents.length = first.hist.nBins := by
    have := l2.fits.valid.len
    rw [this, ← l2.fits.valid.nb, l2.nBins, hpdf]; rfl
  refine ⟨dist'', lg, ?_, by rw [← hpdf]; exact f1, by rw [g3, hpdf], by rw [g5, hpdf]; rfl, hlen, ?_, ?_, f4, f5, ?_⟩
  · unfold NLLH.binDataLog
    rw [ho]
    simp only [Res.ok_bind]
    rw [hdat]
    simp only
    rw [← hpdf, f2]
    rfl
  · intro b hb
    obtain ⟨x, x1, x2⟩ := g6 b (by rw [hpdf]; exact hb)
    rw [hf.valid.get (by rw [hpdf]; exact hb)] at x1
    have hx : x = 0 := by
      rw [← Res.ok.inj x1, hpdf]
      simp only [Histogram.emptyContents, List.getD_eq_getElem?_getD, List.getElem?_map]
      cases first.hist.contents[b]? <;> rfl
    rw [l2.fits.valid.get (by rw [l2.nBins, hpdf]; exact hb), hx, zero_add, hreq, hready.count hf] at x2
    rw [countIn, Res.ok.inj x2, hpdf]
    rfl
  · rw [f3, hreq]; simp [CutLog.ofNames]
  · intro k
    rw [f6 k, hreq]
    simp only [CutLog.ofNames, List.getD_eq_getElem?_getD, List.getElem?_replicate]
    split <;> simp

/-- What binning the data set does. -/
theorem NLLH.Unbinned.binned {log : List (BinnedED ℝ × NormStatus)} {cons : ConstraintManager ℝ} {ps : ParamDict ℝ} {cuts : List (Cut ℝ)} {d : DataSet ℝ}
    {first : BinnedED ℝ} {as : List (BinAxis ℝ)} {K : NLLH σ ℝ} (hK : K.Unbinned log cons ps cuts d) (h : CanFitData log first as cuts d) :
    ∃ dist lg, K.binDataLog = .ok ({ K with dataDist := dist, calculated := true }, lg) ∧
      dist.obs = first.obs ∧ dist.hist.nBins = first.hist.nBins ∧ dist.hist.contents.length = first.hist.nBins ∧
      (∀ b, b < first.hist.nBins → countIn dist b = ((d.passing cuts).countP (fun e => decide (first.binOf e = b)) : Nat)) ∧
      lg.nEvents = d.getNEntries ∧ lg.names = CutCollection.getCutNames cuts ∧ lg.counts.length = cuts.length ∧
      ∀ k, lg.counts.getD k 0 = (List.range d.getNEntries).countP (d.failsAt cuts [] k) := by
  have ho : at_ K.pdfs.orig 0 = .ok first := by
    have e := (PdfManager.inv_of_built (hK.simple first).built).orig
    simp only at e
    rw [e]
    unfold at_
    rw [h.head]
  obtain ⟨dist, lg, e1, _, e2⟩ := NLLH.binned_any ho hK.data h.fits (by rw [hK.cuts]; exact h.ready) h.small
  rw [hK.cuts] at e2
  exact ⟨dist, lg, e1, e2⟩

theorem NLLH.evaluate_cuts {C : FitSys σ α} {M : CMath α} {L L' : NLLH σ α} {v : Fl α} (h : L.evaluate C M = .ok (v, L')) : L'.cuts = L.cuts := by
  unfold NLLH.evaluate at h
  obtain ⟨P, hP, h⟩ := Res.bind_eq_ok.1 h
  obtain ⟨⟨w, m⟩, _, h⟩ := Res.bind_eq_ok.1 h
  obtain ⟨g, _, h⟩ := Res.bind_eq_ok.1 h
  obtain ⟨c, _, h⟩ := Res.bind_eq_ok.1 h
  rw [← (Prod.mk.inj (Res.ok.inj h)).2]
  show P.cuts = L.cuts
  unfold NLLH.prepare at hP
  obtain ⟨_, _, hP⟩ := Res.bind_eq_ok.1 hP
  obtain ⟨L1, h1, hP⟩ := Res.bind_eq_ok.1 hP
  obtain ⟨m1, _, hP⟩ := Res.bind_eq_ok.1 hP
  obtain ⟨L2, h2, hP⟩ := Res.bind_eq_ok.1 hP
  obtain ⟨⟨sm, os⟩, _, hP⟩ := Res.bind_eq_ok.1 hP
  obtain ⟨m2, _, hP⟩ := Res.bind_eq_ok.1 hP
  obtain ⟨m3, _, hP⟩ := Res.bind_eq_ok.1 hP
  obtain ⟨m4, _, hP⟩ := Res.bind_eq_ok.1 hP
  rw [← Res.ok.inj hP]
  show L2.cuts = L.cuts
  have e1 : L1.cuts = L.cuts := by
    split at h1
    · rw [← Res.ok.inj h1]
    · unfold NLLH.binData at h1
      obtain ⟨o, _, h1⟩ := Res.bind_eq_ok.1 h1
      split at h1
      · cases h1
      · obtain ⟨p, _, h1⟩ := Res.bind_eq_ok.1 h1
        rw [← Res.ok.inj h1]
  have e2 : L2.cuts = L1.cuts := by
    unfold NLLH.shrinkData at h2
    split at h2
    · rw [← Res.ok.inj h2]
    · obtain ⟨s, _, h2⟩ := Res.bind_eq_ok.1 h2
      obtain ⟨dd, _, h2⟩ := Res.bind_eq_ok.1 h2
      rw [← Res.ok.inj h2]
  rw [e2, e1]

/-- The value of a binned data set. -/
theorem binned_value {log : List (BinnedED ℝ × NormStatus)} {ps : ParamDict ℝ} {cuts : List (Cut ℝ)} {d : DataSet ℝ} {first : BinnedED ℝ}
    {as : List (BinAxis ℝ)} (h : CanFitData log first as cuts d) {dist : BinnedED ℝ} (o2 : dist.hist.nBins = first.hist.nBins)
    (o4 : ∀ b, b < first.hist.nBins → countIn dist b = ((d.passing cuts).countP (fun e => decide (first.binOf e = b)) : Nat)) :
    binnedNLL (fun n => (SMap.find ps n).getD 0) log dist =
      extendedNLL first.hist.nBins (rateAt log ps) (fun e => rateAt log ps (first.binOf e)) (d.passing cuts) := by
  unfold binnedNLL extendedNLL
  rw [← sum_by_bins (d.passing cuts) first.binOf first.hist.nBins (fun b => Real.log (rateAt log ps b))
    (fun e he => (h.fits.binOf (DataSet.mem_passing h.ready he)).1), o2, eq_sub_iff_add_eq, ← List.sum_map_add]
  congr 1
  apply List.map_congr_left
  intro b hb
  rw [← o4 b (List.mem_range.1 hb)]
  unfold poissonTerm rateAt countIn
  ring

/-- The evaluation of a likelihood with a data set not yet binned. -/
theorem NLLH.Unbinned.evaluate {log : List (BinnedED ℝ × NormStatus)} {cons : ConstraintManager ℝ} {ps : ParamDict ℝ} {cuts : List (Cut ℝ)}
    {d : DataSet ℝ} {first : BinnedED ℝ} {as : List (BinAxis ℝ)} {K : NLLH σ ℝ} {c : ℝ} (hK : K.Unbinned log cons ps cuts d)
    (h : CanFitData log first as cuts d) (hp : FitPoint log cons first ps c) (C : FitSys σ ℝ) :
    ∃ L' dist, K.evaluate C CMath.real =
        .ok (some (extendedNLL first.hist.nBins (rateAt log ps) (fun e => rateAt log ps (first.binOf e)) (d.passing cuts) + c), L') ∧
      L'.Simple log cons dist ∧ L'.cuts = cuts ∧ dist.obs = first.obs ∧ dist.hist.nBins = first.hist.nBins ∧
      dist.hist.contents.length = first.hist.nBins ∧
      (∀ b, b < first.hist.nBins → countIn dist b = ((d.passing cuts).countP (fun e => decide (first.binOf e = b)) : Nat)) ∧
      ∀ n ∈ PdfLog.fitted log, ∃ v, SMap.find ps n = some v ∧ L'.pdfs.getParameter n = .ok v := by
  obtain ⟨dist, lg, kb, o1, o2, o3, o4, _⟩ := hK.binned h
  have hb : K.binData = .ok { K with dataDist := dist, calculated := true } := by rw [← NLLH.binDataLog_fst, kb]; rfl
  obtain ⟨L', e, s1, s2⟩ := (hK.simple dist).evaluate C h.distinct h.order hp.sorted hK.params (by rw [o1, o2]; exact h.same) (by rw [o3, o2])
    (by rw [o2]; exact hp.positive) hp.constraint
  rw [binned_value h o2 o4] at e
  have e' := (NLLH.evaluate_binned (C := C) (M := CMath.real) hK.calced hK.data hb).trans e
  exact ⟨L', dist, e', s1, (NLLH.evaluate_cuts e').trans hK.cuts, o1, o2, o3, o4, s2⟩

/-- C104 (partial): fitting the distributions to a data set with cuts. Every step succeeds and the evaluation returns minus the logarithm of the
extended likelihood of the entries that pass the cuts (the total expected number minus, for each passing entry, the logarithm of the number expected
in its bin), plus the constraint term. Missing: as in `C31_configured_partial`, and data sets of 2^31 entries (`C67_large_set_wrong`). -/
theorem C104_events_partial {name : Nat → String} {C : FitSys σ ℝ} {objs : Nat → σ} {log : List (BinnedED ℝ × NormStatus)} {cons : ConstraintManager ℝ}
    {ps : ParamDict ℝ} {cuts : List (Cut ℝ)} {d : DataSet ℝ} {first : BinnedED ℝ} {as : List (BinAxis ℝ)} {c : ℝ} (h : CanFitData log first as cuts d)
    (hp : FitPoint log cons first ps c) :
    ∃ L L', NLLH.configuredData name C objs log cons ps cuts d = .ok L ∧ L.evaluate C CMath.real =
      .ok (some (extendedNLL first.hist.nBins (rateAt log ps) (fun e => rateAt log ps (first.binOf e)) (d.passing cuts) + c), L') := by
  obtain ⟨K, k1, hK⟩ := NLLH.configuredData_unbinned (name := name) (C := C) (objs := objs) (cons := cons) (cuts := cuts) (d := d) h.distinct hp.nonempty hp.all
  obtain ⟨L', _, e, _⟩ := hK.evaluate h hp C
  exact ⟨K, L', k1, e⟩

/-- C104: the log of the cuts after the evaluation: every entry counted once, each rejected one at the first cut it fails; it does not matter what
the log was before. -/
theorem C104_cut_log {name : Nat → String} {C : FitSys σ ℝ} {objs : Nat → σ} {log : List (BinnedED ℝ × NormStatus)} {cons : ConstraintManager ℝ}
    {ps : ParamDict ℝ} {cuts : List (Cut ℝ)} {d : DataSet ℝ} {first : BinnedED ℝ} {as : List (BinAxis ℝ)} {c : ℝ} (h : CanFitData log first as cuts d)
    (hp : FitPoint log cons first ps c) (before : CutLog) :
    ∃ L v L' lg, NLLH.configuredData name C objs log cons ps cuts d = .ok L ∧ L.evaluateLog C CMath.real before = .ok (v, L', lg) ∧
      L.evaluate C CMath.real = .ok (v, L') ∧ lg.nEvents = d.getNEntries ∧ lg.names = cuts.map Cut.getName ∧ lg.counts.length = cuts.length ∧
      (∀ k, lg.counts.getD k 0 = (List.range d.getNEntries).countP (d.failsAt cuts [] k)) ∧
      ∀ other, ∃ w L'', L'.evaluateLog C CMath.real other = .ok (w, L'', other) := by
  obtain ⟨K, k1, hK⟩ := NLLH.configuredData_unbinned (name := name) (C := C) (objs := objs) (cons := cons) (cuts := cuts) (d := d) h.distinct hp.nonempty hp.all
  obtain ⟨dist, lg, kb, o1, o2, o3, o4, g1, g2, g3, g4⟩ := hK.binned h
  obtain ⟨L', e, s1, s2⟩ := (hK.simple dist).evaluate C h.distinct h.order hp.sorted hK.params (by rw [o1, o2]; exact h.same) (by rw [o3, o2])
    (by rw [o2]; exact hp.positive) hp.constraint
  have key : ∃ v, K.evaluateLog C CMath.real before = .ok (v, L', lg) := by
    refine ⟨?_, ?_⟩
    rotate_left
    · unfold NLLH.evaluateLog
      rw [Res.throwIf_false_of (by rw [hK.data]; simp), Res.ok_bind, if_neg (by rw [hK.calced]; simp), kb]
      simp only [Res.ok_bind]
      rw [e]
      rfl
  obtain ⟨v, key⟩ := key
  refine ⟨K, v, L', lg, k1, key, ?_, g1, g2, g3, g4, ?_⟩
  · rw [← NLLH.evaluateLog_value C CMath.real K before, key]; rfl
  · intro other
    obtain ⟨L'', e', _⟩ := s1.evaluate C h.distinct h.order hp.sorted s2 (by rw [o1, o2]; exact h.same) (by rw [o3, o2])
      (by rw [o2]; exact hp.positive) hp.constraint
    unfold NLLH.evaluateLog
    refine ⟨?_, L'', ?_⟩
    rotate_left
    rw [Res.throwIf_false_of (by rw [s1.calced]; simp), Res.ok_bind, if_pos s1.calced]
    simp only [pure_bind]
    rw [e']
    rfl

/-- C104 is false of cuts added after an evaluation: the data stays binned as it was, so the new cuts change nothing -/
theorem late_cuts {name : Nat → String} {C : FitSys σ ℝ} {objs : Nat → σ} {log : List (BinnedED ℝ × NormStatus)} {cons : ConstraintManager ℝ}
    {ps : ParamDict ℝ} {cuts : List (Cut ℝ)} {d : DataSet ℝ} {first : BinnedED ℝ} {as : List (BinAxis ℝ)} {c : ℝ} (h : CanFitData log first as cuts d)
    (hp : FitPoint log cons first ps c) (more : List (Cut ℝ)) :
    ∃ L v L' L'', NLLH.configuredData name C objs log cons ps cuts d = .ok L ∧ L.evaluate C CMath.real = .ok (some v, L') ∧
      (more.foldl NLLH.addCut L').getCuts = cuts ++ more ∧ (more.foldl NLLH.addCut L').evaluate C CMath.real = .ok (some v, L'') := by
  obtain ⟨K, k1, hK⟩ := NLLH.configuredData_unbinned (name := name) (C := C) (objs := objs) (cons := cons) (cuts := cuts) (d := d) h.distinct hp.nonempty hp.all
  obtain ⟨L', dist, e, s1, s3, o1, o2, o3, o4, s2⟩ := hK.evaluate h hp C
  have hfold := foldl_addCut more L'
  have s1' : ({ L' with cuts := L'.cuts ++ more } : NLLH σ ℝ).Simple log cons dist :=
    ⟨s1.built, s1.work, s1.bb, s1.buf, s1.sys, s1.data, s1.calced, s1.cons, s1.comp⟩
  obtain ⟨L'', e', _⟩ := s1'.evaluate C h.distinct h.order hp.sorted s2 (by rw [o1, o2]; exact h.same) (by rw [o3, o2])
    (by rw [o2]; exact hp.positive) hp.constraint
  rw [binned_value h o2 o4] at e'
  exact ⟨K, _, L', L'', k1, e, by rw [hfold]; simp [NLLH.getCuts, s3], by rw [hfold]; exact e'⟩

/-- C104 (partial), the same likelihood again: after an evaluation, other parameters, further cuts and another data set give the value of the new data
set with all the cuts at the new parameters. Missing: as in `C104_events_partial`. -/
theorem C104_again_partial {name : Nat → String} {C : FitSys σ ℝ} {objs : Nat → σ} {log : List (BinnedED ℝ × NormStatus)} {cons : ConstraintManager ℝ}
    {ps ps' : ParamDict ℝ} {cuts more : List (Cut ℝ)} {d d' : DataSet ℝ} {first : BinnedED ℝ} {as as' : List (BinAxis ℝ)} {c c' : ℝ}
    (h : CanFitData log first as cuts d) (hp : FitPoint log cons first ps c)
    (h' : CanFitData log first as' (cuts ++ more) d') (hp' : FitPoint log cons first ps' c') :
    ∃ L v L' L'', NLLH.configuredData name C objs log cons ps cuts d = .ok L ∧ L.evaluate C CMath.real = .ok (some v, L') ∧
      (((more.foldl NLLH.addCut L').setDataSet (some d')).setParameters C ps').2 = .ok () ∧
      (((more.foldl NLLH.addCut L').setDataSet (some d')).setParameters C ps').1.evaluate C CMath.real =
        .ok (some (extendedNLL first.hist.nBins (rateAt log ps') (fun e => rateAt log ps' (first.binOf e)) (d'.passing (cuts ++ more)) + c'), L'') := by
  obtain ⟨K, k1, hK⟩ := NLLH.configuredData_unbinned (name := name) (C := C) (objs := objs) (cons := cons) (cuts := cuts) (d := d) h.distinct hp.nonempty hp.all
  obtain ⟨L', dist, e, s1, s3, o1, o2, o3, o4, s2⟩ := hK.evaluate h hp C
  have hfold := foldl_addCut more L'
  rw [s3] at hfold
  have hU : (({ L' with cuts := cuts ++ more } : NLLH σ ℝ).setDataSet (some d')).Unbinned log cons ps (cuts ++ more) d' :=
    ⟨rfl, rfl, rfl, s2, fun dist' => ⟨s1.built, s1.work, s1.bb, s1.buf, s1.sys, rfl, rfl, s1.cons, s1.comp⟩⟩
  obtain ⟨u1, u2⟩ := hU.setParameters C h'.distinct hp'.nonempty hp'.all
  obtain ⟨L'', _, e', _⟩ := u2.evaluate h' hp' C
  exact ⟨K, _, L', L'', k1, e, by rw [hfold]; exact u1, by rw [hfold]; exact e'⟩


theorem rateAt_eq (log : List (BinnedED ℝ × NormStatus)) (ps : ParamDict ℝ) (b : Nat) :
    rateAt log ps b = (log.map (fun p => normOf (fun n => (SMap.find ps n).getD 0) p * p.1.hist.contents.getD b 0)).sum := by
  unfold rateAt expectedRate
  congr 1
  rw [List.zip_map_right, List.map_map]
  have : log.zip log = log.map (fun p => (p, p)) := by
    induction log with
    | nil => rfl
    | cons p l ih => simp [ih]
  rw [this, List.map_map]
  rfl

theorem range_getD_sum (l : List ℝ) : ((List.range l.length).map (fun b => l.getD b 0)).sum = l.sum := by
  congr 1
  apply List.ext_getElem
  · simp
  · intro i h1 h2
    simp [h2]

/-- The number expected in all bins: the sum of the normalisations, when every distribution has integral 1. -/
theorem total_norms {log : List (BinnedED ℝ × NormStatus)} (ps : ParamDict ℝ) {N : Nat}
    (h : ∀ p ∈ log, p.1.hist.nBins = N ∧ p.1.hist.contents.length = N ∧ p.1.hist.integral = 1) :
    ((List.range N).map (rateAt log ps)).sum = (log.map (normOf (fun n => (SMap.find ps n).getD 0))).sum := by
  have e : rateAt log ps = fun b => (log.map (fun p => normOf (fun n => (SMap.find ps n).getD 0) p * p.1.hist.contents.getD b 0)).sum := by
    funext b; exact rateAt_eq log ps b
  rw [e]
  clear e
  induction log with
  | nil => simp
  | cons p l ih =>
    simp only [List.map_cons, List.sum_cons]
    rw [List.sum_map_add, ih (fun q hq => h q (by simp [hq]))]
    congr 1
    obtain ⟨h1, h2, h3⟩ := h p (by simp)
    have : p.1.hist.contents.sum = 1 := by
      rw [← h3]
      unfold Histogram.integral
      rw [List.take_of_length_le (by rw [h2, h1]), List.sum_eq_foldl]
    rw [List.sum_map_mul_left, ← h2, range_getD_sum, this, mul_one]

/-- C104 (partial): when moreover every distribution has integral 1 (and the observables and axes of the first), the value is the extended
unbinned one of the probabilities the distributions' manager reports for the events: the sum of the normalisations minus the sum over the passing
entries of the logarithm of the probability, plus the constraint term. Missing: as in `C104_events_partial`. -/
theorem C104_unbinned_partial {name : Nat → String} {C : FitSys σ ℝ} {objs : Nat → σ} {log : List (BinnedED ℝ × NormStatus)} {cons : ConstraintManager ℝ}
    {ps : ParamDict ℝ} {cuts : List (Cut ℝ)} {d : DataSet ℝ} {first : BinnedED ℝ} {as : List (BinAxis ℝ)} {c : ℝ} (h : CanFitData log first as cuts d)
    (hp : FitPoint log cons first ps c)
    (hu : ∀ p ∈ log, p.1.obs = first.obs ∧ p.1.hist.axes = first.hist.axes ∧ p.1.hist.integral = 1) :
    ∃ (L L' : NLLH σ ℝ) (prob : Event ℝ → ℝ), NLLH.configuredData name C objs log cons ps cuts d = .ok L ∧
      (∀ e ∈ d.passing cuts, ∃ m, L.pdfs.probability e = .ok (prob e, m)) ∧
      L.evaluate C CMath.real = .ok (some ((log.map (normOf (fun n => (SMap.find ps n).getD 0))).sum -
        ((d.passing cuts).map (fun e => Real.log (prob e))).sum + c), L') := by
  obtain ⟨K, k1, hK⟩ := NLLH.configuredData_unbinned (name := name) (C := C) (objs := objs) (cons := cons) (cuts := cuts) (d := d) h.distinct hp.nonempty hp.all
  obtain ⟨L', _, e, _⟩ := hK.evaluate h hp C
  have hS := hK.simple first
  refine ⟨K, L', fun e => rateAt log ps (first.binOf e), k1, ?_, ?_⟩
  · intro ev hev
    obtain ⟨hb1, hb2⟩ := h.fits.binOf (DataSet.mem_passing h.ready hev)
    have hw : K.pdfs.work = log.map (·.1) := hS.work
    obtain ⟨m, hm⟩ := C27_event_rate_partial hS.built h.distinct h.order ev (fun w => w.hist.contents.getD (first.binOf ev) 0) (by
      intro w hw'
      have hw'' : w ∈ log.map (·.1) := by rw [← hw]; exact hw'
      obtain ⟨p, hp', rfl⟩ := List.mem_map.1 hw''
      obtain ⟨u1, u2, u3⟩ := hu p hp'
      obtain ⟨v1, v2, v3⟩ := h.same p hp'
      unfold BinnedED.probabilityEvent
      rw [u1]
      obtain ⟨vs, t1, t2⟩ := Res.bind_eq_ok.1 hb2
      rw [t1, Res.ok_bind]
      unfold BinnedED.probability
      have t3 : p.1.hist.findBin vs = .ok (first.binOf ev) := by
        unfold Histogram.findBin at t2 ⊢
        rw [u2]; exact t2
      rw [t3, Res.ok_bind, u3]
      unfold Histogram.getBinContent
      rw [if_neg (by rw [v2]; omega), idx_of_lt (by rw [v3]; exact hb1)]
      simp [v3, hb1]) (fun n => (SMap.find ps n).getD 0) (by
      intro n hn
      obtain ⟨v, e1, e2⟩ := hK.params n hn
      rw [e1]; exact e2)
    refine ⟨m, ?_⟩
    have hm' : K.pdfs.probability ev = _ := hm
    rw [hm']
    simp only [hw]
    rfl
  · rw [e]
    unfold extendedNLL
    rw [total_norms ps (fun p hp' => ⟨(h.same p hp').2.1, (h.same p hp').2.2, (hu p hp').2.2⟩)]

/-- C104 (partial): the order of the entries does not matter. Missing: as in `C104_events_partial`. -/
theorem C104_order_partial {name name' : Nat → String} {C : FitSys σ ℝ} {objs objs' : Nat → σ} {log : List (BinnedED ℝ × NormStatus)} {cons : ConstraintManager ℝ}
    {ps : ParamDict ℝ} {cuts : List (Cut ℝ)} {d d' : DataSet ℝ} {first : BinnedED ℝ} {as : List (BinAxis ℝ)} {c : ℝ} (h : CanFitData log first as cuts d)
    (hp : FitPoint log cons first ps c) (hn : d'.names = d.names) (ho : d'.nObs = d.nObs) (hperm : d'.data.Perm d.data) :
    ∃ v L L' K K', NLLH.configuredData name C objs log cons ps cuts d = .ok L ∧ L.evaluate C CMath.real = .ok (some v, L') ∧
      NLLH.configuredData name' C objs' log cons ps cuts d' = .ok K ∧ K.evaluate C CMath.real = .ok (some v, K') := by
  have h' : CanFitData log first as cuts d' := by
    refine ⟨h.distinct, h.order, h.same, by rw [hn]; exact h.fits, ⟨?_, by rw [hn]; exact h.ready.nodup, ?_, by rw [hn]; exact h.ready.cutObs, by simp⟩, ?_, h.head⟩
    · refine ⟨fun r hr => ?_, ?_⟩
      · rw [ho]; exact h.ready.wf.1 r (hperm.mem_iff.1 hr)
      · rw [ho, ← h.ready.wf.2]
        exact not_congr ⟨fun h0 => List.nil_perm.1 (h0 ▸ hperm), fun h0 => List.perm_nil.1 (h0 ▸ hperm)⟩
    · intro hne
      rw [hn, ho]
      exact h.ready.len (fun h0 => hne (by rw [h0] at hperm; exact List.perm_nil.1 hperm))
    · show d'.data.length < _
      rw [hperm.length_eq]; exact h.small
  obtain ⟨L, L', e1, e2⟩ := C104_events_partial (name := name) (C := C) (objs := objs) h hp
  obtain ⟨K, K', e3, e4⟩ := C104_events_partial (name := name') (C := C) (objs := objs') h' hp
  refine ⟨_, L, L', K, K', e1, e2, e3, ?_⟩
  rw [e4]
  have hpass : (d'.passing cuts).Perm (d.passing cuts) := by
    unfold DataSet.passing
    rw [hn]
    exact (hperm.map _).filter _
  unfold extendedNLL
  rw [(hpass.map _).sum_eq]

/-- C104 (partial): the entries of two data sets together (`a + b`): up to the total expected number and the constraint term, which count once,
the value is the sum of the two. Missing: as in `C104_events_partial`. -/
theorem C104_concat_partial {name : Nat → String} {C : FitSys σ ℝ} {objs : Nat → σ} {log : List (BinnedED ℝ × NormStatus)} {cons : ConstraintManager ℝ}
    {ps : ParamDict ℝ} {cuts : List (Cut ℝ)} {a b : DataSet ℝ} {first : BinnedED ℝ} {as : List (BinAxis ℝ)} {c : ℝ} (ha : CanFitData log first as cuts a)
    (hb : CanFitData log first as cuts b) (hp : FitPoint log cons first ps c) (hn : b.names = a.names) (hs : a.getNEntries + b.getNEntries < 2 ^ 31) :
    ∃ r a' va vb La La' Lb Lb' L L', a.plus b = .ok (r, a') ∧
      NLLH.configuredData name C objs log cons ps cuts a = .ok La ∧ La.evaluate C CMath.real = .ok (some va, La') ∧
      NLLH.configuredData name C objs log cons ps cuts b = .ok Lb ∧ Lb.evaluate C CMath.real = .ok (some vb, Lb') ∧
      NLLH.configuredData name C objs log cons ps cuts r = .ok L ∧
      L.evaluate C CMath.real = .ok (some (va + vb - (((List.range first.hist.nBins).map (rateAt log ps)).sum + c)), L') := by
  have hlenA : ∀ r ∈ a.data, r.length = a.names.length := fun r hr => by
    rw [ha.ready.len (List.ne_nil_of_mem hr)]; exact ha.ready.wf.1 r hr
  have hlenB : ∀ r ∈ b.data, r.length = a.names.length := fun r hr => by
    rw [← hn, hb.ready.len (List.ne_nil_of_mem hr)]; exact hb.ready.wf.1 r hr
  obtain ⟨r, a', p1, p2, p3, p4⟩ := C43_concat_partial a b ha.ready.wf hb.ready.wf (by
    by_cases h1 : a.data = []
    · exact .inl (by by_contra h0; exact (ha.ready.wf.2.2 h0) h1)
    · by_cases h2 : b.data = []
      · exact .inr (.inl h2)
      · exact .inr (.inr (by rw [← ha.ready.len h1, ← hb.ready.len h2, hn])))
  have hr : CanFitData log first as cuts r := by
    refine ⟨ha.distinct, ha.order, ha.same, by rw [p4]; exact ha.fits, ⟨p2, by rw [p4]; exact ha.ready.nodup, ?_, by rw [p4]; exact ha.ready.cutObs, by simp⟩, ?_, ha.head⟩
    · intro hne
      obtain ⟨x, hx⟩ := List.exists_mem_of_ne_nil _ hne
      rw [← p2.1 x hx, p4]
      rw [p3] at hx
      rcases List.mem_append.1 hx with hx | hx
      · exact (hlenA x hx).symm
      · exact (hlenB x hx).symm
    · show r.data.length < _
      rw [p3, List.length_append]; exact hs
  obtain ⟨La, La', e1, e2⟩ := C104_events_partial (name := name) (C := C) (objs := objs) ha hp
  obtain ⟨Lb, Lb', e3, e4⟩ := C104_events_partial (name := name) (C := C) (objs := objs) hb hp
  obtain ⟨L, L', e5, e6⟩ := C104_events_partial (name := name) (C := C) (objs := objs) hr hp
  refine ⟨r, a', _, _, La, La', Lb, Lb', L, L', p1, e1, e2, e3, e4, e5, ?_⟩
  rw [e6]
  have : r.passing cuts = a.passing cuts ++ b.passing cuts := by
    unfold DataSet.passing
    rw [p3, p4, hn, List.map_append, List.filter_append]
  rw [this]
  unfold extendedNLL
  rw [List.map_append, List.sum_append]
  congr 3
  ring

/-! ### A signal and a background on two bins, three entries and a cut -/

noncomputable def exEntries (l : List (List ℝ)) : DataSet ℝ := ⟨l, ["q", "x"], 2⟩

theorem exTwo_fits : (exRealPdf "s" (1/2) (1/2)).Fits [exRealAxis] ["q", "x"] where
  valid := exRealPdf_valid _ _ _
  contig := by
    intro a ha
    rw [List.mem_singleton] at ha
    subst ha
    exact exRealAxis_contiguous
  obs := ⟨rfl, by intro n hn; simp [exRealPdf, ObsSet.ofNames] at hn; simp [hn]⟩

theorem exTwo_data (cuts : List (Cut ℝ)) (hc : ∀ c ∈ cuts, c.observable ∈ (["q", "x"] : List String)) (l : List (List ℝ)) (hl : ∀ r ∈ l, r.length = 2)
    (hne : l ≠ []) (hs : l.length < 2 ^ 31) : CanFitData exTwo (exRealPdf "s" (1/2) (1/2)) [exRealAxis] cuts (exEntries l) where
  distinct := (exTwo_canFit 0 0).distinct
  order := (exTwo_canFit 0 0).order
  same := (exTwo_canFit (1/2) (1/2)).obs
  fits := exTwo_fits
  ready := ⟨⟨hl, by simp [exEntries, hne]⟩, by show (["q", "x"] : List String).Nodup; decide, fun _ => rfl, hc, by simp⟩
  small := hs
  head := rfl

theorem exTwo_at : FitPoint exTwo .empty (exRealPdf "s" (1/2) (1/2)) [("b", 3), ("s", 2)] 0 := by
  have := exTwo_point (1/2) (1/2) (by norm_num : (0:ℝ) < 3) (by norm_num : (0:ℝ) < 2)
  exact ⟨this.nonempty, this.sorted, this.all, this.positive, this.constraint⟩

/-- Two entries in the same bin; the second has `q = 5`. -/
theorem exTwo_passing : (exEntries [[0, 1/2], [5, 1/2]]).passing [.line "c" "q" 1 "upper"] = [⟨[0, 1/2], some ["q", "x"]⟩] ∧
    (exEntries [[0, 1/2], [5, 1/2]]).passing [] = [⟨[0, 1/2], some ["q", "x"]⟩, ⟨[5, 1/2], some ["q", "x"]⟩] := by
  have e : ∀ u v : ℝ, (Cut.line "c" "q" (1 : ℝ) "upper").passesCut ⟨[u, v], some ["q", "x"]⟩ = .ok (decide (u < 1)) := fun u v => rfl
  constructor
  · unfold DataSet.passing exEntries
    simp only [List.map_cons, List.map_nil, List.all_cons, List.all_nil, Bool.and_true]
    rw [List.filter_cons_of_pos (by simp [e]), List.filter_cons_of_neg (by simp [e])]
    rfl
  · simp [DataSet.passing, exEntries]

/-- C104 is false of cuts added after an evaluation: the data stays binned as it was, so they change nothing until the data is set again, although
the likelihood says it has them. Two entries, one of which fails the cut. -/
theorem C104_late_cut_wrong (name : Nat → String) (C : FitSys σ ℝ) (objs : Nat → σ) :
    ∃ (log : List (BinnedED ℝ × NormStatus)) (ps : ParamDict ℝ) (d : DataSet ℝ) (cut : Cut ℝ) (L L' L'' K K' : NLLH σ ℝ) (v w : ℝ),
      NLLH.configuredData name C objs log .empty ps [] d = .ok L ∧ L.evaluate C CMath.real = .ok (some v, L') ∧
      (L'.addCut cut).getCuts = [cut] ∧ (L'.addCut cut).evaluate C CMath.real = .ok (some v, L'') ∧
      NLLH.configuredData name C objs log .empty ps [cut] d = .ok K ∧ K.evaluate C CMath.real = .ok (some w, K') ∧ v ≠ w := by
  have h0 := exTwo_data [] (by simp) [[0, 1/2], [5, 1/2]] (by simp) (by simp) (by norm_num)
  have h1 := exTwo_data [.line "c" "q" 1 "upper"] (by simp [Cut.observable]) [[0, 1/2], [5, 1/2]] (by simp) (by simp) (by norm_num)
  obtain ⟨L, v, L', L'', e1, e2, e3, e4⟩ := late_cuts (name := name) (C := C) (objs := objs) h0 exTwo_at [.line "c" "q" 1 "upper"]
  obtain ⟨L₁, L₁', e5, e6⟩ := C104_events_partial (name := name) (C := C) (objs := objs) h0 exTwo_at
  obtain ⟨K, K', e7, e8⟩ := C104_events_partial (name := name) (C := C) (objs := objs) h1 exTwo_at
  rw [e1] at e5
  cases e5
  rw [e2] at e6
  have hv := Option.some.inj (Prod.mk.inj (Res.ok.inj e6)).1
  refine ⟨exTwo, [("b", 3), ("s", 2)], exEntries [[0, 1/2], [5, 1/2]], .line "c" "q" 1 "upper", L, L', L'', K, K', v, _, e1, e2, e3, e4, e7, e8, ?_⟩
  rw [hv, exTwo_passing.1, exTwo_passing.2]
  unfold extendedNLL
  simp only [List.map_cons, List.map_nil, List.sum_cons, List.sum_nil]
  have key : 0 < Real.log (rateAt exTwo [("b", 3), ("s", 2)] ((exRealPdf "s" (1/2) (1/2)).binOf ⟨[5, 1/2], some ["q", "x"]⟩)) := by
    have hb := (exTwo_fits.binOf (ev := ⟨[5, 1/2], some ["q", "x"]⟩) ⟨by decide, rfl, rfl⟩).1
    have hb2 : (exRealPdf "s" (1/2) (1/2)).binOf ⟨[5, 1/2], some ["q", "x"]⟩ < 2 := hb
    have hor : ∀ n, n < 2 → n = 0 ∨ n = 1 := by omega
    apply Real.log_pos
    rcases hor _ hb2 with h | h
    · rw [h, (exTwo_rate 3 2).1]; norm_num
    · rw [h, (exTwo_rate 3 2).2]; norm_num
  intro h
  linarith

-- two entries, one failing the cut: the value is the extended likelihood of the other
example (C : FitSys σ ℝ) (objs : Nat → σ) : ∃ L L', NLLH.configuredData exSysName C objs exTwo .empty [("b", 3), ("s", 2)] [.line "c" "q" 1 "upper"]
    (exEntries [[0, 1/2], [5, 1/2]]) = .ok L ∧
    L.evaluate C CMath.real = .ok (some (5 - Real.log (7/4)), L') := by
  have h1 := exTwo_data [.line "c" "q" 1 "upper"] (by simp [Cut.observable]) [[0, 1/2], [5, 1/2]] (by simp) (by simp) (by norm_num)
  obtain ⟨L, L', e1, e2⟩ := C104_events_partial (name := exSysName) (C := C) (objs := objs) h1 exTwo_at
  refine ⟨L, L', e1, ?_⟩
  rw [e2, exTwo_passing.1]
  have hb : (exRealPdf "s" (1/2) (1/2)).binOf ⟨[0, 1/2], some ["q", "x"]⟩ = 0 := by
    have hb1 := (exTwo_fits.binOf (ev := ⟨[0, 1/2], some ["q", "x"]⟩) ⟨by decide, rfl, rfl⟩).2
    have e : ((⟨[0, 1/2], some ["q", "x"]⟩ : Event ℝ).toObsSet (exRealPdf "s" (1/2) (1/2)).obs) = .ok [1/2] := rfl
    rw [e, Res.ok_bind] at hb1
    have hf : exRealAxis.findBin (1/2) = 0 :=
      (C03_findBin_centre exRealAxis exRealAxis_contiguous 0 0 1 ⟨rfl, rfl⟩ (by norm_num)).2 _ rfl
    have hl : (exRealPdf "s" (1/2) (1/2)).hist.findBin [1/2] = .ok (exRealAxis.findBin (1/2)) := rfl
    rw [hl, hf] at hb1
    exact (Res.ok.inj hb1).symm
  unfold extendedNLL
  have hr : List.range (exRealPdf "s" (1/2) (1/2)).hist.nBins = [0, 1] := rfl
  rw [hr]
  simp only [List.map_cons, List.map_nil, List.sum_cons, List.sum_nil, hb, (exTwo_rate 3 2).1, (exTwo_rate 3 2).2]
  congr 3
  norm_num

-- the hypotheses of `C104_unbinned_partial`, `C104_order_partial`, `C104_concat_partial`, `C104_again_partial` and `C104_cut_log` on the same fit
example (C : FitSys σ ℝ) (objs : Nat → σ) : ∃ (L L' : NLLH σ ℝ) (prob : Event ℝ → ℝ),
    NLLH.configuredData exSysName C objs exTwo .empty [("b", 3), ("s", 2)] [.line "c" "q" 1 "upper"] (exEntries [[0, 1/2], [5, 1/2]]) = .ok L ∧
    (∃ m, L.pdfs.probability ⟨[0, 1/2], some ["q", "x"]⟩ = .ok (prob ⟨[0, 1/2], some ["q", "x"]⟩, m)) ∧
    L.evaluate C CMath.real = .ok (some (5 - Real.log (prob ⟨[0, 1/2], some ["q", "x"]⟩)), L') := by
  have h1 := exTwo_data [.line "c" "q" 1 "upper"] (by simp [Cut.observable]) [[0, 1/2], [5, 1/2]] (by simp) (by simp) (by norm_num)
  obtain ⟨L, L', prob, e1, e2, e3⟩ := C104_unbinned_partial (name := exSysName) (C := C) (objs := objs) h1 exTwo_at (by
    intro p hp
    simp only [exTwo, List.mem_cons, List.not_mem_nil, or_false] at hp
    rcases hp with rfl | rfl
    · exact ⟨rfl, rfl, by simp [exRealPdf, Histogram.integral]; norm_num⟩
    · exact ⟨rfl, rfl, by simp [exRealPdf, Histogram.integral]; norm_num⟩)
  rw [exTwo_passing.1] at e2 e3
  refine ⟨L, L', prob, e1, e2 _ (by simp), ?_⟩
  rw [e3]
  simp [exTwo, normOf, NormStatus.fittable, SMap.find, exRealPdf, show ("b" : String) ≠ "s" by decide]
  norm_num

example (C : FitSys σ ℝ) (objs : Nat → σ) : ∃ v L L' K K',
    NLLH.configuredData exSysName C objs exTwo .empty [("b", 3), ("s", 2)] [.line "c" "q" 1 "upper"] (exEntries [[0, 1/2], [5, 1/2]]) = .ok L ∧
    L.evaluate C CMath.real = .ok (some v, L') ∧
    NLLH.configuredData exSysName C objs exTwo .empty [("b", 3), ("s", 2)] [.line "c" "q" 1 "upper"] (exEntries [[5, 1/2], [0, 1/2]]) = .ok K ∧
    K.evaluate C CMath.real = .ok (some v, K') := by
  have h1 := exTwo_data [.line "c" "q" 1 "upper"] (by simp [Cut.observable]) [[0, 1/2], [5, 1/2]] (by simp) (by simp) (by norm_num)
  exact C104_order_partial h1 exTwo_at rfl rfl (List.Perm.swap _ _ _)

example (C : FitSys σ ℝ) (objs : Nat → σ) : ∃ L v L' lg,
    NLLH.configuredData exSysName C objs exTwo .empty [("b", 3), ("s", 2)] [.line "c" "q" 1 "upper"] (exEntries [[0, 1/2], [5, 1/2]]) = .ok L ∧
    L.evaluateLog C CMath.real (.ofNames []) = .ok (v, L', lg) ∧ lg.nEvents = 2 ∧ lg.names = ["c"] := by
  have h1 := exTwo_data [.line "c" "q" 1 "upper"] (by simp [Cut.observable]) [[0, 1/2], [5, 1/2]] (by simp) (by simp) (by norm_num)
  obtain ⟨L, v, L', lg, e1, e2, _, e3, e4, _⟩ := C104_cut_log (name := exSysName) (C := C) (objs := objs) h1 exTwo_at (.ofNames [])
  exact ⟨L, v, L', lg, e1, e2, e3, e4⟩

example (C : FitSys σ ℝ) (objs : Nat → σ) : ∃ (L L' L'' : NLLH σ ℝ) (v w : ℝ),
    NLLH.configuredData exSysName C objs exTwo .empty [("b", 3), ("s", 2)] [] (exEntries [[7, 3/2]]) = .ok L ∧ L.evaluate C CMath.real = .ok (some v, L') ∧
    ((((L'.addCut (.line "c" "q" 1 "upper")).setDataSet (some (exEntries [[0, 1/2], [5, 1/2]]))).setParameters C [("b", 3), ("s", 2)]).1.evaluate C
      CMath.real = .ok (some w, L'')) := by
  have h0 := exTwo_data [] (by simp) [[7, 3/2]] (by simp) (by simp) (by norm_num)
  have h1 := exTwo_data [.line "c" "q" 1 "upper"] (by simp [Cut.observable]) [[0, 1/2], [5, 1/2]] (by simp) (by simp) (by norm_num)
  obtain ⟨L, v, L', L'', e1, e2, _, e3⟩ := C104_again_partial (name := exSysName) (C := C) (objs := objs) (more := [.line "c" "q" 1 "upper"]) h0 exTwo_at h1 exTwo_at
  exact ⟨L, L', L'', v, _, e1, e2, e3⟩

example (C : FitSys σ ℝ) (objs : Nat → σ) : ∃ r a' v L L', (exEntries [[7, 3/2]]).plus (exEntries [[0, 1/2], [5, 1/2]]) = .ok (r, a') ∧
    NLLH.configuredData exSysName C objs exTwo .empty [("b", 3), ("s", 2)] [] r = .ok L ∧ L.evaluate C CMath.real = .ok (some v, L') := by
  have h0 := exTwo_data [] (by simp) [[7, 3/2]] (by simp) (by simp) (by norm_num)
  have h1 := exTwo_data [] (by simp) [[0, 1/2], [5, 1/2]] (by simp) (by simp) (by norm_num)
  obtain ⟨r, a', va, vb, La, La', Lb, Lb', L, L', e, _, _, _, _, e1, e2⟩ := C104_concat_partial (name := exSysName) (C := C) (objs := objs) h0 h1 exTwo_at rfl
    (by show 1 + 2 < 2 ^ 31; norm_num)
  exact ⟨r, a', _, L, L', e, e1, e2⟩

end Oxsx
