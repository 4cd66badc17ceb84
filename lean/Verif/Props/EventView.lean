import Verif.Props.Marginal
import Verif.Props.Slice
import Verif.Props.Filling
import Verif.Model.BinnedEDOps
set_option linter.unusedSectionVars false
set_option linter.unusedSimpArgs false
set_option linter.unusedVariables false
/-
C96: filling and projecting commute. A distribution filled from events and then marginalised is the one filled on the smaller set of axes to begin with.
-/
namespace Oxsx
variable {α : Type} [Field α] [LinearOrder α] [IsStrictOrderedRing α]
open AxisCollection Histogram

/-- `vs'` are the entries of `vs` at the positions of the names `names` among `axNames`. -/
def ValuesAlong (axNames : List String) (vs : List α) (names : List String) (vs' : List α) : Prop :=
  List.Forall₂ (fun v n => ∃ i : Nat, axNames[i]? = some n ∧ vs[i]? = some v) vs' names

theorem Holds.unique {c d : AxisCollection α} {as : List (BinAxis α)} (hc : Holds c as) (hd : Holds d as) : c = d := by
  obtain ⟨a1, a2, a3, a4, a5, _⟩ := hc
  obtain ⟨b1, b2, b3, b4, b5, _⟩ := hd
  cases c; cases d
  simp only at *
  subst a1 a2 a3 a4 a5
  simp_all

theorem axes_by_name {as ks ks' : List (BinAxis α)} (hnd : (as.map (·.name)).Nodup) (h : ∀ k ∈ ks, k ∈ as) (h' : ∀ k ∈ ks', k ∈ as)
    (hn : ks.map (·.name) = ks'.map (·.name)) : ks = ks' := by
  induction ks generalizing ks' with
  | nil => cases ks' with
    | nil => rfl
    | cons _ _ => simp at hn
  | cons k ks ih =>
    cases ks' with
    | nil => simp at hn
    | cons k' ks' =>
      simp only [List.map_cons, List.cons.injEq] at hn
      have e : k = k' := List.inj_on_of_nodup_map hnd (h k (by simp)) (h' k' (by simp)) hn.1
      rw [e, ih (fun q hq => h q (by simp [hq])) (fun q hq => h' q (by simp [hq])) hn.2]

theorem Valid.ext {h h' : Histogram α} {as : List (BinAxis α)} (hv : h.Valid as) (hv' : h'.Valid as)
    (hc : ∀ b, b < h.nBins → h.getBinContent b = h'.getBinContent b) : h = h' := by
  have e1 := Holds.unique hv.axes hv'.axes
  have e2 : h.nBins = h'.nBins := by rw [hv.nb, hv'.nb]
  have e3 : h.nDims = h'.nDims := by rw [hv.nd, hv'.nd]
  have e4 : h.contents = h'.contents := by
    apply List.ext_getElem (by rw [hv.len, hv'.len])
    intro i h1 h2
    have hb : i < h.nBins := by rw [hv.nb, ← hv.len]; exact h1
    have := hc i hb
    rw [hv.get hb, hv'.get (by rw [← e2]; exact hb)] at this
    have := Res.ok.inj this
    simpa [List.getD_eq_getElem?_getD, List.getElem?_eq_getElem h1, List.getElem?_eq_getElem h2] using this
  cases h; cases h'
  simp_all

theorem sum_filter_bump (l : List Nat) (hl : l.Nodup) (P : Nat → Bool) (f g : Nat → α) (b₀ : Nat) (w : α) (hb : b₀ ∈ l)
    (h0 : f b₀ = g b₀ + w) (h1 : ∀ b ∈ l, b ≠ b₀ → f b = g b) :
    ((l.filter P).map f).sum = ((l.filter P).map g).sum + (if P b₀ then w else 0) := by
  induction l with
  | nil => simp at hb
  | cons a l ih =>
    obtain ⟨ha, hl⟩ := List.nodup_cons.1 hl
    by_cases e : a = b₀
    · subst e
      have : (l.filter P).map f = (l.filter P).map g := by
        apply List.map_congr_left
        intro b hb
        have hb := (List.mem_filter.1 hb).1
        exact h1 b (by simp [hb]) (fun e => ha (e ▸ hb))
      by_cases hp : P a
      · simp only [List.filter_cons, hp, if_true, List.map_cons, List.sum_cons, this, h0]; ring
      · simp [List.filter_cons, hp, this]
    · have hb' : b₀ ∈ l := by
        rcases List.mem_cons.1 hb with h | h
        · exact absurd h.symm e
        · exact h
      have ih := ih hl hb' (fun b hb => h1 b (by simp [hb]))
      have ea := h1 a (by simp) e
      by_cases hp : P a
      · simp only [List.filter_cons, hp, if_true, List.map_cons, List.sum_cons, ih, ea]; ring
      · simpa [List.filter_cons, hp] using ih

theorem Valid.content_eq {h : Histogram α} {as : List (BinAxis α)} (hv : h.Valid as) {b : Nat} {x : α} (hx : h.getBinContent b = .ok x) : h.content b = x := by
  unfold content; rw [hx]

theorem zipWith_pick {as : List (BinAxis α)} {vs : List α} {ps : List (Nat × BinAxis α)} (hp : ∀ p ∈ ps, as[p.1]? = some p.2)
    (hnd : (as.map (·.name)).Nodup) {vs' : List α} (hv : ValuesAlong (as.map (·.name)) vs (ps.map (fun p => p.2.name)) vs') :
    ps.map (fun p => (List.zipWith BinAxis.findBin as vs).getD p.1 0) = List.zipWith BinAxis.findBin (ps.map (·.2)) vs' := by
  induction ps generalizing vs' with
  | nil => simp
  | cons p ps ih =>
    cases hv with
    | @cons v _ vs' _ h1 h2 =>
      rw [List.map_cons, List.map_cons, List.zipWith_cons_cons, ih (fun q hq => hp q (by simp [hq])) h2]
      congr 1
      obtain ⟨i, e1, e2⟩ := h1
      have hpi := hp p (by simp)
      have e3 : (as.map (·.name))[p.1]? = some p.2.name := by simp [hpi]
      have : i = p.1 := by
        have l1 := (List.getElem?_eq_some_iff.1 e1).1
        have := List.Nodup.getElem_inj_iff hnd (i := i) (j := p.1) (hi := l1) (hj := (List.getElem?_eq_some_iff.1 e3).1)
        apply this.1
        rw [(List.getElem?_eq_some_iff.1 e1).2, (List.getElem?_eq_some_iff.1 e3).2]
      subst this
      simp [List.getD_eq_getElem?_getD, List.getElem?_zipWith, hpi, e2]

/-- Filling and then marginalising a histogram is marginalising it and filling the values along the axes kept. -/
theorem marginalise_fill {as : List (BinAxis α)} {h : Histogram α} (hv : h.Valid as) (hc : ∀ a ∈ as, a.Contiguous)
    {names : List String} (hne : names ≠ []) (hk : ∀ n ∈ names, n ∈ as.map (·.name)) (hnd : names.Nodup) {vs vs' : List α}
    (hl : vs.length = as.length) (hvs : ValuesAlong (as.map (·.name)) vs names vs') (w : α) :
    ∃ h' m m', h.fill vs w = .ok h' ∧ h.marginalise names = .ok m ∧ m.fill vs' w = .ok m' ∧ h'.marginalise names = .ok m' ∧ h'.Valid as := by
  have hpos : ∀ a ∈ as, 0 < a.nBins := fun a ha => (hc a ha).pos
  obtain ⟨b₀, hb0, hblt, hfill⟩ := hv.fill hc hl w
  have hv1 : ({ h with contents := addAt h.contents b₀ w } : Histogram α).Valid as := by
    refine hv.withContents ?_
    simp [addAt]
  obtain ⟨_, h2⟩ := C07_fill_one as h hv hc vs w
  obtain ⟨h1, b1, x, e1, e2, _, e4, e5, e6, e7, e8⟩ := h2 hl
  rw [hfill] at e1
  have e1 := Res.ok.inj e1
  subst e1
  have : b1 = b₀ := by
    have : h.findBin vs = .ok b₀ := hb0
    rw [this] at e2; exact (Res.ok.inj e2).symm
  subst this
  obtain ⟨m, hm, hmn, _, hmc, _, ks, hks, hksn, hksa⟩ := C09_marginalise as h hv hpos names hne hk hnd
  obtain ⟨m1, hm1, hm1n, _, hm1c, _, ks1, hks1, hks1n, hks1a⟩ := C09_marginalise as _ hv1 hpos names hne hk hnd
  have ek : ks1 = ks := axes_by_name hv.axes.nodup hks1a hksa (by rw [hks1n, hksn])
  subst ek
  have hkc : ∀ a ∈ ks1, a.Contiguous := fun a ha => hc a (hksa a ha)
  have hl' : vs'.length = ks1.length := by
    have := List.Forall₂.length_eq hvs
    rw [this, ← hksn, List.length_map]
  obtain ⟨_, h3⟩ := C07_fill_one ks1 m hks hkc vs' w
  obtain ⟨m', b', y, g1, g2, g3, g4, g5, g6, g7, g8⟩ := h3 hl'
  obtain ⟨b'', hb'', _, hfill'⟩ := hks.fill hkc hl' w
  have hvm' : m'.Valid ks1 := by
    rw [hfill'] at g1
    rw [← Res.ok.inj g1]
    exact hks.withContents (by simp [addAt])
  refine ⟨_, m, m', hfill, hm, g1, ?_, hv1⟩
  rw [hm1]
  congr 1
  refine Valid.ext hks1 hvm' ?_
  intro b hb
  have hbm : b < m.nBins := by rw [hks.nb, ← hks1.nb]; exact hb
  rw [hm1c b hb]
  have eax : m1.axes = m.axes := Holds.unique hks1.axes hks.axes
  have hal : ∀ c, Histogram.indicesAlong ({ h with contents := addAt h.contents b1 w } : Histogram α) names c = h.indicesAlong names c := fun c => rfl
  simp only [hal, eax]
  have hnb : ({ h with contents := addAt h.contents b1 w } : Histogram α).nBins = h.nBins := rfl
  rw [hnb]
  rw [sum_filter_bump (List.range h.nBins) List.nodup_range (fun c => decide (h.indicesAlong names c = m.axes.unpackIndices b)) _ h.content b1 w
    (List.mem_range.2 hblt) (by rw [Valid.content_eq hv1 e5, Valid.content_eq hv e4]) (by
      intro c hc' hne'
      have hcl := List.mem_range.1 hc'
      have := e8 c hne' hcl
      unfold content
      rw [this])]
  have hold := hmc b hbm
  -- where the event lies
  have key : h.indicesAlong names b1 = m.axes.unpackIndices b ↔ b = b' := by
    obtain ⟨ps, hps, hpp⟩ := exists_named as names hk
    subst hps
    have hksp : ks1 = ps.map (·.2) := axes_by_name hv.axes.nodup hksa (by
      intro k hk
      obtain ⟨p, hp, rfl⟩ := List.mem_map.1 hk
      exact List.mem_of_getElem? (hpp p hp)) (by rw [hksn]; simp)
    have hb1 : b1 = rowMajor (shape as) (List.zipWith BinAxis.findBin as vs) := by
      have := hv.axes.findBin hv.ne hl
      rw [hb0] at this; exact Res.ok.inj this
    have hb2 : b' = rowMajor (shape ks1) (List.zipWith BinAxis.findBin ks1 vs') := by
      have := hks.axes.findBin hks.ne hl'
      have g2' : m.axes.findBin vs' = .ok b' := g2
      rw [g2'] at this; exact Res.ok.inj this
    have hin := findBins_inRange hc hl
    have hin' := findBins_inRange hkc hl'
    have hia : h.indicesAlong (ps.map (fun p => p.2.name)) b1 = .ok (List.zipWith BinAxis.findBin ks1 vs') := by
      unfold Histogram.indicesAlong
      rw [Res.traverse_map]
      have : Res.traverse (fun p : Nat × BinAxis α => (do
          let k ← h.axes.getAxisIndex p.2.name
          h.axes.unflattenIndex b1 k)) ps = .ok (ps.map (fun p => (List.zipWith BinAxis.findBin as vs).getD p.1 0)) := by
        apply Res.traverse_ok
        intro p hp
        have hp' := hpp p hp
        rw [hv.axes.axisIndex hp']
        simp only [Res.ok_bind]
        obtain ⟨dg, d1, d2⟩ := hv.axes.unflatten hv.ne (b := b1) (k := p.1) (by rw [← hv.nb]; exact hblt) (List.getElem?_eq_some_iff.1 hp').1
        rw [d1]
        rw [hb1, digits_rowMajor hin] at d2
        rw [List.getD_eq_getElem?_getD, d2]; rfl
      rw [this, hksp, zipWith_pick hpp hv.axes.nodup hvs]
    rw [hia, hks.axes.unpack hks.ne (by rw [← hks.nb]; exact hbm)]
    constructor
    · intro e
      have e := Res.ok.inj e
      rw [hb2, e, rowMajor_digits (by rw [← hks.nb]; exact hbm)]
    · intro e
      rw [e, hb2, digits_rowMajor hin']
  by_cases hbb : b = b'
  · have hP : decide (h.indicesAlong names b1 = m.axes.unpackIndices b) = true := by simpa using key.2 hbb
    simp only [hP, if_true]
    subst hbb
    rw [g5]
    rw [hold] at g4
    rw [Res.ok.inj g4]
  · have hP : decide (h.indicesAlong names b1 = m.axes.unpackIndices b) = false := by simpa using fun e => hbb (key.1 e)
    simp only [hP, Bool.false_eq_true, if_false, add_zero]
    rw [g8 b hbb hbm, hold]

/-- A distribution whose observables are its axes, over axes an event with these names has values for. -/
structure BinnedED.Matches (d : BinnedED α) (as : List (BinAxis α)) (names : List String) : Prop where
  valid : d.hist.Valid as
  contig : ∀ a ∈ as, a.Contiguous
  obs : d.obs.names = as.map (·.name)
  known : ∀ a ∈ as, a.name ∈ names

theorem BinnedED.Matches.fits {d : BinnedED α} {as : List (BinAxis α)} {names : List String} (h : d.Matches as names) : d.Fits as names :=
  ⟨h.valid, h.contig, by rw [h.obs, List.length_map], by
    intro n hn
    rw [h.obs] at hn
    obtain ⟨a, ha, rfl⟩ := List.mem_map.1 hn
    exact h.known a ha⟩

theorem valuesAlong_of {e : Event α} {axNames names : List String} {vs vs' : List α} (hk : ∀ n ∈ names, n ∈ axNames)
    (h : Res.traverse e.getDatumByName axNames = .ok vs) (h' : Res.traverse e.getDatumByName names = .ok vs') :
    ValuesAlong axNames vs names vs' := by
  unfold ValuesAlong
  induction names generalizing vs' with
  | nil => simp [Res.traverse] at h'; subst h'; exact List.Forall₂.nil
  | cons n ns ih =>
    obtain ⟨v, r, e1, e2, e3⟩ := Res.traverse_cons_eq_ok.1 h'
    subst e3
    refine List.Forall₂.cons ?_ (ih (fun m hm => hk m (by simp [hm])) e2)
    obtain ⟨i, hi⟩ := List.mem_iff_getElem?.1 (hk n (by simp))
    obtain ⟨w, hw1, hw2⟩ := Res.traverse_get h i n hi
    rw [e1] at hw2
    exact ⟨i, hi, by rw [hw1, Res.ok.inj hw2]⟩

theorem project_fill {d : BinnedED α} {as : List (BinAxis α)} {ens names : List String} (h : d.Matches as ens) (hne : names ≠ [])
    (hk : ∀ n ∈ names, n ∈ as.map (·.name)) (hnd : names.Nodup) {ev : Event α} (hev : ev.Complete ens) (w : α) :
    ∃ d' m m', d.fillEvent ev w = .ok d' ∧ d.marginalise names = .ok m ∧ m.fillEvent ev w = .ok m' ∧ d'.marginalise names = .ok m' ∧
      d'.Matches as ens ∧ d'.name = d.name := by
  obtain ⟨vs, h1, h2⟩ := hev.toObsSet (o := d.obs) h.fits.obs.2
  obtain ⟨vs', h3, h4⟩ := hev.toObsSet (o := ObsSet.ofNames names) (by
    intro n hn
    obtain ⟨a, ha, rfl⟩ := List.mem_map.1 (hk n hn)
    exact h.known a ha)
  have hva : ValuesAlong (as.map (·.name)) vs names vs' := by
    refine valuesAlong_of (e := ev) hk ?_ h3
    rw [← h.obs]; exact h1
  obtain ⟨h', m, m', f1, f2, f3, f4, f5⟩ := marginalise_fill h.valid h.contig hne hk hnd (by rw [h2, h.obs, List.length_map]) hva w
  refine ⟨{ d with hist := h' }, ⟨names.foldl (fun s n => s ++ "_" ++ n) d.name ++ "_proj", m, ObsSet.ofNames names⟩,
    ⟨names.foldl (fun s n => s ++ "_" ++ n) d.name ++ "_proj", m', ObsSet.ofNames names⟩, ?_, ?_, ?_, ?_, ⟨f5, h.contig, h.obs, h.known⟩, rfl⟩
  · simp [BinnedED.fillEvent, h1, f1, Res.mapExc]
  · simp [BinnedED.marginalise, f2]
  · simp [BinnedED.fillEvent, h3, f3, Res.mapExc]
  · simp [BinnedED.marginalise, f4]

/-- C96 (one event): for a distribution whose observables are its axes and an event that has them all, adding the event and then marginalising onto
some of the axes gives the distribution — contents, axes, name, observables — that marginalising first and then adding the event gives. -/
theorem C96_event_partial {d : BinnedED α} {as : List (BinAxis α)} {ens names : List String} (h : d.Matches as ens) (hne : names ≠ [])
    (hk : ∀ n ∈ names, n ∈ as.map (·.name)) (hnd : names.Nodup) {ev : Event α} (hev : ev.Complete ens) (w : α) :
    ∃ m, ((d.fillEvent ev w) >>= fun d' => d'.marginalise names) = .ok m ∧ ((d.marginalise names) >>= fun m => m.fillEvent ev w) = .ok m := by
  obtain ⟨d', m, m', f1, f2, f3, f4, _⟩ := project_fill h hne hk hnd hev w
  exact ⟨m', by rw [f1, Res.ok_bind, f4], by rw [f2, Res.ok_bind, f3]⟩

/-- C96 (a data set): filling from a data set with cuts and systematics and then marginalising gives what marginalising the distribution first and
filling the smaller one from the same data set gives. -/
theorem C96_data_partial {d : BinnedED α} {as : List (BinAxis α)} {names : List String} (ds : DataSet α) (cuts : CutCollection α) (ss : List (EventSys α))
    (hd : ds.Ready cuts ss) (h : d.Matches as ds.names) (hne : names ≠ []) (hk : ∀ n ∈ names, n ∈ as.map (·.name)) (hnd : names.Nodup)
    (hsmall : ds.getNEntries < 2 ^ 31) (nEv : Int) (hn : requested ds nEv ≤ ds.getNEntries) :
    ∃ m, (DistFiller.fillDist d ds cuts ss nEv >>= fun d' => d'.marginalise names) = .ok m ∧
      ((d.marginalise names) >>= fun m => DistFiller.fillDist m ds cuts ss nEv) = .ok m := by
  obtain ⟨m₀, f2⟩ : ∃ m, d.marginalise names = .ok m := by
    obtain ⟨m, hm, _⟩ := C09_marginalise as d.hist h.valid (fun a ha => (h.contig a ha).pos) names hne hk hnd
    exact ⟨⟨names.foldl (fun s n => s ++ "_" ++ n) d.name ++ "_proj", m, ObsSet.ofNames names⟩, by simp [BinnedED.marginalise, hm]⟩
  have key : ∀ n, n ≤ ds.getNEntries → ∃ d' m', Res.forFold (fun (p : BinnedED α) i => do
      let e ← ds.getEntry i
      let ev ← EventSys.applyAll ss e
      let b ← cuts.passesCuts ev
      if b then p.fillEvent ev 1 else pure p) d (List.range n) = .ok d' ∧ Res.forFold (fun (p : BinnedED α) i => do
      let e ← ds.getEntry i
      let ev ← EventSys.applyAll ss e
      let b ← cuts.passesCuts ev
      if b then p.fillEvent ev 1 else pure p) m₀ (List.range n) = .ok m' ∧ d'.Matches as ds.names ∧ d'.marginalise names = .ok m' := by
    intro n
    induction n with
    | zero => intro _; exact ⟨d, m₀, rfl, rfl, h, f2⟩
    | succ n ih =>
      intro hn
      obtain ⟨d', m', g1, g2, g3, g4⟩ := ih (by omega)
      obtain ⟨e, ev, h1, h2, h3, h4⟩ := hd.event (show n < ds.getNEntries by omega)
      have h5 := hd.passes h3 h4
      rw [List.range_succ, Res.forFold_append, Res.forFold_append, g1, g2]
      cases hsel : ds.selected cuts ss n with
      | true =>
        obtain ⟨d2, m2, m3, q1, q2, q3, q4, q5, _⟩ := project_fill g3 hne hk hnd h3 1
        rw [g4] at q2
        rw [← Res.ok.inj q2] at q3
        exact ⟨d2, m3, by simp [Res.forFold, Res.bind, h1, h2, h5, hsel, q1], by simp [Res.forFold, Res.bind, h1, h2, h5, hsel, q3], q5, q4⟩
      | false => exact ⟨d', m', by simp [Res.forFold, Res.bind, h1, h2, h5, hsel], by simp [Res.forFold, Res.bind, h1, h2, h5, hsel], g3, g4⟩
  obtain ⟨d2, m2, g1, g2, _, g4⟩ := key _ hn
  rw [← DistFiller.nEvents_eq hsmall nEv] at g1 g2
  exact ⟨m2, by unfold DistFiller.fillDist; rw [g1, Res.ok_bind, g4], by rw [f2, Res.ok_bind]; exact g2⟩

/-- C96 (the bin of an event): `FindBin` of an event with the distribution's observables is the bin `Fill` adds it to, and `Probability` is the share of
that bin. With a number of observables other than the number of axes, `FindBin` and `Fill` throw a RepresentationError. -/
theorem C96_bin {d : BinnedED α} {as : List (BinAxis α)} {ens : List String} (hv : d.hist.Valid as) (hc : ∀ a ∈ as, a.Contiguous)
    (ho : ∀ n ∈ d.obs.names, n ∈ ens) {ev : Event α} (hev : ev.Complete ens) (w : α) :
    (d.obs.names.length = as.length → ∃ b x d', d.findBinEvent ev = .ok b ∧ b < d.hist.nBins ∧ d.getBinContent b = .ok x ∧
      d.probabilityEvent ev = .ok (x / d.integral) ∧ d.fillEvent ev w = .ok d' ∧ d'.getBinContent b = .ok (x + w) ∧
      (∀ b', b' ≠ b → b' < d.hist.nBins → d'.getBinContent b' = d.getBinContent b') ∧ d'.integral = d.integral + w) ∧
    (d.obs.names.length ≠ as.length → d.findBinEvent ev = .throw .representation ∧ d.fillEvent ev w = .throw .representation) := by
  constructor
  · intro hl
    obtain ⟨d', b, x, h1, h2, h3, h4, h5, h6, h7, h8, h9, h10, h11, h12⟩ := BinnedED.Fits.fill (pdf := d) ⟨hv, hc, hl, ho⟩ hev w
    refine ⟨b, x, d', ?_, h8, h9, ?_, h1, h10, h11, h12⟩
    · unfold BinnedED.findBinEvent; rw [h7]; rfl
    · obtain ⟨vs, e1, e2⟩ := Res.bind_eq_ok.1 h7
      unfold BinnedED.probabilityEvent BinnedED.probability
      rw [e1, Res.ok_bind, e2, Res.ok_bind]
      have : d.hist.getBinContent b = .ok x := h9
      rw [this]; rfl
  · intro hl
    obtain ⟨vs, h1, h2⟩ := hev.toObsSet ho
    have hl' : vs.length ≠ as.length := by rw [h2]; exact hl
    constructor
    · unfold BinnedED.findBinEvent
      rw [h1, Res.ok_bind]
      have : d.hist.findBin vs = .throw .dimension := by
        show d.hist.axes.findBin vs = _
        unfold AxisCollection.findBin
        rw [Res.throwIf_true_of (by rw [hv.axes.dims]; exact hl')]; rfl
      rw [this]; rfl
    · unfold BinnedED.fillEvent
      rw [h1]
      simp [hv.fill_dim hl' w, Res.mapExc]

/-! ### Slices -/

/-- The values (one per axis) lie in the fixed bins of a slice. -/
def InFixedBins (fixed : List (String × Nat)) (as : List (BinAxis α)) (vs : List α) : Prop :=
  ∀ p ∈ as.zip vs, ∀ x, fixed.lookup p.1.name = some x → p.1.findBin p.2 = x

instance (fixed : List (String × Nat)) (as : List (BinAxis α)) (vs : List α) : Decidable (InFixedBins fixed as vs) := by
  unfold InFixedBins
  refine @List.decidableBAll _ _ (fun p => ?_) _
  cases fixed.lookup p.1.name with
  | none => exact isTrue (by simp)
  | some y => exact decidable_of_iff (p.1.findBin p.2 = y) (by simp)

theorem merge_iff (fixed : List (String × Nat)) (as : List (BinAxis α)) (vs : List α) (hl : vs.length = as.length) (js : List Nat)
    (hj : js.length = (freeAxes fixed as).length) :
    List.zipWith BinAxis.findBin as vs = mergeIdx fixed (as.map (·.name)) js ↔
      InFixedBins fixed as vs ∧ ((as.zip vs).filter (fun p => (fixed.lookup p.1.name).isNone)).map (fun p => p.1.findBin p.2) = js := by
  induction as generalizing vs js with
  | nil =>
    obtain rfl : js = [] := by simpa [freeAxes] using hj
    simp [mergeIdx, InFixedBins]
  | cons a as ih =>
    cases vs with
    | nil => simp at hl
    | cons v vs =>
      simp only [List.length_cons, Nat.add_right_cancel_iff] at hl
      simp only [List.zipWith_cons_cons, List.map_cons, mergeIdx, List.zip_cons_cons]
      unfold InFixedBins
      simp only [List.zip_cons_cons, List.forall_mem_cons]
      cases hlk : fixed.lookup a.name with
      | some x =>
        have hj' : js.length = (freeAxes fixed as).length := by simpa [freeAxes, List.filter_cons, hlk] using hj
        have := ih vs hl js hj'
        unfold InFixedBins at this
        simp only [List.filter_cons, hlk, Option.isNone_some, Bool.false_eq_true, if_false, Option.some.injEq, forall_eq', List.cons.injEq, this]
        tauto
      | none =>
        have hj' : js.length = (freeAxes fixed as).length + 1 := by simpa [freeAxes, List.filter_cons, hlk] using hj
        cases js with
        | nil => simp at hj'
        | cons j js =>
          have := ih vs hl js (by simpa using hj')
          unfold InFixedBins at this
          simp only [List.filter_cons, hlk, Option.isNone_none, if_true, List.map_cons, List.headD_cons, List.tail_cons, List.cons.injEq, this,
            reduceCtorEq, false_implies, implies_true, true_and]
          tauto

theorem zip_free {fixed : List (String × Nat)} {as : List (BinAxis α)} {vs : List α} (hl : vs.length = as.length) :
    ((as.zip vs).filter (fun p => (fixed.lookup p.1.name).isNone)).map (·.1) = freeAxes fixed as := by
  induction as generalizing vs with
  | nil => simp [freeAxes]
  | cons a as ih =>
    cases vs with
    | nil => simp at hl
    | cons v vs =>
      have := ih (vs := vs) (by simpa using hl)
      unfold freeAxes at this ⊢
      simp only [List.zip_cons_cons, List.filter_cons]
      split <;> simp_all

/-- A slice with one axis left: filling the parent and slicing is slicing and filling, if the values lie in the fixed bins, and changes nothing
otherwise. -/
theorem slice_fill {as : List (BinAxis α)} {h : Histogram α} (hv : h.Valid as) (hc : ∀ a ∈ as, a.Contiguous) {fixed : List (String × Nat)}
    (hk : ∀ p ∈ fixed, p.1 ∈ as.map (·.name)) (hlt : fixed.length < as.length)
    (hfix : ∀ a ∈ as, ∀ v, fixed.lookup a.name = some v → v < a.nBins)
    {a : BinAxis α} (hone : as.filter (fun a => (fixed.lookup a.name).isNone) = [a]) {vs : List α} (hl : vs.length = as.length)
    {v : α} (hav : (a, v) ∈ as.zip vs) (w : α) :
    ∃ h' s s', h.fill vs w = .ok h' ∧ h.getSlice fixed = .ok s ∧ h'.getSlice fixed = .ok s' ∧ h'.Valid as ∧
      (if InFixedBins fixed as vs then s.fill [v] w = .ok s' else s' = s) := by
  have hpos : ∀ a ∈ as, 0 < a.nBins := fun a ha => (hc a ha).pos
  obtain ⟨b₀, hb0, hblt, hfill⟩ := hv.fill hc hl w
  have hv1 : ({ h with contents := addAt h.contents b₀ w } : Histogram α).Valid as := hv.withContents (by simp [addAt])
  obtain ⟨h1, b1, x, e1, e2, _, e4, e5, e6, e7, e8⟩ := (C07_fill_one as h hv hc vs w).2 hl
  rw [hfill] at e1
  have e1 := Res.ok.inj e1
  subst e1
  have : b1 = b₀ := by
    have : h.findBin vs = .ok b₀ := hb0
    rw [this] at e2; exact (Res.ok.inj e2).symm
  subst this
  have hone' : freeAxes fixed as = [a] := hone
  obtain ⟨s, hs, hsv, hsc⟩ := C10_slice_layout as h hv hpos fixed hk hlt hfix
  obtain ⟨s1, hs1, hs1v, hs1c⟩ := C10_slice_layout as _ hv1 hpos fixed hk hlt hfix
  rw [hone'] at hsv hs1v hsc hs1c
  refine ⟨_, s, s1, hfill, hs, hs1, hv1, ?_⟩
  have haa : a ∈ as := (List.mem_filter.1 (show a ∈ as.filter (fun a => (fixed.lookup a.name).isNone) by rw [hone]; simp)).1
  have hfree : ((as.zip vs).filter (fun p => (fixed.lookup p.1.name).isNone)).map (fun p => p.1.findBin p.2) = [a.findBin v] := by
    have hz := zip_free (fixed := fixed) hl
    rw [hone'] at hz
    have hm : (a, v) ∈ (as.zip vs).filter (fun p => (fixed.lookup p.1.name).isNone) := by
      rw [List.mem_filter]
      refine ⟨hav, ?_⟩
      have : a ∈ as.filter (fun a => (fixed.lookup a.name).isNone) := by rw [hone]; simp
      exact (List.mem_filter.1 this).2
    obtain ⟨p, hp⟩ : ∃ p, (as.zip vs).filter (fun p => (fixed.lookup p.1.name).isNone) = [p] := by
      rw [← List.length_eq_one_iff]
      have := congrArg List.length hz
      simpa using this
    rw [hp, List.mem_singleton] at hm
    rw [hp, ← hm]; rfl
  have hbin : b1 = rowMajor (shape as) (List.zipWith BinAxis.findBin as vs) := by
    have := hv.axes.findBin hv.ne hl
    rw [hb0] at this; exact Res.ok.inj this
  have hin := findBins_inRange hc hl
  -- one bin of the slice
  have cell : ∀ i, i < a.nBins → ∃ b, b < h.nBins ∧ s.getBinContent i = h.getBinContent b ∧
      s1.getBinContent i = ({ h with contents := addAt h.contents b1 w } : Histogram α).getBinContent b ∧
      (b = b1 ↔ InFixedBins fixed as vs ∧ i = a.findBin v) := by
    intro i hi
    have hir : InRange [i] (shape [a]) := List.Forall₂.cons hi List.Forall₂.nil
    obtain ⟨b, f1, f2, f3⟩ := hsc [i] hir
    obtain ⟨b', f1', f2', f3'⟩ := hs1c [i] hir
    have : b' = b := by
      have : h.axes.flattenIndices (mergeIdx fixed h.axes.axisNames [i]) = .ok b' := f1'
      rw [f1] at this; exact (Res.ok.inj this).symm
    subst this
    refine ⟨b', f2, by simpa [shape, rowMajor] using f3, by simpa [shape, rowMajor] using f3', ?_⟩
    have hmr := mergeIdx_inRange fixed as [i] (by rw [hone']; exact hir) hfix
    rw [hv.axes.names, hv.axes.flatten hv.ne (by rw [mergeIdx_length]; simp)] at f1
    have f1 := Res.ok.inj f1
    have hm := merge_iff fixed as vs hl [i] (by rw [hone']; rfl)
    rw [hfree] at hm
    rw [← f1, hbin]
    constructor
    · intro e
      have := (hm.1 (rowMajor_inj hin hmr e.symm))
      exact ⟨this.1, (List.cons.inj this.2).1.symm⟩
    · rintro ⟨h1, h2⟩
      rw [hm.2 ⟨h1, by rw [h2]⟩]
  have hsn : s.nBins = a.nBins := by rw [hsv.nb]; simp [shape]
  have hs1n : s1.nBins = a.nBins := by rw [hs1v.nb]; simp [shape]
  have hac : ∀ k ∈ [a], k.Contiguous := by intro k hk; rw [List.mem_singleton] at hk; rw [hk]; exact hc a haa
  split_ifs with hfb
  · obtain ⟨s', b', y, g1, g2, g3, g4, g5, g6, g7, g8⟩ := (C07_fill_one [a] s hsv hac [v] w).2 rfl
    have hb' : b' = a.findBin v := by
      have := hsv.axes.findBin hsv.ne (vs := [v]) rfl
      have g2' : s.axes.findBin [v] = .ok b' := g2
      rw [g2'] at this
      rw [Res.ok.inj this]; simp [shape, rowMajor]
    have hvs' : s'.Valid [a] := by
      obtain ⟨b'', _, _, hf'⟩ := hsv.fill hac (vs := [v]) rfl w
      rw [hf'] at g1
      rw [← Res.ok.inj g1]
      exact hsv.withContents (by simp [addAt])
    rw [g1]
    congr 1
    refine (Valid.ext hs1v hvs' ?_).symm
    intro i hi
    rw [hs1n] at hi
    obtain ⟨b, c1, c2, c3, c4⟩ := cell i hi
    rw [c3]
    by_cases hbb : b = b1
    · have hi' := (c4.1 hbb).2
      rw [hbb, e5, hi', ← hb', g5]
      rw [hi', ← hb', g4, hbb, e4] at c2
      rw [Res.ok.inj c2]
    · rw [e8 b hbb c1, ← c2]
      refine (g8 i ?_ (by rw [hsn]; exact hi)).symm
      intro e
      exact hbb (c4.2 ⟨hfb, by rw [e, hb']⟩)
  · refine Valid.ext hs1v hsv ?_
    intro i hi
    rw [hs1n] at hi
    obtain ⟨b, c1, c2, c3, c4⟩ := cell i hi
    rw [c3, c2]
    exact e8 b (fun e => hfb (c4.1 e).1) c1

/-- C96 (slices): for a slice with one axis left of a distribution whose observables are its axes, adding an event to the distribution and slicing is
slicing and adding the event to the slice if the event lies in the fixed bins, and otherwise leaves the slice as it was. -/
theorem C96_slice_partial {d : BinnedED α} {as : List (BinAxis α)} {ens : List String} (h : d.Matches as ens) {fixed : List (String × Nat)}
    (hk : ∀ p ∈ fixed, p.1 ∈ as.map (·.name)) (hlt : fixed.length < as.length)
    (hfix : ∀ a ∈ as, ∀ v, fixed.lookup a.name = some v → v < a.nBins) {a : BinAxis α}
    (hone : as.filter (fun a => (fixed.lookup a.name).isNone) = [a]) {ev : Event α} (hev : ev.Complete ens) (w : α) :
    ∃ d' s s' vs, d.fillEvent ev w = .ok d' ∧ d.getSlice fixed = .ok s ∧ d'.getSlice fixed = .ok s' ∧ ev.toObsSet (ObsSet.ofNames (as.map (·.name))) = .ok vs ∧
      (InFixedBins fixed as vs → s.fillEvent ev w = .ok s') ∧ (¬ InFixedBins fixed as vs → s' = s) ∧ s.obs.names = [a.name] := by
  obtain ⟨vs, h1, h2⟩ := hev.toObsSet (o := d.obs) h.fits.obs.2
  have hl : vs.length = as.length := by rw [h2, h.obs, List.length_map]
  have haa : a ∈ as := (List.mem_filter.1 (show a ∈ as.filter (fun a => (fixed.lookup a.name).isNone) by rw [hone]; simp)).1
  obtain ⟨i, hi⟩ := List.mem_iff_getElem?.1 haa
  have h1' : Res.traverse ev.getDatumByName (as.map (·.name)) = .ok vs := by rw [← h.obs]; exact h1
  obtain ⟨v, hv1, hv2⟩ := Res.traverse_get h1' i a.name (by simp [hi])
  have hav : (a, v) ∈ as.zip vs := by
    apply List.mem_of_getElem? (i := i)
    rw [List.getElem?_zip_eq_some]; exact ⟨hi, hv1⟩
  obtain ⟨h', s, s', f1, f2, f3, f4, f5⟩ := slice_fill h.valid h.contig hk hlt hfix hone hl hav w
  have hnames : d.hist.axes.axisNames.filter (fun n => (fixed.lookup n).isNone) = [a.name] := by
    rw [h.valid.axes.names, List.filter_map]
    have : as.filter ((fun n => (fixed.lookup n).isNone) ∘ (fun x => x.name)) = [a] := hone
    rw [this]; rfl
  refine ⟨{ d with hist := h' }, _, _, vs, ?_, by unfold BinnedED.getSlice; rw [f2]; rfl, by unfold BinnedED.getSlice; rw [f3]; rfl, h1', ?_, ?_, hnames⟩
  · simp [BinnedED.fillEvent, h1, f1, Res.mapExc]
  · intro hfb
    rw [if_pos hfb] at f5
    have hax : h'.axes = d.hist.axes := Holds.unique f4.axes h.valid.axes
    simp only [hax]
    unfold BinnedED.fillEvent
    have ho : ev.toObsSet (ObsSet.ofNames [a.name]) = .ok [v] := by
      show Res.traverse ev.getDatumByName [a.name] = _
      simp [Res.traverse, hv2]
    simp only [BinnedED.setObservables, BinnedED.ofHistogram, hnames, ho, Res.ok_bind, f5, Res.mapExc, Res.pure_eq]
  · intro hfb
    rw [if_neg hfb] at f5
    have hax : h'.axes = d.hist.axes := Holds.unique f4.axes h.valid.axes
    simp only [hax, f5]

/-! ### Where it fails, and examples -/

/-- The 2 x 3 x 2 histogram `exHist` with its axes as observables. -/
def exView : BinnedED ℚ := (BinnedED.ofHistogram "p" exHist).setObservables ["x", "y", "z"]

/-- An event with a fourth observable, in x bin 0, y bin 0, z bin 1. -/
def exViewEvent : Event ℚ := ⟨[7, 3/2, 1/2, 1/2], some ["q", "z", "x", "y"]⟩

theorem exView_matches : exView.Matches exAxes ["q", "z", "x", "y"] :=
  ⟨exHist_valid, exAxes_contiguous, by decide +kernel, by decide +kernel⟩

theorem exViewEvent_complete : exViewEvent.Complete ["q", "z", "x", "y"] := by
  refine ⟨?_, ?_, ?_⟩ <;> decide

/-- The missing part of `C96_event_partial`: observables called otherwise than the axes. The projection is told to look for observables with the names of
the axes, and events that filled the distribution do not fill its projection. -/
theorem C96_names_wrong :
    ((((BinnedED.ofHistogram "p" exHist).setObservables ["ex", "wy", "zed"]).fillEvent (⟨[1/2, 1/2, 1/2], some ["ex", "wy", "zed"]⟩ : Event ℚ) 1
      >>= fun d => d.marginalise ["x"]).isOk = true) ∧
    (((BinnedED.ofHistogram "p" exHist).setObservables ["ex", "wy", "zed"]).marginalise ["x"]
      >>= fun m => m.fillEvent (⟨[1/2, 1/2, 1/2], some ["ex", "wy", "zed"]⟩ : Event ℚ) 1) = .throw .notFound := by
  constructor <;> decide +kernel

/-- The missing part of `C96_slice_partial`: two axes left. Filling and then slicing puts the event in another bin than slicing and then filling. -/
theorem C96_slice_wrong :
    (exView.fillEvent exViewEvent 100 >>= fun d => d.getSlice [("x", 0)] >>= fun s => Res.ok s.hist.contents) = .ok [0, 2, 4, 101, 3, 5] ∧
    (exView.getSlice [("x", 0)] >>= fun s => s.fillEvent exViewEvent 100 >>= fun s => Res.ok s.hist.contents) = .ok [0, 102, 4, 1, 3, 5] := by
  constructor <;> decide +kernel

-- onto z and x, in that order
example : ∃ m, (exView.fillEvent exViewEvent 100 >>= fun d' => d'.marginalise ["z", "x"]) = .ok m ∧
    (exView.marginalise ["z", "x"] >>= fun m => m.fillEvent exViewEvent 100) = .ok m :=
  C96_event_partial exView_matches (by decide) (by decide +kernel) (by decide) exViewEvent_complete 100

-- a slice in z: the event lies in x bin 0, y bin 0
example : ∃ d' s s' vs, exView.fillEvent exViewEvent 100 = .ok d' ∧ exView.getSlice [("x", 0), ("y", 0)] = .ok s ∧
    d'.getSlice [("x", 0), ("y", 0)] = .ok s' ∧ exViewEvent.toObsSet (ObsSet.ofNames (exAxes.map (·.name))) = .ok vs ∧
    (InFixedBins [("x", 0), ("y", 0)] exAxes vs → s.fillEvent exViewEvent 100 = .ok s') ∧ (¬ InFixedBins [("x", 0), ("y", 0)] exAxes vs → s' = s) ∧
    s.obs.names = ["z"] :=
  C96_slice_partial (a := ⟨"z", "z", 2, 0, 2, [0, 1], [1, 2], [1/2, 3/2], [1, 1]⟩) exView_matches (by decide +kernel) (by decide) (by
    intro a ha v hv
    simp only [exAxes, List.mem_cons, List.not_mem_nil, or_false] at ha
    rcases ha with rfl | rfl | rfl <;> simp [List.lookup] at hv <;> subst hv <;> decide) (by decide +kernel) exViewEvent_complete 100

example : InFixedBins [("x", 0), ("y", 0)] exAxes [(1/2 : ℚ), 1/2, 3/2] ∧ ¬ InFixedBins [("x", 1), ("y", 0)] exAxes [(1/2 : ℚ), 1/2, 3/2] := by
  constructor <;> decide +kernel

-- the bin of the event
example : exView.findBinEvent exViewEvent = .ok 1 ∧ exView.probabilityEvent exViewEvent = .ok (1 / 66) ∧
    ((BinnedED.ofHistogram "p" exHist).setObservables ["x", "y"]).findBinEvent exViewEvent = .throw .representation := by
  refine ⟨?_, ?_, ?_⟩ <;> decide +kernel

-- a data set with a cut
example : ∃ m, (DistFiller.fillDist exView exData [.line "c" "q" (1/2) "lower"] [] (-1) >>= fun d' => d'.marginalise ["y"]) = .ok m ∧
    (exView.marginalise ["y"] >>= fun m => DistFiller.fillDist m exData [.line "c" "q" (1/2) "lower"] [] (-1)) = .ok m :=
  C96_data_partial exData _ _ ⟨by decide +kernel, by decide, by decide, by decide, by simp⟩
    ⟨exHist_valid, exAxes_contiguous, by decide +kernel, by decide +kernel⟩ (by decide) (by decide +kernel) (by decide) (by decide) (-1) (by decide)

end Oxsx
