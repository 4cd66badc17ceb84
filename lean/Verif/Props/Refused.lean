import Verif.Lemmas.Refused
import Verif.Props.Histogram
import Verif.Props.Slice
import Verif.Props.EventDist
import Verif.Props.Filling
import Verif.Props.LikelihoodSet
/-
C93: what a call leaves behind when it refuses. The calls that act on one thing and check first leave the object as it was; those
that act on several things one after the other leave the ones before the refused one done, and nothing of the others; `AddPdf`
of a likelihood leaves the distribution in the fit although it refused it.
-/
set_option linter.unusedSectionVars false
set_option linter.unusedSimpArgs false
set_option linter.unusedVariables false
namespace Oxsx
open AxisCollection NLLH SysManager
variable {σ α : Type} [Field α] [LinearOrder α] [IsStrictOrderedRing α]

/-! ### Axes -/

/-- **C93** (axes): `AddAxis` of a name already there changes nothing. -/
theorem C93_axis {as : List (BinAxis α)} {c : AxisCollection α} (hb : (empty : AxisCollection α).addAxes as = .ok c)
    (a : BinAxis α) :
    (a.name ∈ as.map (·.name) → c.addAxesLeft [a] = (c, .throw .value)) ∧
    (a.name ∉ as.map (·.name) → ∃ c', c.addAxesLeft [a] = (c', .ok ()) ∧ (empty : AxisCollection α).addAxes (as ++ [a]) = .ok c') := by
  have h := holds_of_addAxes hb
  constructor
  · intro hn
    show Res.forLeft _ c [a] = _
    rw [Res.forLeft_keep_cons_throw (h.addAxis_dup a hn)]
  · intro hn
    obtain ⟨c', hc', _⟩ := h.addAxis_ok a hn
    refine ⟨c', ?_, ?_⟩
    · show Res.forLeft _ c [a] = _
      rw [Res.forLeft_keep_cons hc']; rfl
    · unfold addAxes at hb ⊢
      rw [Res.forFold_append, hb]
      show Res.forFold _ c [a] = _
      rw [Res.forFold_cons_ok hc']; rfl

/-- **C93** (several axes): `AddAxes` that refuses has added the axes before the one whose name was taken, and no other; the
collection is that of a program that never asked for the rest. (That it is unchanged is false: `C93_axes_wrong`.) -/
theorem C93_axes_partial {as bs : List (BinAxis α)} {c c' : AxisCollection α} {e : Exc}
    (hb : (empty : AxisCollection α).addAxes as = .ok c) (hr : c.addAxesLeft bs = (c', .throw e)) :
    e = .value ∧ ∃ (k : Nat) (a : BinAxis α), bs[k]? = some a ∧ a.name ∈ (as ++ bs.take k).map (·.name) ∧
      (empty : AxisCollection α).addAxes (as ++ bs.take k) = .ok c' := by
  obtain ⟨pre, x, post, s1, hl, h1, h2⟩ := Res.forLeft_stop hr
  obtain ⟨h2, rfl⟩ := Res.keep_throw.1 h2
  have h1' := Res.forLeft_keep_ok.1 h1
  have hadd : (empty : AxisCollection α).addAxes (as ++ pre) = .ok c' := by
    unfold addAxes at hb ⊢
    rw [Res.forFold_append, hb]; exact h1'
  have hh := holds_of_addAxes hadd
  have hx : x.name ∈ (as ++ pre).map (·.name) := by
    by_contra hn
    obtain ⟨c2, hc2, _⟩ := hh.addAxis_ok x hn
    rw [hc2] at h2; cases h2
  have he : e = .value := by
    rw [hh.addAxis_dup x hx] at h2; injection h2 with h2; exact h2.symm
  refine ⟨he, pre.length, x, by rw [hl]; simp, ?_, ?_⟩
  · rw [hl]; simpa using hx
  · rw [hl]; simpa using hadd

/-- C93 fails for `AddAxes`: the axes x, y and again x are refused, and the empty collection is left with two axes. -/
theorem C93_axes_wrong (x y : BinAxis α) (hxy : x.name ≠ y.name) :
    ∃ c' : AxisCollection α, (empty : AxisCollection α).addAxesLeft [x, y, x] = (c', .throw .value) ∧ c'.nDims = 2 := by
  obtain ⟨c1, h1, hh1⟩ := holds_empty.addAxis_ok x (by simp)
  obtain ⟨c2, h2, hh2⟩ := hh1.addAxis_ok y (by simpa using fun h => hxy h.symm)
  refine ⟨c2, ?_, hh2.dims⟩
  show Res.forLeft (fun (c : AxisCollection α) a => Res.keep c (c.addAxis a)) _ [x, y, x] = _
  rw [Res.forLeft_keep_cons h1, Res.forLeft_keep_cons h2, Res.forLeft_keep_cons_throw (hh2.addAxis_dup x (by simp))]

/-! ### Histogram arithmetic -/

theorem Histogram.combineLeft_same {as bs : List (BinAxis α)} {h o : Histogram α} (hv : h.Valid as) (ho : o.Valid bs)
    (hshape : SameBinning as bs → AxisCollection.shape as = AxisCollection.shape bs) (f : α → α → α) :
    (∃ r, h.combine o f = .ok r ∧ h.combineLeft o f = (r, .ok ())) ∨
      (h.combine o f = .throw .value ∧ h.combineLeft o f = (h, .throw .value)) := by
  by_cases hs : SameBinning as bs
  · left
    have := combine_ok hv ho hs (hshape hs) f
    refine ⟨_, this, ?_⟩
    unfold combine at this
    unfold combineLeft
    split at this
    · cases this
    · rename_i hq
      rw [if_neg hq]
      exact Res.forLeft_keep_ok.2 this
  · right
    have := combine_bad hv ho hs f
    refine ⟨this, ?_⟩
    unfold combine at this
    unfold combineLeft
    split at this
    · rename_i hq; rw [if_pos hq]
    · exfalso
      rename_i hq
      have he : o.axes.eq h.axes = true := by simpa using hq
      rw [Histogram.eq_iff ho.axes hv.axes] at he
      exact hs (List.Forall₂.flip (List.Forall₂.imp (fun a b h => ⟨h.1.symm, h.2.symm⟩) he))

/-- **C93** (histograms): addition, multiplication and division of histograms, which write bin after bin, either do the whole of
their work or leave the histogram exactly as it was. -/
theorem C93_arith (as bs : List (BinAxis α)) (h o : Histogram α) (hv : h.Valid as) (ho : o.Valid bs)
    (ha : ∀ a ∈ as, a.Contiguous) (hb : ∀ b ∈ bs, b.Contiguous) (w : α) (e : Exc) :
    ((h.addLeft o w).2 = .throw e → e = .value ∧ (h.addLeft o w).1 = h) ∧
    ((h.multiplyLeft o).2 = .throw e → e = .value ∧ (h.multiplyLeft o).1 = h) ∧
    ((h.divideLeft o).2 = .throw e → e = .value ∧ (h.divideLeft o).1 = h) ∧
    (∀ r, h.add o w = .ok r → h.addLeft o w = (r, .ok ())) ∧
    (∀ r, h.multiply o = .ok r → h.multiplyLeft o = (r, .ok ())) ∧
    (∀ r, h.divide o = .ok r → h.divideLeft o = (r, .ok ())) := by
  have hsh : Histogram.SameBinning as bs → AxisCollection.shape as = AxisCollection.shape bs := fun hs => Histogram.SameBinning.shape ha hb hs
  have key : ∀ f : α → α → α, ((h.combineLeft o f).2 = .throw e → e = .value ∧ (h.combineLeft o f).1 = h) ∧
      ∀ r, h.combine o f = .ok r → h.combineLeft o f = (r, .ok ()) := by
    intro f
    rcases Histogram.combineLeft_same hv ho hsh f with ⟨r, h1, h2⟩ | ⟨h1, h2⟩
    · rw [h2]
      refine ⟨by simp, ?_⟩
      intro r' hr'
      rw [h1] at hr'; cases hr'; rfl
    · rw [h2, h1]
      refine ⟨?_, by simp⟩
      intro he
      simp only [Res.throw.injEq] at he
      exact ⟨he.symm, rfl⟩
  exact ⟨(key _).1, (key _).1, (key _).1, (key _).2, (key _).2, (key _).2⟩

/-! ### Events -/

/-- **C93** (events): an event a data set refuses leaves it as it was, whatever the set and the event. -/
theorem C93_entry (d d' : DataSet α) (ev : Event α) (e : Exc) (h : d.addEntryLeft ev = (d', .throw e)) : d' = d ∧ e = .dimension := by
  unfold DataSet.addEntryLeft at h
  split at h
  · cases h; exact ⟨rfl, rfl⟩
  · rename_i hn
    dsimp only at h
    split at h
    · rename_i h0
      cases h
      refine ⟨?_, rfl⟩
      by_cases hz : d.nObs = 0
      · rw [if_pos hz, h0, ← hz]
      · rw [if_neg hz]
    · cases h

theorem DataSet.addEntryLeft_ok {d d' : DataSet α} {ev : Event α} : d.addEntryLeft ev = (d', .ok ()) ↔ d.addEntry ev = .ok d' := by
  unfold addEntryLeft addEntry
  by_cases h1 : d.nObs ≠ 0 ∧ d.nObs ≠ ev.obs.length
  · rw [if_pos h1, if_pos h1]; simp
  · rw [if_neg h1, if_neg h1]
    by_cases h2 : ev.obs.length = 0
    · rw [if_pos h2, if_pos h2]; simp
    · rw [if_neg h2, if_neg h2]
      by_cases h3 : d.nObs = 0
      · simp [h3]
      · have : d.nObs = ev.obs.length := by
          by_contra h; exact h1 ⟨h3, h⟩
        rw [if_neg h3, ← this]
        simp

/-- **C93** (data sets): a sum of two data sets that is refused leaves the first with the events of the second before the one
refused. (That it is unchanged is false: `C93_sum_wrong`.) -/
theorem C93_sum_partial (a a' b : DataSet α) (e : Exc) (h : a.plusLeft b = (a', .throw e)) :
    ∃ k, k < b.getNEntries ∧ a'.data = a.data ++ b.data.take k ∧ a'.names = a.names := by
  obtain ⟨pre, x, post, s1, hl, h1, h2⟩ := Res.forLeft_stop h
  have hpre : pre = List.range pre.length ∧ pre.length < b.getNEntries ∧ x = pre.length := by
    have hlen : pre.length < (List.range b.getNEntries).length := by rw [hl]; simp
    have h3 : (List.range b.getNEntries).take pre.length = pre := by rw [hl]; simp
    have h4 : (List.range b.getNEntries)[pre.length]? = some x := by rw [hl]; simp
    simp at hlen
    rw [List.take_range, Nat.min_eq_left (by omega)] at h3
    rw [List.getElem?_range hlen] at h4
    exact ⟨h3.symm, hlen, by simpa using h4.symm⟩
  obtain ⟨hp, hk, hx⟩ := hpre
  have step : ∀ (n : Nat), n ≤ b.getNEntries → ∀ s : DataSet α, Res.forLeft (fun (a : DataSet α) i =>
      match b.getEntry i with
      | .ok e => a.addEntryLeft e
      | .throw x => (a, .throw x)
      | .ub => (a, .ub)) a (List.range n) = (s, .ok ()) → s.data = a.data ++ b.data.take n ∧ s.names = a.names := by
    intro n
    induction n with
    | zero => intro _ s hs; simp [Res.forLeft] at hs; rw [← hs]; simp
    | succ n ih =>
      intro hn s hs
      rw [List.range_succ] at hs
      obtain ⟨s0, hs0⟩ : ∃ s0, Res.forLeft (fun (a : DataSet α) i =>
          match b.getEntry i with
          | .ok e => a.addEntryLeft e
          | .throw x => (a, .throw x)
          | .ub => (a, .ub)) a (List.range n) = (s0, .ok ()) := by
        generalize hq : Res.forLeft (fun (a : DataSet α) i =>
          match b.getEntry i with
          | .ok e => a.addEntryLeft e
          | .throw x => (a, .throw x)
          | .ub => (a, .ub)) a (List.range n) = q
        exact ⟨q.1, by rw [← hq]; exact (Res.forLeft_prefix_ok hs rfl)⟩
      obtain ⟨i1, i2⟩ := ih (by omega) s0 hs0
      rw [Res.forLeft_append hs0] at hs
      have hlt : n < b.data.length := hn
      have hg : b.getEntry n = .ok ⟨b.data[n], some b.names⟩ := by
        unfold DataSet.getEntry; rw [List.getElem?_eq_getElem hlt]
      simp only [Res.forLeft, hg] at hs
      have hs' : s0.addEntryLeft ⟨b.data[n], some b.names⟩ = (s, .ok ()) := by
        revert hs
        cases hq : s0.addEntryLeft ⟨b.data[n], some b.names⟩ with
        | mk u v => cases v <;> simp
      have := DataSet.addEntryLeft_ok.1 hs'
      unfold DataSet.addEntry at this
      split at this
      · cases this
      · split at this
        · cases this
        · cases this
          refine ⟨?_, i2⟩
          simp only [i1]
          rw [List.append_assoc, List.take_succ, List.getElem?_eq_getElem hlt]
          rfl
  obtain ⟨s1d, s1n⟩ := step pre.length (by omega) s1 (by rw [← hp]; exact h1)
  refine ⟨pre.length, hk, ?_⟩
  subst hx
  have hlt : pre.length < b.data.length := hk
  have hg : b.getEntry pre.length = .ok ⟨b.data[pre.length], some b.names⟩ := by
    unfold DataSet.getEntry; rw [List.getElem?_eq_getElem hlt]
  simp only [hg] at h2
  obtain ⟨rfl, _⟩ := C93_entry _ _ _ _ h2
  exact ⟨s1d, s1n⟩

/-- C93 fails for a sum of data sets: with one observable on the left and an event of two behind one of one on the right, the sum
is refused and the left set has one more event. -/
theorem C93_sum_wrong (x y z w : α) (ns : List String) :
    (⟨[[x]], ns, 1⟩ : DataSet α).plusLeft ⟨[[y], [z, w]], ns, 1⟩ = (⟨[[x], [y]], ns, 1⟩, .throw .dimension) := rfl

/-- **C93** (filling): filling a distribution from a data set, refused at an event, leaves the distribution filled with exactly the
events before it, as by a call for that many events. (That it is unchanged is false: `C93_fill_wrong`.) -/
theorem C93_fill_partial (pdf pdf' : BinnedED α) (d : DataSet α) (cuts : CutCollection α) (ss : List (EventSys α)) (nEv : Int) (e : Exc)
    (h : DistFiller.fillDistLeft pdf d cuts ss nEv = (pdf', .throw e)) :
    ∃ k : Nat, (k : Int) < DistFiller.nEvents d nEv ∧ DistFiller.fillDist pdf d cuts ss k = .ok pdf' := by
  obtain ⟨pre, x, post, s1, hl, h1, h2⟩ := Res.forLeft_stop h
  obtain ⟨_, rfl⟩ := Res.keep_throw.1 h2
  have h1' := Res.forLeft_keep_ok.1 h1
  have hlen : pre.length < (DistFiller.nEvents d nEv).toNat := by
    have : pre.length < (List.range (DistFiller.nEvents d nEv).toNat).length := by rw [hl]; simp
    simpa using this
  have hp : pre = List.range pre.length := by
    have h3 : (List.range (DistFiller.nEvents d nEv).toNat).take pre.length = pre := by rw [hl]; simp
    rw [List.take_range, Nat.min_eq_left (by omega)] at h3
    exact h3.symm
  refine ⟨pre.length, by omega, ?_⟩
  unfold DistFiller.fillDist
  have : (DistFiller.nEvents d (pre.length : Int)).toNat = pre.length := by
    unfold DistFiller.nEvents
    rw [if_neg (by omega)]; simp
  rw [this, ← hp]
  exact h1'

/-- C93 fails for filling: asked for more events than there are, the call refuses, and the distribution holds all of the events. -/
theorem C93_fill_wrong (d : DataSet α) (cuts : CutCollection α) (ss : List (EventSys α)) (hd : d.Ready cuts ss)
    (pdf : BinnedED α) (as : List (BinAxis α)) (hf : pdf.Fits as d.names) (nEv : Int)
    (hn : (d.getNEntries : Int) < nEv) : ∃ pdf', DistFiller.fillDist pdf d cuts ss d.getNEntries = .ok pdf' ∧
      DistFiller.fillDistLeft pdf d cuts ss nEv = (pdf', .throw .notFound) := by
  obtain ⟨pdf', h1, h2⟩ := DistFiller.loop d cuts ss hd pdf as hf _ (Nat.le_refl _)
  have hall : (DistFiller.nEvents d (d.getNEntries : Int)).toNat = d.getNEntries := by
    unfold DistFiller.nEvents; rw [if_neg (by omega)]; simp
  refine ⟨pdf', ?_, ?_⟩
  · unfold DistFiller.fillDist; rw [hall]; exact h1
  obtain ⟨k, hk⟩ : ∃ k, nEv.toNat = d.getNEntries + (k + 1) := ⟨nEv.toNat - d.getNEntries - 1, by omega⟩
  unfold DistFiller.fillDistLeft DistFiller.nEvents
  rw [if_neg (by omega), hk, List.range_add, Res.forLeft_append (Res.forLeft_keep_ok.2 h1), List.range_succ_eq_map, List.map_cons]
  have hg : d.getEntry (d.getNEntries + 0) = .throw .notFound := by
    unfold DataSet.getEntry
    rw [List.getElem?_eq_none (by simp [DataSet.getNEntries])]
  rw [Res.forLeft_keep_cons_throw (e := .notFound)]
  rw [hg]; rfl

/-- A call that goes through is the one of C67. -/
theorem C93_fill_done (pdf pdf' : BinnedED α) (d : DataSet α) (cuts : CutCollection α) (ss : List (EventSys α)) (nEv : Int) :
    DistFiller.fillDistLeft pdf d cuts ss nEv = (pdf', .ok ()) ↔ DistFiller.fillDist pdf d cuts ss nEv = .ok pdf' :=
  Res.forLeft_keep_ok

/-! ### Unbinned distributions -/

theorem EDManager.addDistLeft_ok {ds : List (EDist α)} {m : EDManager α} (hi : EDManager.Inv ds m) (d : EDist α) :
    (∃ m', m.addDist d = .ok m' ∧ m.addDistLeft d = (m', .ok ())) ∨
    (m.addDist d = .throw .dimension ∧ m.addDistLeft d = (m, .throw .dimension)) := by
  have reg : ∀ m1 : EDManager α, m1.norms.length = m1.dists.length → ∃ m', m1.registerParameters = .ok m' ∧
      m1.registerParametersLeft = (m', .ok ()) := by
    intro m1 h
    refine ⟨_, EDManager.register_ok h, ?_⟩
    unfold registerParametersLeft ParamManager.addContainer
    rw [if_neg (by simp [h])]
    rfl
  have hlen : (resize m.norms (m.nDists + 1) 0).length = (m.dists ++ [d]).length := by
    rw [hi.dists]; simp [resize, hi.norms, hi.count]
  by_cases h0 : m.dists.length = 0
  · left
    obtain ⟨m', h1, h2⟩ := reg { m with nDims := d.nDims, dists := m.dists ++ [d], nDists := m.nDists + 1, norms := resize m.norms (m.nDists + 1) 0 } hlen
    refine ⟨m', by unfold addDist; rw [if_pos h0]; exact h1, ?_⟩
    unfold addDistLeft
    rw [if_neg (by simp [h0]), if_pos h0]
    exact h2
  · by_cases hd : d.nDims ≠ m.nDims
    · right
      exact ⟨by unfold addDist; rw [if_neg h0, if_pos hd], by unfold addDistLeft; rw [if_pos ⟨h0, hd⟩]⟩
    · left
      obtain ⟨m', h1, h2⟩ := reg { m with dists := m.dists ++ [d], nDists := m.nDists + 1, norms := resize m.norms (m.nDists + 1) 0 } hlen
      refine ⟨m', by unfold addDist; rw [if_neg h0, if_neg hd]; exact h1, ?_⟩
      unfold addDistLeft
      rw [if_neg (fun h => hd h.2), if_neg h0]
      exact h2

/-- **C93** (unbinned distributions): a distribution of another dimension is refused and changes nothing: not the distributions, not
the normalisations, not the parameters. -/
theorem C93_dist {ds : List (EDist α)} {m m' : EDManager α} (h : EDManager.Built ds m) (d : EDist α) (e : Exc)
    (hr : m.addDistLeft d = (m', .throw e)) : m' = m ∧ e = .dimension := by
  rcases EDManager.addDistLeft_ok (EDManager.inv_of_built h) d with ⟨m1, _, h2⟩ | ⟨_, h2⟩ <;> rw [h2] at hr <;> cases hr
  exact ⟨rfl, rfl⟩

/-- **C93** (several unbinned distributions): those before the one refused are added, with their parameters registered, and no
other. (That the manager is unchanged is false: `C93_dists_wrong`.) -/
theorem C93_dists_partial {ds : List (EDist α)} {m m' : EDManager α} (h : EDManager.Built ds m) (es : List (EDist α)) (e : Exc)
    (hr : m.addDistsLeft es = (m', .throw e)) : ∃ k, k < es.length ∧ EDManager.Built (ds ++ es.take k) m' := by
  have loop : ∀ (es : List (EDist α)) (ds : List (EDist α)) (m : EDManager α), EDManager.Built ds m → ∀ m' o,
      Res.forLeft EDManager.addDistLeft m es = (m', o) →
      (o = .ok () ∧ EDManager.Built (ds ++ es) m') ∨ (o = .throw .dimension ∧ ∃ k, k < es.length ∧ EDManager.Built (ds ++ es.take k) m') := by
    intro es
    induction es with
    | nil => intro ds m h m' o hq; simp [Res.forLeft] at hq; left; refine ⟨hq.2.symm, ?_⟩; rw [← hq.1]; simpa using h
    | cons x es ih =>
      intro ds m h m' o hq
      rcases EDManager.addDistLeft_ok (EDManager.inv_of_built h) x with ⟨m1, h1, h2⟩ | ⟨h1, h2⟩
      · rw [Res.forLeft_cons_ok h2] at hq
        rcases ih _ _ (h.addDist x h1) _ _ hq with ⟨h3, h4⟩ | ⟨h3, k, hk, h4⟩
        · left; exact ⟨h3, by simpa using h4⟩
        · right; exact ⟨h3, k + 1, by simp; omega, by simpa using h4⟩
      · rw [Res.forLeft_cons_throw h2] at hq
        cases hq
        right
        exact ⟨rfl, 0, by simp, by simpa using h⟩
  unfold EDManager.addDistsLeft Res.andThen at hr
  generalize hq : Res.forLeft EDManager.addDistLeft m es = q at hr
  obtain ⟨m1, o⟩ := q
  rcases loop es ds m h m1 o hq with ⟨rfl, h4⟩ | ⟨rfl, k, hk, h4⟩
  · exfalso
    simp only at hr
    have hi := EDManager.inv_of_built h4
    unfold EDManager.registerParametersLeft ParamManager.addContainer at hr
    rw [if_neg (by simp [hi.norms, hi.dists])] at hr
    simp at hr
  · simp only at hr
    cases hr
    exact ⟨k, hk, h4⟩

/-- C93 fails for `AddDists`: two distributions of different dimensions given to a new manager are refused, and the first is there. -/
theorem C93_dists_wrong (a b : EDist α) (hab : b.nDims ≠ a.nDims) :
    ∃ m' : EDManager α, (EDManager.new : EDManager α).addDistsLeft [a, b] = (m', .throw .dimension) ∧ m'.dists = [a] := by
  rcases EDManager.addDistLeft_ok (EDManager.inv_of_built (.new : EDManager.Built ([] : List (EDist α)) _)) a with ⟨m1, h1, h2⟩ | ⟨h1, h2⟩
  · have hb1 := EDManager.Built.addDist a .new h1
    have hi1 := EDManager.inv_of_built hb1
    rcases EDManager.addDistLeft_ok hi1 b with ⟨m2, h3, _⟩ | ⟨_, h4⟩
    · have hi2 := (EDManager.addDist_inv hi1 b h3).1
      exact absurd ((hi2.dims b (by simp)).trans (hi2.dims a (by simp)).symm) hab
    · refine ⟨m1, ?_, hi1.dists⟩
      unfold EDManager.addDistsLeft
      rw [Res.forLeft_cons_ok h2, Res.forLeft_cons_throw h4]; rfl
  · exfalso
    unfold EDManager.addDist at h1
    rw [if_pos (show (EDManager.new : EDManager α).dists.length = 0 from rfl)] at h1
    rw [EDManager.register_ok (by simp [EDManager.new, resize])] at h1
    cases h1

/-! ### The likelihood -/

theorem ParamManager.setLoop_missing {m : ParamManager} {d : ParamDict α} {n : String} (hn : SMap.find d n = none) :
    ∀ (l : List String) (s : Store α), n ∈ l → (m.setLoop d s l).2 = .throw .parameter := by
  intro l
  induction l with
  | nil => intro s h; cases h
  | cons k ks ih =>
    intro s h
    unfold setLoop
    cases hs : m.setOne d s k with
    | ok s' =>
      rcases List.mem_cons.1 h with rfl | h
      · exfalso
        unfold setOne at hs
        rw [hn] at hs
        cases hq : m.find n <;> rw [hq] at hs <;> simp at hs
      · exact ih s' h
    | throw e =>
      have : e = .outOfRange := by
        unfold setOne at hs
        cases hq : m.find k with
        | none => rw [hq] at hs; simp at hs; exact hs.symm
        | some r =>
          cases hv : d.find k with
          | none => rw [hq, hv] at hs; simp at hs; exact hs.symm
          | some v =>
            rw [hq, hv] at hs
            simp only at hs
            cases r with
            | dbl i => simp [Ref.set] at hs
            | elem c i =>
              unfold Ref.set at hs
              dsimp only at hs
              split at hs
              · injection hs with hs; exact hs.symm
              · cases hs
      subst this; rfl
    | ub =>
      exfalso
      unfold setOne at hs
      cases hq : m.find k with
      | none => rw [hq] at hs; simp at hs
      | some r =>
        cases hv : d.find k with
        | none => rw [hq, hv] at hs; simp at hs
        | some v =>
          rw [hq, hv] at hs
          simp only at hs
          cases r with
          | dbl i => simp [Ref.set] at hs
          | elem c i =>
            unfold Ref.set at hs
            dsimp only at hs
            split at hs <;> cases hs

theorem NLLH.addPdfLeft_eq {name : Nat → String} {L : NLLH σ α} {m' : PdfManager α} {pdf : BinnedED α} {st : NormStatus}
    (hm' : L.pdfs.addPdf pdf st = .ok m') (groups : Option (List String)) (rate : Option Int) (hbb : ¬ (rate = none ∧ L.useBB = true)) :
    L.addPdfLeft name pdf groups rate st =
      match L.sys.addDist name pdf.name (groups.getD [""]) with
      | .throw e => ({ L with pdfs := m' }, .throw e)
      | .ub => ({ L with pdfs := m' }, .ub)
      | .ok s => ({ L with pdfs := m', sys := s, genRates := match rate with
          | some r => L.genRates ++ [toUInt32 r]
          | none => L.genRates }, .ok ()) := by
  unfold addPdfLeft
  rw [if_neg hbb]
  rw [PdfManager.addPdfLeft_ok hm']
  simp only [Res.andThen]
  cases L.sys.addDist name pdf.name (groups.getD [""]) <;> cases rate <;> rfl

/-- The same call, once the object of a refused one is kept. -/
theorem NLLH.addPdfLeft_ok {name : Nat → String} {L L' : NLLH σ α} (hm : ∃ log, PdfManager.Inv log L.pdfs) (pdf : BinnedED α)
    (groups : Option (List String)) (rate : Option Int) (st : NormStatus) :
    L.addPdfLeft name pdf groups rate st = (L', .ok ()) ↔ L.addPdf name pdf groups rate st = .ok L' := by
  obtain ⟨log, hi⟩ := hm
  obtain ⟨m', hm', _⟩ := PdfManager.addPdf_succeeds hi pdf st
  by_cases hbb : rate = none ∧ L.useBB = true
  · unfold addPdfLeft addPdf
    rw [if_pos hbb, Res.throwIf_true_of hbb]
    simp
  · rw [addPdfLeft_eq hm' groups rate hbb]
    unfold addPdf
    rw [Res.throwIf_false_of hbb]
    simp only [Res.ok_bind, hm']
    cases L.sys.addDist name pdf.name (groups.getD [""]) <;> cases rate <;> simp [Res.pure_eq]

/-- **C93** (`AddPdf`): a likelihood that refuses a distribution for want of a generated rate is unchanged; one that refuses it
because of its groups of systematics is unchanged except that the distribution has been added. (That it is unchanged is false:
`C93_addPdf_wrong`.) -/
theorem C93_addPdf_partial {name : Nat → String} {C : FitSys σ α} {M : CMath α} {L L' : NLLH σ α} (h : NLLH.Reached name C M L)
    (pdf : BinnedED α) (groups : Option (List String)) (rate : Option Int) (st : NormStatus) (e : Exc)
    (hr : L.addPdfLeft name pdf groups rate st = (L', .throw e)) :
    (rate = none ∧ L.useBB = true ∧ e = .oxsx ∧ L' = L) ∨
    (¬ (rate = none ∧ L.useBB = true) ∧ L.sys.addDist name pdf.name (groups.getD [""]) = .throw e ∧
      ∃ m', L.pdfs.addPdf pdf st = .ok m' ∧ L' = { L with pdfs := m' }) := by
  obtain ⟨log, hb⟩ := (NLLH.inv_of_reached h).built
  obtain ⟨m', hm', _⟩ := PdfManager.addPdf_succeeds (PdfManager.inv_of_built hb) pdf st
  by_cases hbb : rate = none ∧ L.useBB = true
  · unfold NLLH.addPdfLeft at hr
    rw [if_pos hbb] at hr
    cases hr
    exact .inl ⟨hbb.1, hbb.2, rfl, rfl⟩
  · rw [NLLH.addPdfLeft_eq hm' groups rate hbb] at hr
    refine .inr ⟨hbb, ?_⟩
    cases hs : L.sys.addDist name pdf.name (groups.getD [""]) with
    | ok s => rw [hs] at hr; simp at hr
    | ub => rw [hs] at hr; simp at hr
    | throw e' =>
      rw [hs] at hr
      simp only [Prod.mk.injEq, Res.throw.injEq] at hr
      exact ⟨by rw [hr.2], m', hm', hr.1.symm⟩

/-- C93 fails for `AddPdf`, for every likelihood and distribution: naming a group of systematics the likelihood does not know is
refused, yet the distribution is in the likelihood from then on, and when its normalisation is to be fitted every dictionary of
parameters without its name, such as those accepted before, is refused. -/
theorem C93_addPdf_wrong {name : Nat → String} {C : FitSys σ α} {M : CMath α} {L : NLLH σ α} (h : NLLH.Reached name C M L)
    (pdf : BinnedED α) (g : String) (hg : SMap.find L.sys.groups g = none) (rate : Option Int) (hbb : ¬ (rate = none ∧ L.useBB = true))
    (st : NormStatus) :
    ∃ L', L.addPdfLeft name pdf (some [g]) rate st = (L', .throw .notFound) ∧ L'.pdfs.orig = L.pdfs.orig ++ [pdf] ∧
      (st.fittable = true → ∀ d : ParamDict α, d.length ≠ 0 → SMap.find d pdf.name = none →
        ((L'.registerFitComponents name).setParameters C d).2 = .throw .parameter) := by
  obtain ⟨log, hb⟩ := (NLLH.inv_of_reached h).built
  have hi := PdfManager.inv_of_built hb
  obtain ⟨m', hm', hi'⟩ := PdfManager.addPdf_succeeds hi pdf st
  have hs : L.sys.addDist name pdf.name [g] = .throw .notFound := by
    unfold SysManager.addDist SysManager.uniqueSystematics
    simp [List.zipIdx, Res.forFold, SysManager.uniqueStep, hg]
  refine ⟨{ L with pdfs := m' }, ?_, ?_, ?_⟩
  · rw [NLLH.addPdfLeft_eq hm' (some [g]) rate hbb]
    simp only [Option.getD_some, hs]
  · show m'.orig = _
    rw [hi'.orig, hi.orig]; simp
  · intro hst d hd hdn
    unfold NLLH.setParameters
    rw [if_neg hd]
    have hk : pdf.name ∈ m'.params.keys := by
      rw [hi'.params, regOf_keys]
      unfold PdfLog.fitted
      rw [List.filter_append, List.map_append]
      simp [hst]
    have hp : (m'.setParameters d).2 = .throw .parameter := by
      show (m'.params.setParameters d m'.store).2 = _
      exact ParamManager.setLoop_missing hdn _ _ hk
    show (NLLH.setLoop C d _ (.pdfs :: _)).2 = _
    unfold NLLH.setLoop
    have : NLLH.setComponent C d (({ L with pdfs := m' } : NLLH σ α).registerFitComponents name) .pdfs =
        (({ (({ L with pdfs := m' } : NLLH σ α).registerFitComponents name) with pdfs := (m'.setParameters d).1 } : NLLH σ α), .throw .parameter) := by
      unfold NLLH.setComponent
      show (_, (m'.setParameters d).2) = _
      rw [hp]; rfl
    rw [this]

/-- A new likelihood knows no group "g": the call is refused and the distribution stays. -/
example (pdf : BinnedED ℚ) (M : CMath ℚ) : ∃ L', (NLLH.new (fun p => (p, (1 : ℚ))) : NLLH (Nat × ℚ) ℚ).addPdfLeft exSysName pdf (some ["g"]) none .direct
      = (L', .throw .notFound) ∧ L'.pdfs.orig = [pdf] := by
  obtain ⟨L', h1, h2, _⟩ := C93_addPdf_wrong (C := exNumbered) (M := M) (name := exSysName) (NLLH.Reached.new (fun p => (p, (1 : ℚ)))) pdf "g" (by decide +kernel) none (by decide +kernel) .direct
  exact ⟨L', h1, h2⟩

/-- An event of two observables is refused by a set of events of one. -/
example : (⟨[[1]], ["x"], 1⟩ : DataSet ℚ).addEntryLeft ⟨[2, 3], none⟩ = (⟨[[1]], ["x"], 1⟩, .throw .dimension) := rfl

/-- The 2 x 3 x 2 histogram accepts itself and refuses its own first axis. -/
example : exHist.Valid exAxes ∧ (exHist.addLeft exHist 1).2 = .ok () ∧
    exHist.addLeft { axes := ⟨exAxes.take 1, ["x"], [2], 2, 1⟩, contents := [1, 1], nBins := 2, nDims := 1 } 1 = (exHist, .throw .value) :=
  ⟨exHist_valid, by decide +kernel, by decide +kernel⟩

end Oxsx
