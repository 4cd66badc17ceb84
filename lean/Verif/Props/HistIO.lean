import Verif.Model.HistIO
import Verif.Spec.HistIO
import Verif.Spec.Histogram
import Verif.Props.Packing
import Verif.Props.DataFile
import Verif.Props.Slice
import Verif.Lemmas.Axis
import Verif.Lemmas.AxisCollection
import Mathlib.Tactic.Ring
import Mathlib.Tactic.FieldSimp
import Mathlib.Tactic.Linarith
import Mathlib.Tactic.NormNum
/-
Property C79: a histogram saved to an HDF5 file and loaded again.
-/
set_option linter.unusedSectionVars false
set_option linter.unusedSimpArgs false
set_option linter.unusedVariables false
namespace Oxsx
open AxisCollection IO
variable {α : Type} [Field α] [LinearOrder α] [IsStrictOrderedRing α]

theorem mkEdges_relabel {nm n l lx : String} {low high : List α} {a : BinAxis α} (h : BinAxis.mkEdges nm low high lx = .ok a) :
    BinAxis.mkEdges n low high l = .ok (a.relabel n l) := by
  unfold BinAxis.mkEdges at h ⊢
  simp only [Res.bind_eq_ok] at h
  obtain ⟨u, h1, v, h2, cs, h3, ws, h4, mn, h5, mx, h6, h7⟩ := h
  have := Res.ok.inj h7
  rw [h1, Res.ok_bind, h2, Res.ok_bind, h3, Res.ok_bind, h4, Res.ok_bind, h5, Res.ok_bind, h6, Res.ok_bind, ← this]
  rfl

theorem mkEdges_edges {nm lx : String} {low high : List α} {a : BinAxis α} (h : BinAxis.mkEdges nm low high lx = .ok a) :
    a.lowEdges = low ∧ a.highEdges = high ∧ low ≠ [] ∧ high ≠ [] := by
  have h0 := h
  unfold BinAxis.mkEdges at h
  simp only [Res.bind_eq_ok] at h
  obtain ⟨u, h1, v, h2, cs, h3, ws, h4, mn, h5, mx, h6, h7⟩ := h
  have e := Res.ok.inj h7
  have hc : ¬ (high.length ≠ low.length ∨ low.length = 0) := by
    intro hc; rw [Res.throwIf, if_pos hc] at h1; cases h1
  push Not at hc
  exact ⟨by rw [← e], by rw [← e], fun h => hc.2 (by rw [h]; rfl), fun h => hc.2 (by rw [← hc.1, h]; rfl)⟩

theorem mkEqual_remake {nm lx n l : String} {mn mx : α} {k : Nat} {a : BinAxis α} (h : BinAxis.mkEqual nm mn mx k lx = .ok a) :
    BinAxis.mkEdges n a.lowEdges a.highEdges l = .ok (a.relabel n l) := by
  unfold BinAxis.mkEqual at h
  simp only at h
  split at h
  · cases h
  rename_i hk
  push Not at hk
  have e := Res.ok.inj h
  have hk0 : (k : α) ≠ 0 := by exact_mod_cast hk.2
  have hkp : (0 : α) < k := by exact_mod_cast Nat.pos_of_ne_zero hk.2
  set w : α := (mx - mn) / k with hw
  have hw0 : 0 < w := div_pos (by linarith [hk.1]) hkp
  have hl : a.lowEdges = (List.range k).map (fun (i : Nat) => mn + (i : α) * w) := by rw [← e]
  have hh : a.highEdges = (List.range k).map (fun (i : Nat) => mn + ((i : α) + 1) * w) := by rw [← e]
  have hc : BinAxis.checkEdges a.lowEdges a.highEdges = .ok () := by
    rw [BinAxis.checkEdges_ok_iff (by rw [hl, hh]; simp)]
    refine ⟨fun i x y hx hy => ?_, fun i x y hx hy => ?_⟩
    · rw [hl] at hx hy
      simp only [List.getElem?_map, Option.map_eq_some_iff] at hx hy
      obtain ⟨p, hp, rfl⟩ := hx
      obtain ⟨q, hq, rfl⟩ := hy
      obtain ⟨_, rfl⟩ := List.getElem?_eq_some_iff.1 hp
      obtain ⟨_, rfl⟩ := List.getElem?_eq_some_iff.1 hq
      simp only [List.getElem_range]
      push_cast
      nlinarith
    · rw [hl] at hx; rw [hh] at hy
      simp only [List.getElem?_map, Option.map_eq_some_iff] at hx hy
      obtain ⟨p, hp, rfl⟩ := hx
      obtain ⟨q, hq, rfl⟩ := hy
      rw [hp] at hq; cases hq
      nlinarith
  have hne : a.lowEdges ≠ [] := by rw [hl]; simpa using hk.2
  have hlen : a.lowEdges.length = k := by rw [hl]; simp
  obtain ⟨b, h1, h2, h3, h4, h5, h6, h7, h8, h9⟩ := BinAxis.mkEdges_ok (nm := "") (lx := "") (by rw [hl, hh]; simp) hne hc
  rw [mkEdges_relabel h1]
  have ec : a.centres = (List.range k).map (fun (i : Nat) => mn + ((i : α) + 1 / 2) * w) := by rw [← e]
  have ew : a.widths = List.replicate k w := by rw [← e]
  have emn : a.min = mn := by rw [← e]
  have emx : a.max = mx := by rw [← e]
  have en : a.nBins = k := by rw [← e]
  have c1 : b.centres = a.centres := by
    rw [h6, ec, hl, hh]
    apply List.ext_getElem
    · simp
    · intro i _ _
      simp only [List.getElem_zipWith, List.getElem_map, List.getElem_range]
      ring
  have c2 : b.widths = a.widths := by
    rw [h7, ew, hl, hh]
    apply List.ext_getElem
    · simp
    · intro i _ _
      simp only [List.getElem_zipWith, List.getElem_map, List.getElem_range, List.getElem_replicate]
      ring
  have c3 : b.min = a.min := by
    rw [emn]
    rw [hl, List.getElem?_map, List.getElem?_range (Nat.pos_of_ne_zero hk.2)] at h8
    simp at h8
    exact h8.symm
  have c4 : b.max = a.max := by
    rw [emx]
    rw [hlen, hh, List.getElem?_map, List.getElem?_range (by omega)] at h9
    simp only [Option.map_some, Option.some.injEq] at h9
    rw [← h9]
    have : ((k - 1 : Nat) : α) + 1 = k := by
      have : k - 1 + 1 = k := by omega
      exact_mod_cast congrArg (Nat.cast (R := α)) this
    rw [this, hw]
    field_simp
    ring
  congr 1
  unfold BinAxis.relabel
  cases b; cases a
  simp only at *
  subst c1 c2 c3 c4
  simp [h3, h4, h5, hlen, en]

theorem BinAxis.Made.remake {a : BinAxis α} (h : a.Made) (n l : String) :
    BinAxis.mkEdges n a.lowEdges a.highEdges l = .ok (a.relabel n l) := by
  rcases h with ⟨n0, l0, mn, mx, k, lx, h⟩ | ⟨n0, l0, low, high, lx, h⟩
  · have := mkEqual_remake (n := n) (l := l) h
    exact this
  · have := mkEdges_edges h
    have e1 : a.lowEdges = low := this.1
    have e2 : a.highEdges = high := this.2.1
    rw [e1, e2]
    have := mkEdges_relabel (n := n) (l := l) h
    exact this

theorem BinAxis.Made.edges_ne {a : BinAxis α} (h : a.Made) : a.lowEdges ≠ [] ∧ a.highEdges ≠ [] := by
  have := mkEdges_edges (h.remake "" "")
  exact this.2.2


/-- The axes with the names and display names found in the file. -/
def relabelled (as : List (BinAxis α)) (N L : List String) : List (BinAxis α) :=
  (as.zip (N.zip L)).map (fun p => p.1.relabel p.2.1 p.2.2)

theorem relabelled_get {as : List (BinAxis α)} {N L : List String} {i : Nat} {a : BinAxis α} {n l : String} (ha : as[i]? = some a)
    (hn : N[i]? = some n) (hl : L[i]? = some l) : (relabelled as N L)[i]? = some (a.relabel n l) := by
  unfold relabelled
  rw [List.getElem?_map, List.getElem?_zip_eq_some (z := (a, n, l)) |>.2 ⟨ha, List.getElem?_zip_eq_some.2 ⟨hn, hl⟩⟩]
  rfl

theorem relabelled_names {as : List (BinAxis α)} {N L : List String} (h1 : as.length ≤ N.length) (h2 : as.length ≤ L.length) :
    (relabelled as N L).map (·.name) = N.take as.length := by
  apply List.ext_getElem?
  intro i
  by_cases hi : i < as.length
  · have := relabelled_get (List.getElem?_eq_getElem hi) (List.getElem?_eq_getElem (by omega : i < N.length)) (List.getElem?_eq_getElem (by omega : i < L.length))
    rw [List.getElem?_map, this, List.getElem?_take_of_lt hi, List.getElem?_eq_getElem (by omega)]
    rfl
  · rw [List.getElem?_eq_none (by simp [relabelled]; omega), List.getElem?_eq_none (by simp; omega)]

theorem loadLoop {as : List (BinAxis α)} (hm : ∀ a ∈ as, a.Made) (f : H5Hist α) (hf : f.edges = as.map (fun a => (a.lowEdges, a.highEdges)))
    (N L : List String) (k : Nat) (hk : k ≤ as.length) :
    (k ≤ N.length ∧ k ≤ L.length ∧ (N.take k).Nodup ∧
      ∃ c, Res.forFold (loadAxis f N L) .empty (List.range k) = .ok c ∧ Holds c ((relabelled as N L).take k)) ∨
    (¬ (k ≤ N.length ∧ k ≤ L.length ∧ (N.take k).Nodup) ∧
      (Res.forFold (loadAxis f N L) .empty (List.range k) = .throw .outOfRange ∨
        Res.forFold (loadAxis f N L) .empty (List.range k) = .throw .value)) := by
  induction k with
  | zero => exact Or.inl ⟨by omega, by omega, by simp, _, rfl, by simpa using holds_empty⟩
  | succ k ih =>
    rw [List.range_succ, Res.forFold_append]
    rcases ih (by omega) with ⟨h1, h2, h3, c, h4, h5⟩ | ⟨h1, h2⟩
    · rw [h4]
      simp only [Res.bind, Res.forFold]
      have ha : as[k]? = some as[k] := List.getElem?_eq_getElem (by omega)
      have hfe : f.edges[k]? = some (as[k].lowEdges, as[k].highEdges) := by rw [hf, List.getElem?_map, ha]; rfl
      by_cases hn : k < N.length
      · by_cases hl : k < L.length
        · have hnk : N[k]? = some N[k] := List.getElem?_eq_getElem hn
          have hlk : L[k]? = some L[k] := List.getElem?_eq_getElem hl
          have hstep : loadAxis f N L c k = c.addAxis (as[k].relabel N[k] L[k]) := by
            unfold loadAxis
            simp only [hfe, at_, hnk, hlk, Res.ok_bind]
            rw [(hm as[k] (List.getElem_mem _)).remake, Res.ok_bind]
          have hnames : ((relabelled as N L).take k).map (·.name) = N.take k := by
            apply List.ext_getElem?
            intro i
            by_cases hi : i < k
            · have := relabelled_get (List.getElem?_eq_getElem (by omega : i < as.length)) (List.getElem?_eq_getElem (by omega : i < N.length))
                (List.getElem?_eq_getElem (by omega : i < L.length))
              rw [List.getElem?_map, List.getElem?_take_of_lt hi, this, List.getElem?_take_of_lt hi, List.getElem?_eq_getElem (by omega)]
              rfl
            · rw [List.getElem?_eq_none (by simp [relabelled]; omega), List.getElem?_eq_none (by simp; omega)]
          have hnod : (N.take (k + 1)).Nodup ↔ N[k] ∉ N.take k := by
            rw [List.take_succ, hnk]
            simp only [Option.toList_some]
            rw [List.nodup_append]
            constructor
            · intro h hc; exact h.2.2 _ hc _ (by simp) rfl
            · intro h; exact ⟨h3, by simp, fun x hx y hy => by simp at hy; subst hy; rintro rfl; exact h hx⟩
          rw [hstep]
          by_cases hd : N[k] ∈ N.take k
          · right
            refine ⟨fun h => hnod.1 h.2.2 hd, Or.inr ?_⟩
            rw [h5.addAxis_dup _ (by rw [hnames]; exact hd)]
          · left
            obtain ⟨c', h6, h7⟩ := h5.addAxis_ok (as[k].relabel N[k] L[k]) (by rw [hnames]; exact hd)
            refine ⟨by omega, by omega, hnod.2 hd, c', by rw [h6], ?_⟩
            rw [List.take_succ, relabelled_get ha hnk hlk]
            exact h7
        · right
          refine ⟨fun h => by omega, Or.inl ?_⟩
          unfold loadAxis
          simp only [hfe, at_, List.getElem?_eq_getElem hn, List.getElem?_eq_none (not_lt.1 hl), Res.ok_bind, Res.throw_bind]
      · right
        refine ⟨fun h => by omega, Or.inl ?_⟩
        unfold loadAxis
        simp only [hfe, at_, List.getElem?_eq_none (not_lt.1 hn), Res.throw_bind]
    · right
      refine ⟨fun h => h1 ⟨by omega, by omega, ?_⟩, ?_⟩
      · exact h.2.2.sublist (List.take_sublist_take_left (Nat.le_succ k))
      · rcases h2 with h2 | h2 <;> rw [h2] <;> simp [Res.bind]

theorem Holds.unique {c d : AxisCollection α} {as : List (BinAxis α)} (h : Holds c as) (g : Holds d as) : c = d := by
  cases c; cases d
  have h1 := h.axes; have h2 := h.names; have h3 := h.nbins; have h4 := h.dims; have h5 := h.total
  have g1 := g.axes; have g2 := g.names; have g3 := g.nbins; have g4 := g.dims; have g5 := g.total
  simp only at *
  subst h1 h2 h3 h4 h5 g2 g3 g4 g5
  rw [g1]

theorem saveHist_eq {h : Histogram α} {as : List (BinAxis α)} (hv : h.Valid as) (hm : ∀ a ∈ as, a.Made) (hb : ∀ a ∈ as, 0 < a.nBins) :
    saveHistH5 h = .ok ⟨h.contents, cut64 (flatten (as.map (·.name))), cut64 (flatten (as.map (·.latexName))), as.length,
      as.map (fun a => (a.lowEdges, a.highEdges))⟩ := by
  unfold saveHistH5
  have hax : Res.traverse (fun k => h.axes.getAxis k) (List.range as.length) = .ok as := by
    have : ∀ i ∈ List.range as.length, (fun k => h.axes.getAxis k) i = .ok ((fun i => if hi : i < as.length then as[i] else as[0]'(List.length_pos_iff.2 hv.ne)) i) := by
      intro i hi
      have hi' : i < as.length := List.mem_range.1 hi
      simp only [AxisCollection.getAxis, hv.axes.axes, at_, List.getElem?_eq_getElem hi', Res.mapExc, hi', dite_true]
    rw [Res.traverse_ok this]
    congr 1
    apply List.ext_getElem
    · simp
    · intro i h1 h2; simp [h2]
  rw [hv.nd, hax, Res.ok_bind]
  have he : Res.traverse (fun (a : BinAxis α) => do
      let _ ← idx a.lowEdges 0
      let _ ← idx a.highEdges 0
      pure (a.lowEdges, a.highEdges)) as = .ok (as.map (fun a => (a.lowEdges, a.highEdges))) := by
    apply Res.traverse_ok
    intro a ha
    have := (hm a ha).edges_ne
    rw [idx_of_lt (List.length_pos_iff.2 this.1), Res.ok_bind, idx_of_lt (List.length_pos_iff.2 this.2)]
    rfl
  rw [he, Res.ok_bind, idx_of_lt (by rw [hv.len]; exact prod_pos_of (by intro n hn; obtain ⟨a, ha, rfl⟩ := List.mem_map.1 hn; exact hb a ha))]
  rfl

theorem BinAxis.Made.nBins_pos {a : BinAxis α} (h : a.Made) : a.nBins = a.lowEdges.length ∧ 0 < a.nBins := by
  have h1 := h.remake "" ""
  have h2 := h.edges_ne
  unfold BinAxis.mkEdges at h1
  simp only [Res.bind_eq_ok] at h1
  obtain ⟨u, h3, v, h4, cs, h5, ws, h6, mn, h7, mx, h8, h9⟩ := h1
  have := congrArg BinAxis.nBins (Res.ok.inj h9)
  have e : a.nBins = a.lowEdges.length := this.symm
  exact ⟨e, by rw [e]; exact List.length_pos_iff.2 h2.1⟩

theorem cut64_short {s : String} (h : s.toList.length ≤ 64) : cut64 s = s := by
  unfold cut64
  rw [List.take_of_length_le h]
  simp

/-- C79: saving always works, and loading the file depends on the names only. With `N` and `L` the axis names and display names that the two
text attributes (64 characters each) unpack to: if there are enough of both and the axis names are distinct, the histogram loaded has the bins
and contents of the one saved, its axes bearing the names in the file; otherwise loading throws `std::out_of_range` or `ValueError`. -/
theorem C79_load {h : Histogram α} {as : List (BinAxis α)} (hv : h.Valid as) (hm : ∀ a ∈ as, a.Made) :
    ∃ f N L, saveHistH5 h = .ok f ∧ unpack (cut64 (flatten (as.map (·.name)))) = .ok N ∧ unpack (cut64 (flatten (as.map (·.latexName)))) = .ok L ∧
      ((as.length ≤ N.length ∧ as.length ≤ L.length ∧ (N.take as.length).Nodup →
        ∃ h', loadHistH5 f = .ok h' ∧ h'.Valid (relabelled as N L) ∧ h'.contents = h.contents) ∧
      (¬ (as.length ≤ N.length ∧ as.length ≤ L.length ∧ (N.take as.length).Nodup) →
        loadHistH5 f = .throw .outOfRange ∨ loadHistH5 f = .throw .value)) := by
  obtain ⟨N, hN, -⟩ := C48_unpack_all (cut64 (flatten (as.map (·.name))))
  obtain ⟨L, hL, -⟩ := C48_unpack_all (cut64 (flatten (as.map (·.latexName))))
  refine ⟨_, N, L, saveHist_eq hv hm (fun a ha => (hm a ha).nBins_pos.2), hN, hL, ?_, ?_⟩
  · rintro ⟨h1, h2, h3⟩
    unfold loadHistH5
    simp only [hN, hL, Res.ok_bind]
    rcases loadLoop hm ⟨h.contents, cut64 (flatten (as.map (·.name))), cut64 (flatten (as.map (·.latexName))), as.length,
      as.map (fun a => (a.lowEdges, a.highEdges))⟩ rfl N L as.length le_rfl with ⟨_, _, _, c, h4, h5⟩ | ⟨h4, _⟩
    · have hlen : (relabelled as N L).length = as.length := by simp [relabelled]; omega
      rw [List.take_of_length_le (by omega)] at h5
      have hsh : shape (relabelled as N L) = shape as := by
        apply List.ext_getElem?
        intro i
        unfold shape
        by_cases hi : i < as.length
        · have := relabelled_get (List.getElem?_eq_getElem hi) (List.getElem?_eq_getElem (by omega : i < N.length)) (List.getElem?_eq_getElem (by omega : i < L.length))
          rw [List.getElem?_map, this, List.getElem?_map, List.getElem?_eq_getElem hi]
          rfl
        · rw [List.getElem?_eq_none (by simp; omega), List.getElem?_eq_none (by simp; omega)]
      have hne : relabelled as N L ≠ [] := by
        intro he; rw [he] at hlen; exact hv.ne (List.length_eq_zero_iff.1 hlen.symm)
      have hcb : c.nBins = (shape as).prod := by rw [h5.total_ne hne, hsh]
      rw [h4, Res.ok_bind]
      have hset : (Histogram.ofAxes c).setBinContents h.contents = .ok { Histogram.ofAxes c with contents := h.contents, nBins := h.contents.length } := by
        simp [Histogram.setBinContents, Histogram.ofAxes, Histogram.setAxes, hv.len, hcb]
      refine ⟨_, hset, ⟨h5, hne, ?_, ?_, ?_⟩, rfl⟩
      · show h.contents.length = _
        rw [hv.len, hsh]
      · show c.nDims = _
        exact h5.dims
      · show h.contents.length = _
        rw [hv.len, hsh]
    · exact absurd ⟨h1, h2, h3⟩ h4
  · intro h1
    unfold loadHistH5
    simp only [hN, hL, Res.ok_bind]
    rcases loadLoop hm ⟨h.contents, cut64 (flatten (as.map (·.name))), cut64 (flatten (as.map (·.latexName))), as.length,
      as.map (fun a => (a.lowEdges, a.highEdges))⟩ rfl N L as.length le_rfl with ⟨h2, h3, h4, _⟩ | ⟨_, h2⟩
    · exact absurd ⟨h2, h3, h4⟩ h1
    · rcases h2 with h2 | h2 <;> rw [h2] <;> simp [Res.throw_bind]

/-- C79 (partial: names without ':' that fit, together, in 64 characters, and no empty display name of a named axis): a histogram saved and loaded
again is the same object. -/
theorem C79_round_trip_partial {h : Histogram α} {as : List (BinAxis α)} (hv : h.Valid as) (hm : ∀ a ∈ as, a.Made)
    (hn : ∀ a ∈ as, ':' ∉ a.name.toList ∧ ':' ∉ a.latexName.toList ∧ (a.latexName = "" → a.name = ""))
    (h64 : (flatten (as.map (·.name))).toList.length ≤ 64 ∧ (flatten (as.map (·.latexName))).toList.length ≤ 64) :
    (saveHistH5 h >>= loadHistH5) = .ok h := by
  obtain ⟨f, N, L, h1, h2, h3, h4, -⟩ := C79_load hv hm
  have hne : as.map (·.name) ≠ [] := by simpa using hv.ne
  have hne' : as.map (·.latexName) ≠ [] := by simpa using hv.ne
  rw [cut64_short h64.1, C48_round_trip _ hne (by intro n hn'; obtain ⟨a, ha, rfl⟩ := List.mem_map.1 hn'; exact (hn a ha).1)] at h2
  rw [cut64_short h64.2, C48_round_trip _ hne' (by intro n hn'; obtain ⟨a, ha, rfl⟩ := List.mem_map.1 hn'; exact (hn a ha).2.1)] at h3
  have eN := Res.ok.inj h2
  have eL := Res.ok.inj h3
  obtain ⟨h', h5, h6, h7⟩ := h4 ⟨by rw [← eN]; simp, by rw [← eL]; simp, by
    rw [← eN, List.take_of_length_le (by simp)]; exact hv.axes.nodup⟩
  have hre : relabelled as N L = as := by
    rw [← eN, ← eL]
    apply List.ext_getElem
    · simp [relabelled]
    · intro i hi1 hi2
      simp only [relabelled, List.getElem_map, List.getElem_zip]
      have := (hn as[i] (List.getElem_mem _)).2.2
      unfold BinAxis.relabel
      generalize as[i] = a at this
      cases a
      simp only [BinAxis.mk.injEq, true_and, and_true] at this ⊢
      split
      · rename_i hl
        rw [this hl, hl]
      · rfl
  rw [hre] at h6
  rw [h1, Res.ok_bind, h5]
  congr 1
  have e1 := Holds.unique h6.axes hv.axes
  have e2 := h6.nb.trans hv.nb.symm
  have e3 := h6.nd.trans hv.nd.symm
  cases h'; cases h
  simp only at *
  subst e1 e2 e3 h7
  rfl

/-- C79 for the file name: what follows the last dot decides. An HDF5 file takes any histogram, a ROOT file one of one or two dimensions; any
other name, or number of dimensions, is refused with an `IOError`. -/
theorem C79_extension (base ext : String) (he : '.' ∉ ext.toList) (n : Nat) :
    (saveHistogramAs (base ++ "." ++ ext) n =
      if ext = "h5" then .ok .h5 else if ext = "root" ∧ (n = 1 ∨ n = 2) then .ok .root else .throw .io) ∧
    ('.' ∉ base.toList → saveHistogramAs base n = .throw .io) := by
  obtain ⟨-, h2, h3⟩ := C49_extension base ext he
  refine ⟨?_, fun hb => ?_⟩
  · unfold saveHistogramAs
    rw [h2]
    by_cases h5 : ext = "h5"
    · simp only [h5, if_true, Res.ok_bind]; rfl
    · by_cases hr : ext = "root"
      · by_cases hn : n = 1 ∨ n = 2
        · simp only [h5, hr, if_false, if_true, Res.ok_bind, hn, and_self]
          rfl
        · simp only [h5, hr, if_false, if_true, Res.ok_bind, hn, and_false]
          rfl
      · simp only [h5, hr, if_false, false_and]
        rfl
  · unfold saveHistogramAs
    rw [(h3 hb).2]
    rfl

example : saveHistogramAs "out.v2.h5" 7 = .ok .h5 ∧ saveHistogramAs "out.root" 2 = .ok .root ∧ saveHistogramAs "out.root" 3 = .throw .io := by
  decide +kernel

theorem exAxes_made : ∀ a ∈ exAxes, a.Made := by
  intro a ha
  simp only [exAxes, List.mem_cons, List.not_mem_nil, or_false] at ha
  left
  rcases ha with rfl | rfl | rfl
  · exact ⟨"x", "x", 0, 2, 2, "", by decide +kernel⟩
  · exact ⟨"y", "y", 0, 3, 3, "", by decide +kernel⟩
  · exact ⟨"z", "z", 0, 2, 2, "", by decide +kernel⟩

/-- Non-vacuity of the C79 theorems: a 2 x 3 x 2 histogram. -/
example : exHist.Valid exAxes ∧ (∀ a ∈ exAxes, a.Made) ∧
    (∀ a ∈ exAxes, ':' ∉ a.name.toList ∧ ':' ∉ a.latexName.toList ∧ (a.latexName = "" → a.name = "")) ∧
    (flatten (exAxes.map (·.name))).toList.length ≤ 64 ∧ (flatten (exAxes.map (·.latexName))).toList.length ≤ 64 ∧
    (saveHistH5 exHist >>= loadHistH5) = .ok exHist :=
  ⟨exHist_valid, exAxes_made, by decide +kernel, by decide +kernel, by decide +kernel, by decide +kernel⟩

/-- A one-dimensional histogram of two bins whose axis has the given names. -/
def namedHist (n l : String) : Histogram ℚ :=
  ⟨⟨[⟨n, l, 2, 0, 2, [0, 1], [1, 2], [1/2, 3/2], [1, 1]⟩], [n], [2], 2, 1⟩, [3, 4], 2, 1⟩

/-- C79 is false in general: a display name with a colon comes back cut at the colon, an axis name of more than 64 characters comes back cut at 64,
and two axes whose names together need more than 64 characters are a file that cannot be loaded. -/
theorem C79_names_wrong :
    (∃ a, BinAxis.mkEqual "E" (0 : ℚ) 2 2 "E: MeV" = .ok a ∧ (namedHist "E" "E: MeV").axes.axes = [a] ∧
      (saveHistH5 (namedHist "E" "E: MeV") >>= loadHistH5) = .ok (namedHist "E" "E")) ∧
    (saveHistH5 (namedHist (String.ofList (List.replicate 70 'e')) "E") >>= loadHistH5) =
      .ok (namedHist (String.ofList (List.replicate 64 'e')) "E") ∧
    (let n := String.ofList (List.replicate 64 'e')
     let c : AxisCollection ℚ := ⟨[⟨n, "E", 1, 0, 1, [0], [1], [1/2], [1]⟩, ⟨"r", "R", 1, 0, 1, [0], [1], [1/2], [1]⟩], [n, "r"], [1, 1], 1, 2⟩
     (saveHistH5 ⟨c, [5], 1, 2⟩ >>= loadHistH5) = .throw .outOfRange) := by
  refine ⟨⟨⟨"E", "E: MeV", 2, 0, 2, [0, 1], [1, 2], [1/2, 3/2], [1, 1]⟩, ?_, ?_, ?_⟩, ?_, ?_⟩ <;> decide +kernel

end Oxsx
