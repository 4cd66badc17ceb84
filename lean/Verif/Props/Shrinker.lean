import Verif.Model.Shrinker
import Verif.Spec.Shrinker
import Verif.Lemmas.Histogram
import Verif.Props.Axis
import Verif.Props.AxisCollection
import Mathlib.Tactic.NormNum
/-
C30: shrinking a binned distribution to the fit region inside buffers.
-/
set_option linter.unusedSectionVars false
set_option linter.unusedSimpArgs false
set_option linter.unusedVariables false
namespace Oxsx
open AxisCollection
variable {α : Type} [Field α] [LinearOrder α] [IsStrictOrderedRing α]

theorem bmod32 {x : Int} (h1 : -2 ^ 31 ≤ x) (h2 : x < 2 ^ 31) : Int.bmod x (2 ^ 32) = x := by
  apply Int.bmod_eq_of_le <;> omega

/-! ### One axis -/

theorem shrinkAxis_ok {a : BinAxis α} (hc : a.Contiguous) {l u : Nat} (h : l + u < a.nBins)
    (h32 : l + u < 2 ^ 32) :
    ∃ a', Shrinker.shrinkAxis a l u = .ok a' ∧ a'.name = a.name ∧ a'.nBins + l + u = a.nBins ∧
      (∀ i, i < a'.nBins → ∀ lo hi, a'.BinIs i lo hi ↔ a.BinIs (l + i) lo hi) ∧ a'.Contiguous := by
  unfold Shrinker.shrinkAxis
  by_cases h0 : l = 0 ∧ u = 0
  · rw [if_pos h0]
    obtain ⟨rfl, rfl⟩ := h0
    exact ⟨a, rfl, rfl, rfl, fun i _ lo hi => by simp, hc⟩
  · rw [if_neg h0, if_neg (by rw [Nat.mod_eq_of_lt h32]; omega), if_neg (by omega)]
    have hll : a.lowEdges.length = a.nBins := hc.lowLen
    have hhl : a.highEdges.length = a.nBins := hc.highLen
    set m := a.nBins - u - l with hm
    have t1 : Res.traverse (fun i => a.getBinLowEdge (l + i)) (List.range m)
        = .ok ((List.range m).map (fun i => a.lowEdges.getD (l + i) 0)) := by
      apply BinAxis.traverse_range_ok
      intro i hi
      unfold BinAxis.getBinLowEdge
      rw [at_of_lt (by omega)]; simp [List.getD, show l + i < a.lowEdges.length by omega]
    have t2 : Res.traverse (fun i => a.getBinHighEdge (l + i)) (List.range m)
        = .ok ((List.range m).map (fun i => a.highEdges.getD (l + i) 0)) := by
      apply BinAxis.traverse_range_ok
      intro i hi
      unfold BinAxis.getBinHighEdge
      rw [at_of_lt (by omega)]; simp [List.getD, show l + i < a.highEdges.length by omega]
    simp only [t1, t2, Res.ok_bind]
    have gl : ∀ i, i < m → ((List.range m).map (fun i => a.lowEdges.getD (l + i) 0))[i]?
        = a.lowEdges[l + i]? := by
      intro i hi
      simp [hi, List.getD, show l + i < a.lowEdges.length by omega]
    have gh : ∀ i, i < m → ((List.range m).map (fun i => a.highEdges.getD (l + i) 0))[i]?
        = a.highEdges[l + i]? := by
      intro i hi
      simp [hi, List.getD, show l + i < a.highEdges.length by omega]
    have lt_of : ∀ (f : Nat → α) (i : Nat) x, ((List.range m).map f)[i]? = some x → i < m := by
      intro f i x hx
      have := (List.getElem?_eq_some_iff.1 hx).1
      simpa using this
    have hcont : ∀ (i : Nat) x y, i + 1 < a.nBins → a.highEdges[i]? = some x →
        a.lowEdges[i + 1]? = some y → x = y := by
      intro i x y hi hx hy
      have := hc.contig i hi
      unfold BinAxis.getBinHighEdge BinAxis.getBinLowEdge at this
      rw [at_ok.2 hx, at_ok.2 hy] at this
      exact Res.ok.inj this
    have hle : ∀ (i : Nat) x y, i < a.nBins → a.lowEdges[i]? = some x →
        a.highEdges[i]? = some y → x ≤ y := by
      intro i x y hi hx hy
      obtain ⟨lo, hi', ⟨b1, b2⟩, b3, -⟩ := hc.bins i hi
      have e1 := at_ok.1 b1
      have e2 := at_ok.1 b2
      rw [hx] at e1; rw [hy] at e2
      cases e1; cases e2; exact b3
    have hL : LegalEdges ((List.range m).map (fun i => a.lowEdges.getD (l + i) 0))
        ((List.range m).map (fun i => a.highEdges.getD (l + i) 0)) := by
      refine ⟨by simp, ?_, ?_, ?_⟩
      · intro he
        have : ((List.range m).map (fun i => a.lowEdges.getD (l + i) 0)).length = 0 := by rw [he]; rfl
        simp at this; omega
      · intro i x y hx hy
        have h1 := lt_of _ _ _ hx
        have h2 := lt_of _ _ _ hy
        rw [gl i h1] at hx; rw [gl _ h2, ← Nat.add_assoc] at hy
        have hz : a.highEdges[l + i]? = some a.highEdges[l + i] := List.getElem?_eq_getElem (by omega)
        calc x ≤ a.highEdges[l + i] := hle _ _ _ (by omega) hx hz
          _ = y := hcont _ _ _ (by omega) hz hy
      · intro i x y hx hy
        have h1 := lt_of _ _ _ hx
        rw [gl i h1] at hx; rw [gh i h1] at hy
        exact hle _ _ _ (by omega) hx hy
    obtain ⟨a', e0, e1, e2, e3, -, -⟩ := (C02_edgesAxis a.name a.latexName _ _).1 hL
    simp only [List.length_map, List.length_range] at e2
    refine ⟨a', e0, e1, by omega, ?_, ?_⟩
    · intro i hi lo hi'
      rw [e2] at hi
      have z1 : a.lowEdges[l + i]? = some a.lowEdges[l + i] := List.getElem?_eq_getElem (by omega)
      have z2 : a.highEdges[l + i]? = some a.highEdges[l + i] := List.getElem?_eq_getElem (by omega)
      obtain ⟨w1, w2, -⟩ := e3 i _ _ ((gl i hi).trans z1) ((gh i hi).trans z2)
      unfold BinAxis.BinIs
      rw [w1, w2]
      unfold BinAxis.getBinLowEdge BinAxis.getBinHighEdge
      rw [at_ok.2 z1, at_ok.2 z2]
    · refine C02_edgesAxis_contiguous _ _ _ _ a' ?_ e0
      intro i x y hx hy
      have h1 := lt_of _ _ _ hx
      have h2 := lt_of _ _ _ hy
      rw [gh i h1] at hx; rw [gl _ h2, ← Nat.add_assoc] at hy
      exact hcont _ _ _ (by omega) hx hy

/-- C30: buffers that leave no bin are rejected with `ValueError`, provided their sum does not wrap
around 2^32 (see `C30_wrap_wrong`). -/
theorem C30_no_bin_left (a : BinAxis α) (hc : a.Contiguous) (l u : Nat) (h : a.nBins ≤ l + u)
    (h32 : l + u < 2 ^ 32) : Shrinker.shrinkAxis a l u = .throw .value := by
  unfold Shrinker.shrinkAxis
  have := hc.pos
  rw [if_neg (by omega), if_pos (by rw [Nat.mod_eq_of_lt h32]; omega)]

example : ∃ a : BinAxis ℚ, BinAxis.mkEqual "x" 0 1 4 = .ok a ∧ a.nBins ≤ 1 + 3 :=
  ⟨_, (BinAxis.mkEqual_ok_iff).2 ⟨by norm_num, by norm_num, rfl⟩, by norm_num⟩

/-- C30 is not quite true: for buffers whose sum reaches 2^32 the check passes and the allocation
of the edge vectors fails instead. -/
theorem C30_wrap_wrong : ∃ a : BinAxis ℚ, BinAxis.mkEqual "x" 0 1 4 = .ok a ∧
    Shrinker.shrinkAxis a 1 (2 ^ 32 - 1) = .throw .stdLogic := by
  refine ⟨_, (BinAxis.mkEqual_ok_iff).2 ⟨by norm_num, by norm_num, rfl⟩, ?_⟩
  unfold Shrinker.shrinkAxis
  rw [if_neg (by norm_num), if_neg (by norm_num), if_pos (by norm_num)]

/-! ### The bin map -/

theorem buf_none {bufs : SMap (Nat × Nat)} {n : String} (h : bufs.find n = none) :
    bufLow bufs n = 0 ∧ bufHigh bufs n = 0 := by simp [bufLow, bufHigh, h]
theorem buf_some {bufs : SMap (Nat × Nat)} {n : String} {l u : Nat} (h : bufs.find n = some (l, u)) :
    bufLow bufs n = l ∧ bufHigh bufs n = u := by simp [bufLow, bufHigh, h]

/-- The shrunk version of one axis, as the loop computes it. -/
theorem fitAxis_ok {s : Shrinker α} {a : BinAxis α} (hc : a.Contiguous) (hb : LeavesABin s.buffers a)
    (h31 : a.nBins ≤ 2 ^ 31) :
    ∃ a', FitAxis s.buffers a a' ∧
      (match s.buffers.find a.name with
       | none => Res.ok a
       | some (l, u) => Shrinker.shrinkAxis a l u) = .ok a' := by
  unfold LeavesABin at hb
  cases hf : s.buffers.find a.name with
  | none =>
    obtain ⟨h1, h2⟩ := buf_none hf
    exact ⟨a, ⟨rfl, by omega, fun i _ lo hi => by rw [h1]; simp, hc⟩, rfl⟩
  | some p =>
    obtain ⟨l, u⟩ := p
    obtain ⟨h1, h2⟩ := buf_some hf
    rw [h1, h2] at hb
    obtain ⟨a', e1, e2, e3, e4, e5⟩ := shrinkAxis_ok hc hb (by omega)
    exact ⟨a', ⟨e2, by omega, by rw [h1]; exact e4, e5⟩, e1⟩

theorem forall₂_names {bufs : SMap (Nat × Nat)} {as as' : List (BinAxis α)}
    (h : List.Forall₂ (FitAxis bufs) as as') : as.map (·.name) = as'.map (·.name) := by
  induction h with
  | nil => rfl
  | cons h _ ih => simp only [List.map_cons, ih, h.name]

theorem newAxes_prefix {s : Shrinker α} {d : BinnedED α} {as : List (BinAxis α)} (hv : d.hist.Valid as)
    (hc : ∀ a ∈ as, a.Contiguous) {k : Nat} (hk : k ≤ as.length)
    (hb : ∀ a ∈ as.take k, LeavesABin s.buffers a)
    (h31 : ∀ a ∈ as, a.nBins ≤ 2 ^ 31) (he : s.newAxes = .empty) :
    ∃ c as', Res.forFold (s.axisStep d) s.newAxes (List.range k) = .ok c ∧
      Holds c as' ∧ List.Forall₂ (FitAxis s.buffers) (as.take k) as' := by
  rw [he]
  have := Res.forFold_range (f := s.axisStep d) (n := k) (s := (.empty : AxisCollection α))
    (fun i c => ∃ as', Holds c as' ∧ List.Forall₂ (FitAxis s.buffers) (as.take i) as')
    ⟨[], holds_empty, by simp⟩ (by
      rintro i c hik ⟨bs, h1, h2⟩
      have hi : i < as.length := by omega
      have hmemk : as[i] ∈ as.take k := by
        rw [List.mem_take_iff_getElem]
        exact ⟨i, by omega, rfl⟩
      have hmem : as[i] ∈ as := List.getElem_mem hi
      obtain ⟨a', f1, f2⟩ := fitAxis_ok (s := s) (hc _ hmem) (hb _ hmemk) (h31 _ hmem)
      have hnames : bs.map (·.name) = (as.take i).map (·.name) := by
        exact (forall₂_names h2).symm
      have hnin : a'.name ∉ bs.map (·.name) := by
        rw [hnames, f1.name]
        have hn : ((as.take i ++ as.drop i).map (·.name)).Nodup := by
          rw [List.take_append_drop]; exact hv.axes.nodup
        rw [List.map_append, List.nodup_append] at hn
        intro hin
        refine hn.2.2 _ hin as[i].name ?_ rfl
        exact List.mem_map.2 ⟨as[i], by rw [List.drop_eq_getElem_cons hi]; exact List.mem_cons_self, rfl⟩
      obtain ⟨c', g1, g2⟩ := h1.addAxis_ok a' hnin
      refine ⟨c', ?_, bs ++ [a'], g2, ?_⟩
      · unfold Shrinker.axisStep AxisCollection.getAxis
        rw [hv.axes.axes, at_of_lt hi]
        simp only [Res.mapExc, Res.ok_bind]
        cases hf : s.buffers.find as[i].name with
        | none => rw [hf] at f2; cases f2; exact g1
        | some p =>
          rw [hf] at f2
          obtain ⟨l, u⟩ := p
          simp only at f2 ⊢
          rw [f2]; exact g1
      · rw [List.take_succ_eq_append_getElem hi]
        exact List.rel_append h2 (by simpa using f1))
  obtain ⟨c, h1, as', h2, h3⟩ := this
  exact ⟨c, as', h1, h2, h3⟩

theorem newAxes_ok {s : Shrinker α} {d : BinnedED α} {as : List (BinAxis α)} (hv : d.hist.Valid as)
    (hc : ∀ a ∈ as, a.Contiguous) (hb : ∀ a ∈ as, LeavesABin s.buffers a)
    (h31 : ∀ a ∈ as, a.nBins ≤ 2 ^ 31) (he : s.newAxes = .empty) :
    ∃ c as', Res.forFold (s.axisStep d) s.newAxes (List.range d.hist.nDims) = .ok c ∧
      Holds c as' ∧ List.Forall₂ (FitAxis s.buffers) as as' := by
  have := newAxes_prefix hv hc (le_refl as.length) (by simpa using hb) h31 he
  rw [hv.nd]
  simpa using this

/-- The index arithmetic of the bin map, free of wrap-around. -/
theorem newIndex_ok {s : Shrinker α} {a : BinAxis α} {m old : Nat} (h31 : a.nBins ≤ 2 ^ 31)
    (hm : m + bufLow s.buffers a.name + bufHigh s.buffers a.name = a.nBins) (hp : 0 < m)
    (ho : old < a.nBins) :
    s.newIndex a.name m old = (nearestKept s.buffers a old,
      s.usingOverflows || decide (Kept s.buffers a old)) := by
  have key : ∀ off : Int, off = (old : Int) - bufLow s.buffers a.name →
      (let use1 := if off < 0 then s.usingOverflows else true
       let off := if off < 0 then 0 else off
       let over := (off % 2 ^ 32).toNat ≥ m
       let use2 := if over then s.usingOverflows else true
       let off : Int := if over then Int.bmod ((m : Int) - 1) (2 ^ 32) else off
       ((off % 2 ^ 64).toNat, use1 && use2)) = (nearestKept s.buffers a old,
      s.usingOverflows || decide (Kept s.buffers a old)) := by
    intro off hoff
    have b1 : Int.bmod ((m : Int) - 1) (2 ^ 32) = (m : Int) - 1 := bmod32 (by omega) (by omega)
    have hK : (decide (Kept s.buffers a old)) =
      decide (bufLow s.buffers a.name ≤ old ∧ old + bufHigh s.buffers a.name < a.nBins) := rfl
    simp only [b1, nearestKept, hK]
    by_cases h1 : off < 0
    · simp only [h1, if_true]
      have hz : ¬ ((0 : Int) % 2 ^ 32).toNat ≥ m := by simp; omega
      simp only [hz, if_false]
      ext
      · simp; omega
      · have : ¬ (bufLow s.buffers a.name ≤ old) := by omega
        simp [this]
    · simp only [h1, if_false]
      by_cases h2 : (off % 2 ^ 32).toNat ≥ m
      · simp only [h2, if_true]
        ext
        · simp only; omega
        · have : ¬ (old + bufHigh s.buffers a.name < a.nBins) := by omega
          simp [this]
      · simp only [h2, if_false]
        ext
        · simp only; omega
        · have h3 : (bufLow s.buffers a.name ≤ old) := by omega
          have h4 : (old + bufHigh s.buffers a.name < a.nBins) := by omega
          simp [h3, h4]
  unfold Shrinker.newIndex
  have b0 : Int.bmod (old : Int) (2 ^ 32) = old := bmod32 (by omega) (by omega)
  cases hf : s.buffers.find a.name with
  | none =>
    obtain ⟨g1, g2⟩ := buf_none hf
    simp only [b0]
    exact key _ (by rw [g1]; simp)
  | some p =>
    obtain ⟨l, u⟩ := p
    obtain ⟨g1, g2⟩ := buf_some hf
    have b2 : Int.bmod ((old : Int) - l) (2 ^ 32) = (old : Int) - l := bmod32 (by omega) (by omega)
    simp only [b0, b2]
    exact key _ (by rw [g1])

theorem nearestIndices_inRange {bufs : SMap (Nat × Nat)} {as as' : List (BinAxis α)}
    (hf : List.Forall₂ (FitAxis bufs) as as') (is : List Nat) (hl : is.length = as.length) :
    InRange (List.zipWith (nearestKept bufs) as is) (shape as') := by
  induction hf generalizing is with
  | nil => cases is <;> exact List.Forall₂.nil
  | @cons a a' as as' h _ ih =>
    cases is with
    | nil => simp at hl
    | cons i is =>
      refine List.Forall₂.cons ?_ (ih is (by simpa using hl))
      have := h.count
      have := h.proper.pos
      show nearestKept bufs a i < a'.nBins
      unfold nearestKept; omega

theorem mem_le_prod {ns : List Nat} (hpos : ∀ n ∈ ns, 0 < n) {n : Nat} (h : n ∈ ns) : n ≤ ns.prod := by
  induction ns with
  | nil => cases h
  | cons m ns ih =>
    have h1 : 0 < ns.prod := prod_pos_of (fun k hk => hpos k (by simp [hk]))
    have h2 := hpos m (by simp)
    rw [List.prod_cons]
    rcases List.mem_cons.1 h with rfl | h
    · exact Nat.le_mul_of_pos_right _ h1
    · exact (ih (fun k hk => hpos k (by simp [hk])) h).trans (Nat.le_mul_of_pos_left _ h2)

theorem binEntry_ok {s : Shrinker α} {d : BinnedED α} {as as' : List (BinAxis α)} {c : AxisCollection α}
    (hv : d.hist.Valid as) (hc : ∀ a ∈ as, a.Contiguous) (hsize : (shape as).prod ≤ 2 ^ 31)
    (hh : Holds c as') (hf : List.Forall₂ (FitAxis s.buffers) as as')
    (hsize' : (shape as').prod ≤ 2 ^ 31) {b : Nat}
    (hb : b < (shape as).prod) :
    s.binEntry d c b = .ok ((rowMajor (shape as') (nearestIndices s.buffers as b) : Nat),
      s.usingOverflows || allKept s.buffers as b) := by
  have hlen := hf.length_eq
  have hpos := shape_pos hc
  have hne' : as' ≠ [] := by
    intro h; rw [h] at hlen; exact hv.ne (by simpa using hlen)
  have hdl : (digits (shape as) b).length = as.length := by
    rw [(digits_inRange hpos b).length]; simp
  have ht : Res.traverse (fun j => do
      let a ← d.hist.axes.getAxis j
      let old ← d.hist.axes.unflattenIndex b j
      let b ← c.getAxis j
      pure (s.newIndex a.name b.nBins old)) (List.range d.hist.nDims)
      = .ok (List.zipWith (fun a i => (nearestKept s.buffers a i,
          s.usingOverflows || decide (Kept s.buffers a i))) as (digits (shape as) b)) := by
    have := BinAxis.traverse_range_ok (n := d.hist.nDims) (f := fun j => (do
      let a ← d.hist.axes.getAxis j
      let old ← d.hist.axes.unflattenIndex b j
      let b ← c.getAxis j
      pure (s.newIndex a.name b.nBins old) : Res (Nat × Bool)))
      (g := fun j => (List.zipWith (fun a i => (nearestKept s.buffers a i,
          s.usingOverflows || decide (Kept s.buffers a i))) as (digits (shape as) b)).getD j (0, true))
      (by
        intro j hj
        rw [hv.nd] at hj
        obtain ⟨dg, u1, u2⟩ := hv.axes.unflatten hv.ne hb hj
        have hj' : j < as'.length := by omega
        have hfj : FitAxis s.buffers as[j] as'[j] := by
          have := List.forall₂_iff_get.1 hf
          exact this.2 j hj hj'
        have hdlt : dg < as[j].nBins := by
          have h2 := (List.forall₂_iff_get.1 (digits_inRange hpos b)).2 j (by omega) (by simpa using hj)
          have h3 : (digits (shape as) b)[j]'(by omega) = dg := by
            rw [List.getElem?_eq_getElem (by omega)] at u2; exact Option.some.inj u2
          simp only [List.get_eq_getElem, h3] at h2
          simpa [shape] using h2
        have h31 : as[j].nBins ≤ 2 ^ 31 :=
          (mem_le_prod hpos (by simp only [shape, List.mem_map]; exact ⟨_, List.getElem_mem hj, rfl⟩)).trans hsize
        unfold AxisCollection.getAxis
        rw [hv.axes.axes, at_of_lt hj, hh.axes, at_of_lt hj', u1]
        simp only [Res.mapExc, Res.ok_bind, List.getD, List.getElem?_zipWith, u2,
          List.getElem?_eq_getElem hj, Option.getD_some]
        rw [newIndex_ok h31 (by have := hfj.count; omega) hfj.proper.pos hdlt]
        rfl)
    rw [this, hv.nd]
    congr 1
    apply List.ext_getElem
    · simp [hdl]
    · intro i h1 h2
      simp at h1
      simp [List.getD, h1, hdl]
  unfold Shrinker.binEntry
  rw [ht]
  simp only [Res.ok_bind]
  have hm1 : (List.zipWith (fun a i => (nearestKept s.buffers a i,
      s.usingOverflows || decide (Kept s.buffers a i))) as (digits (shape as) b)).map (·.1)
      = nearestIndices s.buffers as b := by
    unfold nearestIndices; rw [List.map_zipWith]
  rw [hm1, hh.flatten hne' (by simp [nearestIndices, hdl]; omega)]
  simp only [Res.ok_bind]
  have hr := rowMajor_lt (nearestIndices_inRange hf (digits (shape as) b) hdl)
  rw [bmod32 (by omega) (by unfold nearestIndices; omega)]
  congr 2
  unfold allKept
  generalize digits (shape as) b = ds
  cases hov : s.usingOverflows with
  | true =>
    rw [Bool.true_or, List.all_eq_true]
    intro p hp
    rw [List.mem_iff_getElem] at hp
    obtain ⟨i, hi, rfl⟩ := hp
    simp
  | false =>
    simp only [Bool.false_or]
    have e : (List.zipWith (fun a i => decide (Kept s.buffers a i)) as ds)
        = (List.zipWith (fun a i => (nearestKept s.buffers a i, decide (Kept s.buffers a i))) as ds).map (·.2) := by
      rw [List.map_zipWith]
    rw [e, List.all_map]; rfl

theorem setBinMap_ok {s : Shrinker α} {d : BinnedED α} {as : List (BinAxis α)} (hv : d.hist.Valid as)
    (hc : ∀ a ∈ as, a.Contiguous) (hb : ∀ a ∈ as, LeavesABin s.buffers a)
    (hsize : (shape as).prod ≤ 2 ^ 31) (he : s.newAxes = .empty) (hbv : s.binVec = [])
    (hbuf : s.buffers ≠ []) :
    ∃ s' as', s.setBinMap d = .ok s' ∧ s'.buffers = s.buffers ∧
      Holds s'.newAxes as' ∧ List.Forall₂ (FitAxis s.buffers) as as' ∧
      s'.binVec = (List.range (shape as).prod).map
        (fun b => ((rowMajor (shape as') (nearestIndices s.buffers as b) : Nat) : Int)) ∧
      s'.useContent = (List.range (shape as).prod).map
        (fun b => s.usingOverflows || allKept s.buffers as b) := by
  have hpos := shape_pos hc
  have h31 : ∀ a ∈ as, a.nBins ≤ 2 ^ 31 := fun a ha =>
    (mem_le_prod hpos (by simp only [shape, List.mem_map]; exact ⟨_, ha, rfl⟩)).trans hsize
  obtain ⟨c, as', h1, h2, h3⟩ := newAxes_ok hv hc hb h31 he
  have hsize' : (shape as').prod ≤ 2 ^ 31 := by
    refine le_trans ?_ hsize
    clear h1 h2 hpos h31 hsize hb hc hv
    induction h3 with
    | nil => rfl
    | cons h _ ih =>
      simp only [shape, List.map_cons, List.prod_cons] at ih ⊢
      exact Nat.mul_le_mul (by have := h.count; omega) ih
  have ht : Res.traverse (s.binEntry d c) (List.range d.hist.nBins)
      = .ok ((List.range d.hist.nBins).map (fun b =>
        (((rowMajor (shape as') (nearestIndices s.buffers as b) : Nat) : Int),
          s.usingOverflows || allKept s.buffers as b))) := by
    apply BinAxis.traverse_range_ok
    intro b hb'
    rw [hv.nb] at hb'
    exact binEntry_ok hv hc hsize h2 h3 hsize' hb'
  refine ⟨{ s with
      newAxes := c
      binVec := ((List.range d.hist.nBins).map (fun b =>
        (((rowMajor (shape as') (nearestIndices s.buffers as b) : Nat) : Int),
          s.usingOverflows || allKept s.buffers as b))).map (·.1)
      useContent := ((List.range d.hist.nBins).map (fun b =>
        (((rowMajor (shape as') (nearestIndices s.buffers as b) : Nat) : Int),
          s.usingOverflows || allKept s.buffers as b))).map (·.2) }, as', ?_, rfl, ?_⟩
  · unfold Shrinker.setBinMap
    rw [if_neg hbuf, h1]
    simp only [Res.ok_bind]
    rw [if_neg (by simp [hbv]), ht]
    rfl
  · refine ⟨h2, h3, ?_, ?_⟩
    · simp [hv.nb, Function.comp_def]
    · simp [hv.nb, Function.comp_def]

/-! ### Shrinking -/

theorem addAt_zero (l : List α) (k : Nat) : addAt l k 0 = l := by
  unfold addAt
  rw [add_zero]
  by_cases h : k < l.length
  · simp [List.getD, h]
  · rw [List.set_eq_of_length_le (by omega)]

/-- Everything `ShrinkDist` does once the map is set. -/
theorem shrinkDist_ok {s : Shrinker α} {d : BinnedED α} {as as' bs : List (BinAxis α)}
    (hc : ∀ a ∈ as, a.Contiguous) (hsize : (shape as).prod ≤ 2 ^ 31)
    (hbuf : s.buffers ≠ []) {bufs : SMap (Nat × Nat)} {ov : Bool}
    (hh : Holds s.newAxes as') (hne : as ≠ []) (hf : List.Forall₂ (FitAxis bufs) as as')
    (hbv : s.binVec = (List.range (shape as).prod).map
        (fun b => ((rowMajor (shape as') (nearestIndices bufs as b) : Nat) : Int)))
    (huse : s.useContent = (List.range (shape as).prod).map (fun b => ov || allKept bufs as b))
    (hv : d.hist.Valid bs) (hsh : shape bs = shape as) :
    ∃ out, s.shrinkDist d = .ok out ∧ out.name = d.name ++ "_shrunk" ∧ out.obs = d.obs ∧
      out.hist.Valid as' ∧
      out.hist.contents = accum (List.replicate (shape as').prod 0)
        ((List.range (shape as).prod).map (fun b =>
          (rowMajor (shape as') (nearestIndices bufs as b),
            if ov || allKept bufs as b then d.hist.contents.getD b 0 else 0))) := by
  have hpos := shape_pos hc
  have hlen := hf.length_eq
  have hne' : as' ≠ [] := by
    intro h; rw [h] at hlen; exact hne (by simpa using hlen)
  have hsize' : (shape as').prod ≤ 2 ^ 31 := by
    refine le_trans ?_ hsize
    clear hbv huse hh hlen hpos hsize hc hsh hne hne'
    induction hf with
    | nil => rfl
    | cons h _ ih =>
      simp only [shape, List.map_cons, List.prod_cons] at ih ⊢
      exact Nat.mul_le_mul (by have := h.count; omega) ih
  have hv0 := Histogram.valid_ofAxes hh hne'
  have hbin : ∀ b, rowMajor (shape as') (nearestIndices bufs as b) < (shape as').prod := by
    intro b
    refine rowMajor_lt (nearestIndices_inRange hf _ ?_)
    rw [(digits_inRange hpos b).length]; simp
  have hnb : d.hist.nBins = (shape as).prod := by rw [hv.nb, hsh]
  have hloop := hv0.accumLoop (List.range d.hist.nBins)
    (fun b => rowMajor (shape as') (nearestIndices bufs as b))
    (fun b => if ov || allKept bufs as b then d.hist.contents.getD b 0 else 0)
    (s.shrinkStep d) (by
      intro m b hm _ hb
      have hb : b < d.hist.nBins := by simpa using hb
      have hbm := hbin b
      rw [← hm.nb] at hbm
      have hb' : b < (shape as).prod := by omega
      unfold Shrinker.shrinkStep
      rw [hv.get hb, hm.addBin hbm]
      simp only [Res.ok_bind]
      by_cases h0 : d.hist.contents.getD b 0 = 0
      · rw [if_pos h0]
        have : (if (ov || allKept bufs as b) = true then d.hist.contents.getD b 0 else 0) = 0 := by
          rw [h0]; simp
        rw [this, addAt_zero]; rfl
      · rw [if_neg h0, hbv, huse, at_of_lt (by simpa using hb'), at_of_lt (by simpa using hb')]
        simp only [Res.ok_bind, List.getElem_map, List.getElem_range]
        by_cases hk : (ov || allKept bufs as b) = true
        · rw [if_pos hk, if_pos hk]
          have hcast : ((((rowMajor (shape as') (nearestIndices bufs as b) : Nat) : Int) % 2 ^ 64).toNat)
              = rowMajor (shape as') (nearestIndices bufs as b) := by
            rw [hm.nb] at hbm
            omega
          rw [hcast]
          rw [hm.addBin hbm]
        · rw [if_neg hk, if_neg hk, addAt_zero]; rfl)
    (by intro b _; rw [hv0.nb]; exact hbin b)
  generalize hH : ({ (Histogram.ofAxes s.newAxes) with contents := _ } : Histogram α) = H at hloop
  have hvH : H.Valid as' := by
    rw [← hH]; exact hv0.withContents (by rw [accum_length])
  refine ⟨⟨d.name ++ "_shrunk", H, d.obs⟩, ?_, rfl, rfl, hvH, ?_⟩
  · unfold Shrinker.shrinkDist
    rw [if_neg hbuf, hloop]; rfl
  · subst hH
    simp only [Histogram.ofAxes_contents, hh.total_ne hne', hnb]

/-- A shrinker as the code builds it: constructed, told its buffers one call at a time, and told
whether to use overflows. -/
def configureShrinker (calls : List (String × Nat × Nat)) (ov : Bool) : Shrinker α :=
  (calls.foldl (fun s c => s.setBuffer c.1 c.2.1 c.2.2) Shrinker.new).setUsingOverflows ov

theorem configure_foldl (calls : List (String × Nat × Nat)) (s : Shrinker α) :
    let t := calls.foldl (fun s c => s.setBuffer c.1 c.2.1 c.2.2) s
    t.newAxes = s.newAxes ∧ t.binVec = s.binVec ∧ t.usingOverflows = s.usingOverflows ∧
    t.buffers = calls.foldl (fun m c => m.insert c.1 c.2) s.buffers := by
  induction calls generalizing s with
  | nil => exact ⟨rfl, rfl, rfl, rfl⟩
  | cons c calls ih =>
    obtain ⟨h1, h2, h3, h4⟩ := ih (s.setBuffer c.1 c.2.1 c.2.2)
    exact ⟨h1, h2, h3, h4⟩

/-- The buffers in force: the last call for each observable. -/
def buffersOf (calls : List (String × Nat × Nat)) : SMap (Nat × Nat) :=
  calls.foldl (fun m c => m.insert c.1 c.2) []

theorem buffersOf_ne (calls : List (String × Nat × Nat)) (h : calls ≠ []) : buffersOf calls ≠ [] := by
  have key : ∀ (l : List (String × Nat × Nat)) (m : SMap (Nat × Nat)), m ≠ [] →
      l.foldl (fun (m : SMap (Nat × Nat)) c => m.insert c.1 c.2) m ≠ [] := by
    intro l
    induction l with
    | nil => exact fun m h => h
    | cons c l ih =>
      intro m _
      refine ih _ ?_
      intro he
      have he : m.insert c.1 c.2 = [] := he
      have := SMap.find_insert m c.1 c.1 c.2
      rw [he] at this; simp [SMap.find] at this
  obtain ⟨c, l, rfl⟩ := List.exists_cons_of_ne_nil h
  refine key l _ ?_
  simp [SMap.insert]

section
variable (calls : List (String × Nat × Nat)) (ov : Bool) (hcalls : calls ≠ [])
variable (d d' : BinnedED α) (as bs : List (BinAxis α)) (hv : d.hist.Valid as)
variable (hc : ∀ a ∈ as, a.Contiguous) (hb : ∀ a ∈ as, LeavesABin (buffersOf calls) a)
variable (hsize : (shape as).prod ≤ 2 ^ 31)
variable (hv' : d'.hist.Valid bs) (hsh : shape bs = shape as)
include hcalls hv hc hb hsize hv' hsh

theorem shrink_both : ∃ s' as' out, (configureShrinker calls ov : Shrinker α).setBinMap d = .ok s' ∧
    s'.shrinkDist d' = .ok out ∧ List.Forall₂ (FitAxis (buffersOf calls)) as as' ∧
    out.hist.Valid as' ∧ out.name = d'.name ++ "_shrunk" ∧ out.obs = d'.obs ∧
    out.hist.contents = accum (List.replicate (shape as').prod 0)
        ((List.range (shape as).prod).map (fun b =>
          (rowMajor (shape as') (nearestIndices (buffersOf calls) as b),
            if ov || allKept (buffersOf calls) as b then d'.hist.contents.getD b 0 else 0))) := by
  obtain ⟨c1, c2, c3, c4⟩ := configure_foldl calls (Shrinker.new : Shrinker α)
  have hbufs : (configureShrinker calls ov : Shrinker α).buffers = buffersOf calls := c4
  have hne := buffersOf_ne calls hcalls
  obtain ⟨s', as', e1, e2, e3, e4, e5, e6⟩ := setBinMap_ok (s := configureShrinker calls ov) hv hc
    (by rw [hbufs]; exact hb) hsize c1 c2 (by rw [hbufs]; exact hne)
  rw [hbufs] at e2 e4 e5 e6
  obtain ⟨out, f1, f2, f3, f4, f5⟩ := shrinkDist_ok (s := s') (d := d') (ov := ov) hc hsize
    (by rw [e2]; exact hne) e3 hv.ne e4 e5 e6 hv' hsh
  exact ⟨s', as', out, e1, f1, e4, f4, f2, f3, f5⟩

end

theorem getD_replicate_zero (n j : Nat) : (List.replicate n (0 : α)).getD j 0 = 0 := by
  simp only [List.getD, List.getElem?_replicate]
  split <;> rfl

theorem sum_filter_range (n : Nat) (P : Nat → Prop) [DecidablePred P] (f : Nat → α) (w : Nat → α)
    (b0 : Nat) (h0 : b0 < n) (hw : ∀ b, b < n → (if P b then w b else 0) = if b = b0 then f b else 0) :
    (((List.range n).filter P).map w).sum = f b0 := by
  have h1 : ∀ m, (((List.range m).filter P).map w).sum
      = ((List.range m).map (fun b => if P b then w b else 0)).sum := by
    intro m
    induction m with
    | zero => rfl
    | succ m ih =>
      rw [List.range_succ, List.filter_append, List.map_append, List.sum_append, ih, List.map_append,
        List.sum_append]
      congr 1
      by_cases hp : P m <;> simp [hp]
  have h2 : ∀ m, m ≤ n → ((List.range m).map (fun b => if P b then w b else 0)).sum
      = if b0 < m then f b0 else 0 := by
    intro m hm
    induction m with
    | zero => simp
    | succ m ih =>
      rw [List.range_succ, List.map_append, List.sum_append, ih (by omega)]
      simp only [List.map_cons, List.map_nil, List.sum_cons, List.sum_nil, add_zero]
      rw [hw m (by omega)]
      by_cases e : m = b0
      · subst e; simp
      · rw [if_neg e, add_zero]
        by_cases g : b0 < m
        · rw [if_pos g, if_pos (by omega)]
        · rw [if_neg g, if_neg (by omega)]
  rw [h1, h2 n le_rfl, if_pos h0]

theorem kept_iff {bufs : SMap (Nat × Nat)} {as as' : List (BinAxis α)}
    (hf : List.Forall₂ (FitAxis bufs) as as') {ds is : List Nat} (hd : InRange ds (shape as))
    (hi : InRange is (shape as')) :
    ((List.zipWith (fun a i => decide (Kept bufs a i)) as ds).all id = true ∧
      List.zipWith (nearestKept bufs) as ds = is) ↔
    ds = List.zipWith (fun a i => bufLow bufs a.name + i) as is := by
  induction hf generalizing ds is with
  | nil =>
    cases hd; cases hi; simp
  | @cons a a' as as' h _ ih =>
    cases hd with
    | @cons d _ ds _ d1 d2 =>
      cases hi with
      | @cons i _ is _ i1 i2 =>
        have ih := ih d2 i2
        simp only [List.zipWith_cons_cons, List.all_cons, id, Bool.and_eq_true, decide_eq_true_eq,
          List.cons.injEq]
        rw [← ih]
        have hcnt := h.count
        have hp : 0 < a'.nBins := h.proper.pos
        have i1 : i < a'.nBins := i1
        have d1 : d < a.nBins := d1
        unfold Kept nearestKept
        constructor
        · rintro ⟨⟨⟨k1, k2⟩, k3⟩, k4, k5⟩
          exact ⟨by omega, k3, k5⟩
        · rintro ⟨k1, k3, k5⟩
          exact ⟨⟨⟨by omega, by omega⟩, k3⟩, by omega, k5⟩

theorem shifted_inRange {bufs : SMap (Nat × Nat)} {as as' : List (BinAxis α)}
    (hf : List.Forall₂ (FitAxis bufs) as as') {is : List Nat} (hi : InRange is (shape as')) :
    InRange (List.zipWith (fun a i => bufLow bufs a.name + i) as is) (shape as) := by
  induction hf generalizing is with
  | nil => cases hi; exact List.Forall₂.nil
  | @cons a a' as as' h _ ih =>
    cases hi with
    | @cons i _ is _ i1 i2 =>
      refine List.Forall₂.cons ?_ (ih i2)
      have hcnt := h.count
      have i1 : i < a'.nBins := i1
      show bufLow bufs a.name + i < a.nBins
      omega

theorem contentOf {h : Histogram α} {as : List (BinAxis α)} (hv : h.Valid as) {b : Nat}
    (hb : b < (shape as).prod) : h.content b = h.contents.getD b 0 := by
  unfold Histogram.content
  rw [hv.get (by rw [hv.nb]; exact hb)]

/-- C30, overflows off. For any buffers that leave at least one bin on every axis of `d`, the map is
set up from `d`, and shrinking any distribution `d'` with the same numbers of bins gives a
distribution over the fit-region axes, in which the bin with indices `is` holds exactly what `d'`
holds in the bin with indices `low + is`: the bins inside the buffers and nothing else. -/
theorem C30_overflow_off (calls : List (String × Nat × Nat)) (hcalls : calls ≠ [])
    (d d' : BinnedED α) (as bs : List (BinAxis α)) (hv : d.hist.Valid as)
    (hc : ∀ a ∈ as, a.Contiguous) (hb : ∀ a ∈ as, LeavesABin (buffersOf calls) a)
    (hsize : (shape as).prod ≤ 2 ^ 31) (hv' : d'.hist.Valid bs) (hsh : shape bs = shape as) :
    ∃ s' as' out, (configureShrinker calls false : Shrinker α).setBinMap d = .ok s' ∧
      s'.shrinkDist d' = .ok out ∧ out.name = d'.name ++ "_shrunk" ∧ out.obs = d'.obs ∧
      List.Forall₂ (FitAxis (buffersOf calls)) as as' ∧ out.hist.Valid as' ∧
      ∀ is, InRange is (shape as') →
        out.hist.content (rowMajor (shape as') is) =
          d'.hist.content (rowMajor (shape as)
            (List.zipWith (fun a i => bufLow (buffersOf calls) a.name + i) as is)) := by
  obtain ⟨s', as', out, e1, e2, e3, e4, e5, e6, e7⟩ :=
    shrink_both calls false hcalls d d' as bs hv hc hb hsize hv' hsh
  refine ⟨s', as', out, e1, e2, e5, e6, e3, e4, ?_⟩
  intro is his
  have hpos := shape_pos hc
  have hsr := shifted_inRange e3 his
  have hb0 := rowMajor_lt hsr
  have hdl : ∀ b, (digits (shape as) b).length = as.length := by
    intro b; rw [(digits_inRange hpos b).length]; simp
  rw [contentOf e4 (rowMajor_lt his), contentOf hv' (by rw [hsh]; exact hb0), e7,
    accum_getD _ _ (by
      intro p hp
      obtain ⟨b, _, rfl⟩ := List.mem_map.1 hp
      simp only [List.length_replicate]
      exact rowMajor_lt (nearestIndices_inRange e3 _ (hdl b)))]
  rw [List.filter_map, List.map_map]
  simp only [Function.comp_def, Bool.false_or]
  rw [getD_replicate_zero, zero_add]
  refine sum_filter_range _ (fun b => rowMajor (shape as') (nearestIndices (buffersOf calls) as b)
    = rowMajor (shape as') is) (fun b => d'.hist.contents.getD b 0) _ _ hb0 ?_
  intro b hbl
  have hdr := digits_inRange hpos b
  have hk := kept_iff e3 hdr his
  have hnr := nearestIndices_inRange e3 (digits (shape as) b) (hdl b)
  by_cases hbe : b = rowMajor (shape as)
      (List.zipWith (fun a i => bufLow (buffersOf calls) a.name + i) as is)
  · have hde : digits (shape as) b
        = List.zipWith (fun a i => bufLow (buffersOf calls) a.name + i) as is := by
      rw [hbe, digits_rowMajor hsr]
    obtain ⟨k1, k2⟩ := hk.2 hde
    rw [if_pos hbe, if_pos (by unfold nearestIndices; rw [k2]),
      if_pos (show allKept (buffersOf calls) as b = true from k1)]
  · rw [if_neg hbe]
    by_cases h1 : rowMajor (shape as') (nearestIndices (buffersOf calls) as b) = rowMajor (shape as') is
    · rw [if_pos h1]
      by_cases h2 : allKept (buffersOf calls) as b = true
      · exfalso
        apply hbe
        rw [← hk.1 ⟨h2, rowMajor_inj hnr his h1⟩, rowMajor_digits hbl]
      · rw [if_neg h2]
    · rw [if_neg h1]

/-- C30, overflows on. Every bin's content is added to the nearest bin of the fit region, and so the
integral is unchanged. -/
theorem C30_overflow_on (calls : List (String × Nat × Nat)) (hcalls : calls ≠ [])
    (d d' : BinnedED α) (as bs : List (BinAxis α)) (hv : d.hist.Valid as)
    (hc : ∀ a ∈ as, a.Contiguous) (hb : ∀ a ∈ as, LeavesABin (buffersOf calls) a)
    (hsize : (shape as).prod ≤ 2 ^ 31) (hv' : d'.hist.Valid bs) (hsh : shape bs = shape as) :
    ∃ s' as' out, (configureShrinker calls true : Shrinker α).setBinMap d = .ok s' ∧
      s'.shrinkDist d' = .ok out ∧ out.name = d'.name ++ "_shrunk" ∧ out.obs = d'.obs ∧
      List.Forall₂ (FitAxis (buffersOf calls)) as as' ∧ out.hist.Valid as' ∧
      (∀ is, InRange is (shape as') →
        out.hist.content (rowMajor (shape as') is) =
          (((List.range (shape as).prod).filter
            (fun b => List.zipWith (nearestKept (buffersOf calls)) as (digits (shape as) b) = is)).map
              d'.hist.content).sum) ∧
      out.hist.integral = d'.hist.integral := by
  obtain ⟨s', as', out, e1, e2, e3, e4, e5, e6, e7⟩ :=
    shrink_both calls true hcalls d d' as bs hv hc hb hsize hv' hsh
  have hpos := shape_pos hc
  have hdl : ∀ b, (digits (shape as) b).length = as.length := by
    intro b; rw [(digits_inRange hpos b).length]; simp
  refine ⟨s', as', out, e1, e2, e5, e6, e3, e4, ?_, ?_⟩
  · intro is his
    rw [contentOf e4 (rowMajor_lt his), e7,
      accum_getD _ _ (by
        intro p hp
        obtain ⟨b, _, rfl⟩ := List.mem_map.1 hp
        simp only [List.length_replicate]
        exact rowMajor_lt (nearestIndices_inRange e3 _ (hdl b)))]
    rw [List.filter_map, List.map_map]
    simp only [Function.comp_def, Bool.true_or, if_true]
    rw [getD_replicate_zero, zero_add]
    have hfe : (List.range (shape as).prod).filter (fun b =>
          decide (rowMajor (shape as') (nearestIndices (buffersOf calls) as b) = rowMajor (shape as') is))
        = (List.range (shape as).prod).filter
          (fun b => decide (List.zipWith (nearestKept (buffersOf calls)) as (digits (shape as) b) = is)) := by
      apply List.filter_congr
      intro b hb
      apply decide_eq_decide.2
      constructor
      · intro h
        exact rowMajor_inj (nearestIndices_inRange e3 (digits (shape as) b) (hdl b)) his h
      · intro h; unfold nearestIndices; rw [h]
    rw [hfe]
    congr 1
    apply List.map_congr_left
    intro b hb
    have hb := (List.mem_filter.1 hb).1
    rw [contentOf hv' (by rw [hsh]; simpa using hb)]
  · rw [e4.integral, hv'.integral, e7, accum_sum _ _ (by
        intro p hp
        obtain ⟨b, _, rfl⟩ := List.mem_map.1 hp
        simp only [List.length_replicate]
        exact rowMajor_lt (nearestIndices_inRange e3 _ (hdl b)))]
    have hz : ∀ n : Nat, (List.replicate n (0 : α)).sum = 0 := by
      intro n; induction n with
      | zero => rfl
      | succ n ih => rw [List.replicate_succ, List.sum_cons, ih, zero_add]
    simp only [hz, zero_add, List.map_map, Function.comp_def, Bool.true_or,
      if_true]
    rw [← sum_eq_getD_range _ _ (by rw [hv'.len, hsh])]

/-- C30: if the buffers leave no bin on some axis of the distribution, setting up the map is
rejected with `ValueError` (sums of buffers below 2^32, axes of at most 2^31 bins). -/
theorem C30_rejected (calls : List (String × Nat × Nat)) (ov : Bool)
    (d : BinnedED α) (as : List (BinAxis α)) (hv : d.hist.Valid as)
    (hc : ∀ a ∈ as, a.Contiguous) (h31 : ∀ a ∈ as, a.nBins ≤ 2 ^ 31)
    (h32 : ∀ a ∈ as, bufLow (buffersOf calls) a.name + bufHigh (buffersOf calls) a.name < 2 ^ 32)
    (hbad : ∃ a ∈ as, ¬ LeavesABin (buffersOf calls) a) :
    (configureShrinker calls ov : Shrinker α).setBinMap d = .throw .value := by
  obtain ⟨c1, c2, c3, c4⟩ := configure_foldl calls (Shrinker.new : Shrinker α)
  have hbufs : (configureShrinker calls ov : Shrinker α).buffers = buffersOf calls := c4
  have hne : buffersOf calls ≠ [] := by
    intro he
    obtain ⟨a, ha, hb⟩ := hbad
    apply hb
    unfold LeavesABin
    rw [he]
    simpa [bufLow, bufHigh, SMap.find] using (hc a ha).pos
  obtain ⟨i, hi, hbi, hmin⟩ : ∃ i, ∃ hi : i < as.length, ¬ LeavesABin (buffersOf calls) as[i] ∧
      ∀ j, j < i → ∀ hj : j < as.length, LeavesABin (buffersOf calls) as[j] := by
    have hex : ∃ i, ∃ hi : i < as.length, ¬ LeavesABin (buffersOf calls) as[i] := by
      obtain ⟨a, ha, hb⟩ := hbad
      obtain ⟨i, hi, rfl⟩ := List.mem_iff_getElem.1 ha
      exact ⟨i, hi, hb⟩
    classical
    refine ⟨Nat.find hex, (Nat.find_spec hex).1, (Nat.find_spec hex).2, ?_⟩
    intro j hj hl
    by_contra hcon
    exact Nat.find_min hex hj ⟨hl, hcon⟩
  obtain ⟨c, as', e1, e2, e3⟩ := newAxes_prefix (s := configureShrinker calls ov) hv hc (k := i)
    (by omega) (by
      intro a ha
      rw [List.mem_take_iff_getElem] at ha
      obtain ⟨j, hj, rfl⟩ := ha
      rw [hbufs]; exact hmin j (by omega) (by omega)) h31 c1
  have hmem : as[i] ∈ as := List.getElem_mem hi
  have hstep : (configureShrinker calls ov : Shrinker α).axisStep d c i = .throw .value := by
    unfold Shrinker.axisStep AxisCollection.getAxis
    rw [hv.axes.axes, at_of_lt hi]
    simp only [Res.mapExc, Res.ok_bind]
    rw [hbufs]
    unfold LeavesABin at hbi
    have h32 := h32 _ hmem
    cases hf : (buffersOf calls).find as[i].name with
    | none =>
      obtain ⟨g1, g2⟩ := buf_none hf
      have := (hc _ hmem).pos
      omega
    | some p =>
      obtain ⟨l, u⟩ := p
      obtain ⟨g1, g2⟩ := buf_some hf
      rw [g1, g2] at h32 hbi
      simp only
      rw [C30_no_bin_left _ (hc _ hmem) l u (by omega) h32]; rfl
  unfold Shrinker.setBinMap
  rw [if_neg (by rw [hbufs]; exact hne)]
  have : Res.forFold ((configureShrinker calls ov : Shrinker α).axisStep d)
      (configureShrinker calls ov : Shrinker α).newAxes (List.range d.hist.nDims) = .throw .value := by
    obtain ⟨m, hm⟩ : ∃ m, as.length = i + (1 + m) := ⟨as.length - i - 1, by omega⟩
    rw [hv.nd, hm, List.range_add, Res.forFold_append, e1]
    simp only [Res.bind]
    rw [show 1 + m = m + 1 by omega, List.range_succ_eq_map, List.map_cons]
    simp only [Res.forFold, Nat.add_zero, hstep]
  rw [this]; rfl

example : bufLow (buffersOf [("x", 3, 1)]) "x" + bufHigh (buffersOf [("x", 3, 1)]) "x" = 4 := by decide

/-- C30, no buffers: the distribution comes back as it was, whatever the other settings. -/
theorem C30_no_buffers (ov : Bool) (d : BinnedED α) :
    ∃ s', (configureShrinker [] ov : Shrinker α).setBinMap d = .ok s' ∧ s'.shrinkDist d = .ok d :=
  ⟨configureShrinker [] ov, rfl, rfl⟩

/-- Non-vacuity: a 4 × 3 grid with one bin cut below and one above on the first axis. -/
example : ∃ (as : List (BinAxis ℚ)) (c : AxisCollection ℚ),
    (AxisCollection.empty : AxisCollection ℚ).addAxes as = .ok c ∧
    (BinnedED.ofAxes "d" c).hist.Valid as ∧ (∀ a ∈ as, a.Contiguous) ∧
    (∀ a ∈ as, LeavesABin (buffersOf [("x", 1, 1)]) a) ∧ (shape as).prod ≤ 2 ^ 31 ∧
    shape as = [4, 3] := by
  obtain ⟨ax, hax⟩ : ∃ a, BinAxis.mkEqual "x" (0 : ℚ) 4 4 = .ok a :=
    ⟨_, (BinAxis.mkEqual_ok_iff).2 ⟨by norm_num, by norm_num, rfl⟩⟩
  obtain ⟨ay, hay⟩ : ∃ a, BinAxis.mkEqual "y" (0 : ℚ) 3 3 = .ok a :=
    ⟨_, (BinAxis.mkEqual_ok_iff).2 ⟨by norm_num, by norm_num, rfl⟩⟩
  have hx := (BinAxis.mkEqual_ok_iff.1 hax).2.2
  have hy := (BinAxis.mkEqual_ok_iff.1 hay).2.2
  have nx : ax.name = "x" ∧ ax.nBins = 4 := by rw [hx]; exact ⟨rfl, rfl⟩
  have ny : ay.name = "y" ∧ ay.nBins = 3 := by rw [hy]; exact ⟨rfl, rfl⟩
  obtain ⟨c, hcc⟩ := addAxes_ok_of_nodup (as := [ax, ay]) (by simp [nx.1, ny.1])
  refine ⟨[ax, ay], c, hcc, Histogram.valid_ofAxes (holds_of_addAxes hcc) (by simp), ?_, ?_, ?_, ?_⟩
  · intro a ha
    rcases List.mem_cons.1 ha with rfl | ha
    · exact BinAxis.mkEqual_contiguous hax
    · obtain rfl := List.mem_singleton.1 ha; exact BinAxis.mkEqual_contiguous hay
  · intro a ha
    rcases List.mem_cons.1 ha with rfl | ha
    · unfold LeavesABin; rw [nx.1, nx.2]; decide
    · obtain rfl := List.mem_singleton.1 ha
      unfold LeavesABin; rw [ny.1, ny.2]; decide
  · simp [shape, nx.2, ny.2]
  · simp [shape, nx.2, ny.2]

end Oxsx
