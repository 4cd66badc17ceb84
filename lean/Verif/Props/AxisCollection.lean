import Verif.Lemmas.AxisCollection
import Verif.Props.Axis
/-
Properties C04 (flat/per-axis index bijection) and C05 (multi-dimensional lookup).
-/
set_option linter.unusedSectionVars false
set_option linter.unusedSimpArgs false
namespace Oxsx
open AxisCollection
variable {α : Type} [Field α] [LinearOrder α] [IsStrictOrderedRing α]

/-! ### C04 -/

/-- C04 (building): a collection can be built from a list of axes iff their names are distinct
(otherwise `ValueError`); it then has as many dimensions as axes and its number of bins is the
product of theirs (0 for no axes). -/
theorem C04_build (as : List (BinAxis α)) :
    ((as.map (·.name)).Nodup → ∃ c, (empty : AxisCollection α).addAxes as = .ok c) ∧
    (¬ (as.map (·.name)).Nodup → (empty : AxisCollection α).addAxes as = .throw .value) ∧
    (∀ c, (empty : AxisCollection α).addAxes as = .ok c →
      c.nDims = as.length ∧ c.nBins = (if as = [] then 0 else (as.map (·.nBins)).prod) ∧
      c.axisNames = as.map (·.name) ∧ c.axes = as) := by
  refine ⟨addAxes_ok_of_nodup, ?_, ?_⟩
  · intro hn
    have key : ∀ (bs as : List (BinAxis α)) (c : AxisCollection α), Holds c as →
        ¬ ((as ++ bs).map (·.name)).Nodup → Res.forFold addAxis c bs = .throw .value := by
      intro bs
      induction bs with
      | nil => intro as c h hn; exact absurd (by simpa using h.nodup) hn
      | cons b bs ih =>
        intro as c h hn
        by_cases hb : b.name ∈ as.map (·.name)
        · simp only [Res.forFold, h.addAxis_dup b hb]
        · obtain ⟨c2, h3, h4⟩ := h.addAxis_ok b hb
          rw [Res.forFold_cons_ok h3]
          exact ih (as ++ [b]) c2 h4 (by simpa using hn)
    exact key as [] empty holds_empty (by simpa using hn)
  · intro c hc
    have h := holds_of_addAxes hc
    exact ⟨h.dims, h.total, h.names, h.axes⟩

/-- C04 (bijection): on a collection built from at least one axis, flattening valid indices gives a
valid flat bin which unflattens to the same indices, and conversely. -/
theorem C04_flatten_bijection (as : List (BinAxis α)) (c : AxisCollection α)
    (hb : (empty : AxisCollection α).addAxes as = .ok c) (hn : as ≠ []) 
    (hpos : ∀ a ∈ as, 0 < a.nBins) :
    (∀ is : List Nat, List.Forall₂ (fun i (a : BinAxis α) => i < a.nBins) is as →
      ∃ b, c.flattenIndices is = .ok b ∧ b < c.nBins ∧ c.unpackIndices b = .ok is) ∧
    (∀ b, b < c.nBins → ∃ is, c.unpackIndices b = .ok is ∧
      List.Forall₂ (fun i (a : BinAxis α) => i < a.nBins) is as ∧ c.flattenIndices is = .ok b) := by
  have h := holds_of_addAxes hb
  have hf : ∀ is : List Nat, List.Forall₂ (fun i (a : BinAxis α) => i < a.nBins) is as ↔
      InRange is (shape as) := by
    intro is; unfold InRange shape; rw [List.forall₂_map_right_iff]
  have hsp : ∀ n ∈ shape as, 0 < n := by
    intro n hn; simp only [shape, List.mem_map] at hn
    obtain ⟨a, ha, rfl⟩ := hn; exact hpos a ha
  constructor
  · intro is his
    have hr := (hf is).1 his
    have hlt := rowMajor_lt hr
    refine ⟨rowMajor (shape as) is, h.flatten hn (by simpa using hr.length), ?_, ?_⟩
    · rw [h.total_ne hn]; exact hlt
    · rw [h.unpack hn hlt, digits_rowMajor hr]
  · intro b hb
    rw [h.total_ne hn] at hb
    refine ⟨digits (shape as) b, h.unpack hn hb, (hf _).2 (digits_inRange hsp b), ?_⟩
    rw [h.flatten hn (by simp), rowMajor_digits hb]

/-- C04 (layout): the flat index is the row-major number of the index tuple, i.e. the last axis varies
fastest: incrementing the last index increments the flat bin by one, and the index of an earlier axis
has the product of the later bin counts as its weight. -/
theorem C04_layout (as : List (BinAxis α)) (c : AxisCollection α)
    (hb : (empty : AxisCollection α).addAxes as = .ok c) (hn : as ≠ [])
    (is : List Nat) (hl : is.length = as.length) :
    c.flattenIndices is = .ok ((List.range as.length).map
      (fun k => is.getD k 0 * ((as.drop (k + 1)).map (·.nBins)).prod)).sum := by
  have h := holds_of_addAxes hb
  rw [h.flatten hn hl, rowMajor_eq_sum (by simpa using hl)]
  simp [shape, List.map_drop]

/-- C04 (errors): wrong number of indices is a `DimensionError`. -/
theorem C04_flatten_dim (as : List (BinAxis α)) (c : AxisCollection α)
    (hb : (empty : AxisCollection α).addAxes as = .ok c) (is : List Nat)
    (hl : is.length ≠ as.length) : c.flattenIndices is = .throw .dimension :=
  (holds_of_addAxes hb).flatten_dim hl

/-- C04 (errors of the inverse): with two or more axes a flat bin number that does not exist is a `NotFoundError`, for one axis index and for
all of them; with one axis the number is returned unchecked. -/
theorem C04_unflatten_range (as : List (BinAxis α)) (c : AxisCollection α) (hb : (empty : AxisCollection α).addAxes as = .ok c) (b : Nat) (hr : c.nBins ≤ b) :
    (2 ≤ as.length → (∀ d, c.unflattenIndex b d = .throw .notFound) ∧ c.unpackIndices b = .throw .notFound) ∧
    (as.length = 1 → (∀ d, c.unflattenIndex b d = .ok b) ∧ c.unpackIndices b = .ok [b]) := by
  have h := holds_of_addAxes hb
  constructor
  · intro h2
    have key : ∀ d, c.unflattenIndex b d = .throw .notFound := by
      intro d
      unfold unflattenIndex
      rw [if_neg (by rw [h.dims]; omega), if_pos hr]
    refine ⟨key, ?_⟩
    unfold unpackIndices
    obtain ⟨n, hn⟩ : ∃ n, c.nDims = n + 1 := ⟨c.nDims - 1, by rw [h.dims]; omega⟩
    rw [hn, List.range_succ_eq_map]
    unfold Res.traverse
    rw [key]
  · intro h1
    have key : ∀ d, c.unflattenIndex b d = .ok b := by
      intro d
      unfold unflattenIndex
      rw [if_pos (by rw [h.dims]; omega)]
    refine ⟨key, ?_⟩
    unfold unpackIndices
    rw [h.dims, h1]
    simp only [List.range_one, Res.traverse, key]

/-- Boundary fact used in DESIGN.md: with no axis at all, flattening the empty index list is undefined
behaviour in the code (`indices_.back()` on an empty vector). -/
theorem C04_flatten_noAxes_ub : (empty : AxisCollection α).flattenIndices [] = .ub := by
  simp [flattenIndices, empty]

/-- Three axes used in the examples. -/
def exAxes : List (BinAxis ℚ) :=
  [⟨"x", "x", 2, 0, 2, [0, 1], [1, 2], [1/2, 3/2], [1, 1]⟩,
   ⟨"y", "y", 3, 0, 3, [0, 1, 2], [1, 2, 3], [1/2, 3/2, 5/2], [1, 1, 1]⟩,
   ⟨"z", "z", 2, 0, 2, [0, 1], [1, 2], [1/2, 3/2], [1, 1]⟩]

/-- Those axes are what the constructor returns. -/
theorem exAxes_built : exAxes = [⟨"x", "x", 2, 0, 2, [0, 1], [1, 2], [1/2, 3/2], [1, 1]⟩,
   ⟨"y", "y", 3, 0, 3, [0, 1, 2], [1, 2, 3], [1/2, 3/2, 5/2], [1, 1, 1]⟩,
   ⟨"z", "z", 2, 0, 2, [0, 1], [1, 2], [1/2, 3/2], [1, 1]⟩] ∧
    Res.traverse (fun p : String × Nat => BinAxis.mkEqual p.1 (0 : ℚ) p.2 p.2)
      [("x", 2), ("y", 3), ("z", 2)] = .ok exAxes := ⟨rfl, by decide +kernel⟩

/-- Non-vacuity of the C04 theorems: 2 x 3 x 2 bins. -/
example : ∃ c, (empty : AxisCollection ℚ).addAxes exAxes = .ok c ∧ exAxes ≠ [] ∧
    (∀ a ∈ exAxes, 0 < a.nBins) ∧ c.flattenIndices [1, 2, 0] = .ok 10 ∧
    c.unpackIndices 10 = .ok [1, 2, 0] := by
  obtain ⟨c, hc⟩ := (C04_build exAxes).1 (by decide +kernel)
  refine ⟨c, hc, by decide, by decide, ?_, ?_⟩
  · have := C04_layout exAxes c hc (by decide) [1, 2, 0] rfl
    rw [this]; decide +kernel
  · have := (holds_of_addAxes hc).unpack (by decide) (b := 10) (by decide +kernel)
    rw [this]; decide +kernel

/-! ### C05 -/

/-- `v` lies in the half-open range of the axis. -/
def BinAxis.InAxis (a : BinAxis α) (v : α) : Prop := a.min ≤ v ∧ v < a.max

theorem getD_of_ok {l : List α} {i : Nat} {x : α} (h : at_ l i = .ok x) : l.getD i 0 = x := by
  rw [at_ok] at h; simp [List.getD, h]

theorem forall2_of_get {β γ : Type} {R : β → γ → Prop} {l : List β} {m : List γ}
    (hl : l.length = m.length)
    (h : ∀ (i : Nat) x y, l[i]? = some x → m[i]? = some y → R x y) : List.Forall₂ R l m := by
  rw [List.forall₂_iff_get]
  refine ⟨hl, fun i h1 h2 => h i _ _ ?_ ?_⟩
  · simp [List.get_eq_getElem]
  · simp [List.get_eq_getElem]

/-- C05: the bin of a point. (1) The wrong number of coordinates is a `DimensionError`. (2) Otherwise
the lookup returns a valid flat bin whose per-axis indices are the per-axis lookups, and (3) when the
point is inside every axis range, it lies inside the box of low and high edges reported for that bin,
whose centre is the tuple of midpoints; the one-dimensional accessors agree with the vector ones. -/
theorem C05_findBin (as : List (BinAxis α)) (c : AxisCollection α)
    (hb : (empty : AxisCollection α).addAxes as = .ok c) (hn : as ≠ [])
    (hc : ∀ a ∈ as, a.Contiguous) (vs : List α) :
    (vs.length ≠ as.length → c.findBin vs = .throw .dimension) ∧
    (vs.length = as.length → ∃ b, c.findBin vs = .ok b ∧ b < c.nBins ∧
      c.unpackIndices b = .ok (List.zipWith (fun a v => a.findBin v) as vs) ∧
      (List.Forall₂ BinAxis.InAxis as vs →
        ∃ los his cs, c.getBinLowEdges b c.nDims = .ok los ∧ c.getBinHighEdges b c.nDims = .ok his ∧
          c.getBinCentres b c.nDims = .ok cs ∧
          List.Forall₂ (· ≤ ·) los vs ∧ List.Forall₂ (· < ·) vs his ∧
          cs = List.zipWith (fun lo hi => (lo + hi) / 2) los his ∧
          ∀ d lo hi, los[d]? = some lo → his[d]? = some hi →
            c.getBinLowEdge b d = .ok lo ∧ c.getBinHighEdge b d = .ok hi ∧
            c.getBinCentre b d = .ok ((lo + hi) / 2))) := by
  have h := holds_of_addAxes hb
  constructor
  · intro hl
    unfold AxisCollection.findBin
    rw [Res.throwIf_true_of (by rw [h.dims]; exact hl)]; rfl
  · intro hl
    have hr := findBins_inRange hc hl
    have hlt := rowMajor_lt hr
    refine ⟨_, h.findBin hn hl, by rw [h.total_ne hn]; exact hlt, ?_, ?_⟩
    · rw [h.unpack hn hlt, digits_rowMajor hr]
    · intro hin
      have hdig := digits_rowMajor hr
      set b := rowMajor (shape as) (List.zipWith BinAxis.findBin as vs) with hbdef
      have hpos : ∀ a ∈ as, 0 < a.nBins := fun a ha => (hc a ha).pos
      have hlow := h.binVec hn hlt BinAxis.getBinLowEdge (fun a i => a.lowEdges.getD i 0) (by
        intro a ha i hi
        obtain ⟨lo, hi', hbin, _⟩ := (hc a ha).bins i hi
        rw [hbin.1, getD_of_ok hbin.1]) hpos
      have hhigh := h.binVec hn hlt BinAxis.getBinHighEdge (fun a i => a.highEdges.getD i 0) (by
        intro a ha i hi
        obtain ⟨lo, hi', hbin, _⟩ := (hc a ha).bins i hi
        rw [hbin.2, getD_of_ok hbin.2]) hpos
      have hcen := h.binVec hn hlt BinAxis.getBinCentre
        (fun a i => (a.lowEdges.getD i 0 + a.highEdges.getD i 0) / 2) (by
        intro a ha i hi
        obtain ⟨lo, hi', hbin, _, h4, _⟩ := (hc a ha).bins i hi
        rw [h4, getD_of_ok hbin.1, getD_of_ok hbin.2]) hpos
      rw [hdig] at hlow hhigh hcen
      have facts : ∀ (d : Nat) (a : BinAxis α) (v : α), as[d]? = some a → vs[d]? = some v →
          ∃ lo hi, a.BinIs (a.findBin v) lo hi ∧ lo ≤ v ∧ v < hi ∧
            a.getBinCentre (a.findBin v) = .ok ((lo + hi) / 2) := by
        intro d a v ha hv
        have hca := hc a (List.mem_of_getElem? ha)
        have hina : a.InAxis v := by
          have := (List.forall₂_iff_get.1 hin).2 d (List.getElem?_eq_some_iff.1 ha).1
            (List.getElem?_eq_some_iff.1 hv).1
          obtain ⟨h1, h1'⟩ := List.getElem?_eq_some_iff.1 ha
          obtain ⟨h2, h2'⟩ := List.getElem?_eq_some_iff.1 hv
          simp only [List.get_eq_getElem, h1', h2'] at this
          exact this
        obtain ⟨h1, h2, _⟩ := C03_findBin a hca v
        obtain ⟨lo, hi, hbin, _, h4, _⟩ := hca.bins _ h1
        have := (h2 hina.1 hina.2 _ lo hi hbin).2 rfl
        exact ⟨lo, hi, hbin, this.1, this.2, h4⟩
      rw [h.dims]
      refine ⟨_, _, _, hlow, hhigh, hcen, ?_, ?_, ?_, ?_⟩
      · apply forall2_of_get (by simp [hl])
        intro d x v hx hv
        have hd : d < as.length := by
          have := (List.getElem?_eq_some_iff.1 hv).1; omega
        have ha := List.getElem?_eq_getElem hd
        obtain ⟨lo, hi, hbin, h1, _⟩ := facts d _ v ha hv
        rw [List.getElem?_zipWith, ha, List.getElem?_zipWith, ha, hv] at hx
        simp only [Option.some.injEq] at hx
        rw [← hx, getD_of_ok hbin.1]; exact h1
      · apply forall2_of_get (by simp [hl])
        intro d v x hv hx
        have hd : d < as.length := by
          have := (List.getElem?_eq_some_iff.1 hv).1; omega
        have ha := List.getElem?_eq_getElem hd
        obtain ⟨lo, hi, hbin, _, h1, _⟩ := facts d _ v ha hv
        rw [List.getElem?_zipWith, ha, List.getElem?_zipWith, ha, hv] at hx
        simp only [Option.some.injEq] at hx
        rw [← hx, getD_of_ok hbin.2]; exact h1
      · apply List.ext_getElem
        · simp [hl]
        · intro d h1 h2
          simp
      · intro d lo hi hlo hhi
        have hd : d < as.length := by
          have := (List.getElem?_eq_some_iff.1 hlo).1
          simp [hl] at this; exact this
        have ha := List.getElem?_eq_getElem hd
        have hv : vs[d]? = some vs[d] := List.getElem?_eq_getElem (by omega)
        rw [List.getElem?_zipWith, ha, List.getElem?_zipWith, ha, hv] at hlo hhi
        simp only [Option.some.injEq] at hlo hhi
        obtain ⟨lo', hi', hbin, _, _, h4⟩ := facts d _ _ ha hv
        rw [getD_of_ok hbin.1] at hlo
        rw [getD_of_ok hbin.2] at hhi
        subst hlo; subst hhi
        have key : ∀ f : BinAxis α → Nat → Res α,
            c.getBinOne f b d = f as[d] (as[d].findBin vs[d]) := by
          intro f
          obtain ⟨k, hk1, hk2⟩ := h.binOne hn hlt ha f
          rw [hdig, List.getElem?_zipWith, ha, hv] at hk1
          simp only [Option.some.injEq] at hk1
          rw [hk2, ← hk1]
        refine ⟨?_, ?_, ?_⟩
        · unfold AxisCollection.getBinLowEdge; rw [key]; exact hbin.1
        · unfold AxisCollection.getBinHighEdge; rw [key]; exact hbin.2
        · unfold AxisCollection.getBinCentre; rw [key]; exact h4

/-- C05, the extent of a bin along one dimension: for every bin and dimension the low edge, high edge, centre and width reported are those of one and the
same bin of that axis, namely of the index the bin unpacks to: the centre is the midpoint, the width the difference of the edges, and not negative. -/
theorem C05_extent (as : List (BinAxis α)) (c : AxisCollection α)
    (hb : (empty : AxisCollection α).addAxes as = .ok c) (hc : ∀ a ∈ as, a.Contiguous) {b d : Nat} {a : BinAxis α}
    (hlt : b < c.nBins) (ha : as[d]? = some a) :
    ∃ ks, ∃ k : Nat, ∃ lo hi, c.unpackIndices b = .ok ks ∧ ks[d]? = some k ∧ k < a.nBins ∧ a.BinIs k lo hi ∧ lo ≤ hi ∧
      c.getBinLowEdge b d = .ok lo ∧ c.getBinHighEdge b d = .ok hi ∧ c.getBinCentre b d = .ok ((lo + hi) / 2) ∧
      c.getBinWidth b d = .ok (hi - lo) := by
  have h := holds_of_addAxes hb
  have hn : as ≠ [] := by rintro rfl; simp at ha
  rw [h.total_ne hn] at hlt
  have hun := h.unpack hn hlt
  obtain ⟨k, hk, _⟩ := h.binOne hn hlt ha BinAxis.getBinWidth
  have key : ∀ f : BinAxis α → Nat → Res α, c.getBinOne f b d = f a k := by
    intro f
    obtain ⟨k', hk1, hk2⟩ := h.binOne hn hlt ha f
    rw [hk] at hk1; cases hk1; exact hk2
  have hkl : k < a.nBins := by
    have hr := digits_inRange (ns := shape as) (by simpa [shape] using fun a ha => (hc a ha).pos) b
    have := (List.forall₂_iff_get.1 hr).2 d (List.getElem?_eq_some_iff.1 hk).1 (by simpa [shape] using (List.getElem?_eq_some_iff.1 ha).1)
    obtain ⟨_, rfl⟩ := List.getElem?_eq_some_iff.1 hk
    obtain ⟨_, rfl⟩ := List.getElem?_eq_some_iff.1 ha
    simpa [shape] using this
  obtain ⟨lo, hi, hbin, hlt', hcen, hw⟩ := (hc a (List.mem_of_getElem? ha)).bins k hkl
  refine ⟨_, k, lo, hi, hun, hk, hkl, hbin, hlt', ?_, ?_, ?_, ?_⟩
  · unfold AxisCollection.getBinLowEdge; rw [key]; exact hbin.1
  · unfold AxisCollection.getBinHighEdge; rw [key]; exact hbin.2
  · unfold AxisCollection.getBinCentre; rw [key]; exact hcen
  · unfold AxisCollection.getBinWidth; rw [key]; exact hw

/-- C05 (errors of the one-dimensional accessors): an invalid bin or dimension is `NotFoundError`. -/
theorem C05_accessor_errors (as : List (BinAxis α)) (c : AxisCollection α)
    (hb : (empty : AxisCollection α).addAxes as = .ok c) (b d : Nat)
    (hbad : as.length ≤ d ∨ c.nBins ≤ b) :
    c.getBinLowEdge b d = .throw .notFound ∧ c.getBinHighEdge b d = .throw .notFound ∧
    c.getBinCentre b d = .throw .notFound ∧ c.getBinWidth b d = .throw .notFound := by
  have h := holds_of_addAxes hb
  have key : ∀ f : BinAxis α → Nat → Res α, c.getBinOne f b d = .throw .notFound := by
    intro f
    unfold getBinOne
    by_cases hd : d ≥ c.nDims
    · rw [Res.throwIf_true_of hd]; rfl
    · rw [Res.throwIf_false_of hd, Res.throwIf_true_of]
      · rfl
      · rw [h.dims] at hd
        rcases hbad with h1 | h1
        · omega
        · exact h1
  exact ⟨key _, key _, key _, key _⟩

/-- C05, lists of edges and centres: a bin number above the number of bins is refused; then a vector of another size than the number of axes is refused, also for the first number past the last bin. -/
theorem C05_list_errors (as : List (BinAxis α)) (c : AxisCollection α)
    (hb : (empty : AxisCollection α).addAxes as = .ok c) (b n : Nat) :
    (c.nBins < b → c.getBinLowEdges b n = .throw .notFound ∧ c.getBinHighEdges b n = .throw .notFound ∧ c.getBinCentres b n = .throw .notFound) ∧
    (b ≤ c.nBins → n ≠ as.length → c.getBinLowEdges b n = .throw .dimension ∧ c.getBinHighEdges b n = .throw .dimension ∧ c.getBinCentres b n = .throw .dimension) := by
  have h := holds_of_addAxes hb
  constructor
  · intro hlt
    have key : ∀ f : BinAxis α → Nat → Res α, c.getBinVec f b n = .throw .notFound := by
      intro f
      unfold getBinVec
      rw [Res.throwIf_true_of hlt]; rfl
    exact ⟨key _, key _, key _⟩
  · intro hle hn
    have key : ∀ f : BinAxis α → Nat → Res α, c.getBinVec f b n = .throw .dimension := by
      intro f
      unfold getBinVec
      rw [Res.throwIf_false_of (by omega), Res.throwIf_true_of (by rw [h.dims]; exact hn)]; rfl
    exact ⟨key _, key _, key _⟩

theorem exAxes_contiguous : ∀ a ∈ exAxes, a.Contiguous := by
  intro a ha
  have hb := exAxes_built.2
  have : ∃ p : String × Nat, BinAxis.mkEqual p.1 (0 : ℚ) p.2 p.2 = .ok a := by
    obtain ⟨i, hi⟩ := List.mem_iff_getElem?.1 ha
    have hlt : i < 3 := by
      have := (List.getElem?_eq_some_iff.1 hi).1; exact this
    obtain ⟨p, hp⟩ : ∃ p, [("x", 2), ("y", 3), ("z", 2)][i]? = some p :=
      ⟨_, List.getElem?_eq_getElem (by simpa using hlt)⟩
    obtain ⟨a', h1, h2⟩ := Res.traverse_get hb i p hp
    rw [hi] at h1; cases h1
    exact ⟨p, h2⟩
  obtain ⟨p, hp⟩ := this
  exact BinAxis.mkEqual_contiguous hp

-- three axes with twelve bins
example : ∃ c, (empty : AxisCollection ℚ).addAxes exAxes = .ok c ∧ c.getBinCentres 13 3 = .throw .notFound ∧ c.getBinCentres 12 2 = .throw .dimension := by
  obtain ⟨c, hc⟩ := (C04_build exAxes).1 (by decide +kernel)
  have hn : c.nBins = 12 := by rw [(holds_of_addAxes hc).total_ne (by decide)]; decide +kernel
  exact ⟨c, hc, ((C05_list_errors _ c hc 13 3).1 (by omega)).2.2, ((C05_list_errors _ c hc 12 2).2 (by omega) (by decide)).2.2⟩

/-- Non-vacuity of C05. -/
example : ∃ c, (empty : AxisCollection ℚ).addAxes exAxes = .ok c ∧
    (∀ a ∈ exAxes, a.Contiguous) ∧ List.Forall₂ BinAxis.InAxis exAxes [1/2, 5/2, 3/2] ∧
    c.findBin [1/2, 5/2, 3/2] = .ok 5 := by
  obtain ⟨c, hc⟩ := (C04_build exAxes).1 (by decide +kernel)
  refine ⟨c, hc, exAxes_contiguous, ?_, ?_⟩
  · unfold exAxes BinAxis.InAxis
    repeat' constructor
    all_goals norm_num
  · rw [(holds_of_addAxes hc).findBin (by decide) rfl]; decide +kernel

example : ((empty : AxisCollection ℚ).addAxes exAxes >>= fun c => c.getBinWidth 10 1 >>= fun w => c.getBinLowEdge 10 1 >>= fun l => Res.ok (c.nBins, l, w)) =
    .ok (12, 2, 1) := by decide +kernel

end Oxsx
