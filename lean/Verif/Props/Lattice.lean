import Verif.Props.Slice
/-
Property C12 (lattice points around a point).
-/
set_option linter.unusedSectionVars false
set_option linter.unusedSimpArgs false
set_option linter.unusedVariables false
namespace Oxsx
open AxisCollection Histogram
variable {α : Type} [Field α] [LinearOrder α] [IsStrictOrderedRing α]

/-- `v` lies between the first (included) and the last (excluded) bin centre of the axis. -/
def BinAxis.BetweenCentres (a : BinAxis α) (v : α) : Prop :=
  ∃ x y, a.getBinCentre 0 = .ok x ∧ a.getBinCentre (a.nBins - 1) = .ok y ∧ x ≤ v ∧ v < y

/-- Lower lattice index used by the code along one axis. -/
def loIdx (a : BinAxis α) (v : α) : Nat :=
  a.findBin v + (if v ≥ a.centres.getD (a.findBin v) 0 then 1 else 0) - 1

theorem loIdx_spec (a : BinAxis α) (hc : a.Contiguous) (v : α) (hb : a.BetweenCentres v) :
    loIdx a v + 1 < a.nBins ∧
    1 ≤ a.findBin v + (if v ≥ a.centres.getD (a.findBin v) 0 then 1 else 0) ∧
    ∃ x y, a.getBinCentre (loIdx a v) = .ok x ∧ a.getBinCentre (loIdx a v + 1) = .ok y ∧
      x ≤ v ∧ v < y := by
  obtain ⟨x0, yl, h0, hl, h1, h2⟩ := hb
  have hpos := hc.pos
  obtain ⟨l0, u0, hb0, hle0, hc0, _⟩ := hc.bins 0 hpos
  obtain ⟨ln, un, hbn, hlen, hcn, _⟩ := hc.bins (a.nBins - 1) (by omega)
  rw [h0] at hc0; cases hc0
  rw [hl] at hcn; cases hcn
  have hmin : a.min ≤ v := by
    have := hb0.1; rw [hc.first] at this; cases this; linarith
  have hmax : v < a.max := by
    have := hbn.2; rw [hc.last] at this; cases this; linarith
  obtain ⟨hi, hin, _⟩ := C03_findBin a hc v
  set i := a.findBin v with hidef
  obtain ⟨lo, up, hbi, hle, hci, _⟩ := hc.bins i hi
  have hv := (hin hmin hmax i lo up hbi).2 rfl
  have hcd : a.centres.getD i 0 = (lo + up) / 2 := getD_of_ok hci
  unfold loIdx
  rw [← hidef, hcd]
  by_cases hge : v ≥ (lo + up) / 2
  · rw [if_pos hge]
    have hi1 : i + 1 < a.nBins := by
      by_contra hcon
      have : i = a.nBins - 1 := by omega
      rw [← this] at hl hbn
      rw [hci] at hl
      have := Res.ok.inj hl
      linarith
    obtain ⟨lo', up', hbi', hle', hci', _⟩ := hc.bins (i + 1) hi1
    have hcont := hc.contig i hi1
    rw [hbi.2, hbi'.1] at hcont
    cases hcont
    refine ⟨by omega, by omega, _, _, hci, hci', hge, by linarith [hv.2]⟩
  · rw [if_neg hge]
    push Not at hge
    have hi0 : 1 ≤ i := by
      by_contra hcon
      have : i = 0 := by omega
      rw [this] at hci
      rw [h0] at hci
      have := Res.ok.inj hci
      linarith
    obtain ⟨lo', up', hbi', hle', hci', _⟩ := hc.bins (i - 1) (by omega)
    have hcont := hc.contig (i - 1) (by omega)
    rw [hbi'.2, show i - 1 + 1 = i by omega, hbi.1] at hcont
    cases hcont
    refine ⟨by omega, by omega, _, _, hci', ?_, by linarith [hv.1], hge⟩
    rw [show i + 0 - 1 + 1 = i by omega]; exact hci

/-- C12 (partial): for every point that lies, on each axis, between the first and last bin centre (at most 20
axes and fewer than 2^64 bins), there is a cell corner `lo` with `centre(lo) ≤ p < centre(lo + 1)` on every
axis, and entry `k` of the result is the content and centre of the bin with index `lo_d` or `lo_d + 1` on
axis `d` according to bit `d` of `k`. Missing: points in the outermost half bins, for which the code is
wrong (`C12_lattice_edge_ub`, `C12_lattice_edge_alias`). -/
theorem C12_lattice_interior_partial (as : List (BinAxis α)) (h : Histogram α) (hv : h.Valid as)
    (hc : ∀ a ∈ as, a.Contiguous) (hdim : as.length ≤ 20) (hsize : h.nBins < 2 ^ 64)
    (p : List α) (hp : List.Forall₂ BinAxis.BetweenCentres as p) :
    ∃ (vals : List α) (locs : List (List α)) (lo : List Nat), h.getLatticePointValues p = .ok (vals, locs) ∧
      vals.length = 2 ^ as.length ∧ locs.length = 2 ^ as.length ∧
      (∀ (d : Nat) (a : BinAxis α) (v : α), as[d]? = some a → p[d]? = some v → ∃ l x y, lo[d]? = some l ∧
        a.getBinCentre l = .ok x ∧ a.getBinCentre (l + 1) = .ok y ∧ x ≤ v ∧ v < y) ∧
      ∀ k, k < 2 ^ as.length → ∃ (is : List Nat) (b : Nat) (x : α) (loc : List α), is.length = as.length ∧
        (∀ (d l : Nat), lo[d]? = some l → is[d]? = some (if k.testBit d then l + 1 else l)) ∧
        h.axes.flattenIndices is = .ok b ∧ b < h.nBins ∧
        h.getBinContent b = .ok x ∧ vals[k]? = some x ∧
        h.axes.getBinCentres b as.length = .ok loc ∧ locs[k]? = some loc := by
  have hpl : p.length = as.length := hp.length_eq.symm
  have hpos : ∀ a ∈ as, 0 < a.nBins := fun a ha => (hc a ha).pos
  have hr := findBins_inRange hc hpl
  have hlt := rowMajor_lt hr
  set lo := List.zipWith loIdx as p with hlo
  have hlol : lo.length = as.length := by simp [hlo, hpl]
  have hpair : ∀ (d : Nat) (a : BinAxis α) (v : α), as[d]? = some a → p[d]? = some v → a.BetweenCentres v := by
    intro d a v ha hv'
    obtain ⟨h1, h1'⟩ := List.getElem?_eq_some_iff.1 ha
    obtain ⟨h2, h2'⟩ := List.getElem?_eq_some_iff.1 hv'
    have := (List.forall₂_iff_get.1 hp).2 d h1 h2
    simpa only [List.get_eq_getElem, h1', h2'] using this
  have hcg : ∀ a ∈ as, ∀ i, i < a.nBins → a.getBinCentre i = .ok (a.centres.getD i 0) := by
    intro a ha i hi
    obtain ⟨_, _, _, _, h4, _⟩ := (hc a ha).bins i hi
    rw [h4, getD_of_ok h4]
  -- the indices of corner k
  let ixs : Nat → List Nat := fun k =>
    (List.range as.length).map (fun d => lo.getD d 0 + (if k.testBit d then 1 else 0))
  have hixget : ∀ (k d l : Nat), lo[d]? = some l → (ixs k)[d]? = some (if k.testBit d then l + 1 else l) := by
    intro k d l hl
    have hd : d < as.length := by rw [← hlol]; exact (List.getElem?_eq_some_iff.1 hl).1
    simp only [ixs, List.getElem?_map, List.getElem?_range hd, Option.map_some, List.getD, hl,
      Option.getD_some]
    split <;> rfl
  have hlog : ∀ (d : Nat) (a : BinAxis α) (v : α), as[d]? = some a → p[d]? = some v → lo[d]? = some (loIdx a v) := by
    intro d a v ha hv'
    simp [hlo, List.getElem?_zipWith, ha, hv']
  have hixr : ∀ k, InRange (ixs k) (shape as) := by
    intro k
    apply forall2_of_get (by simp [ixs, shape])
    intro d i n hi hn
    simp only [shape, List.getElem?_map, Option.map_eq_some_iff] at hn
    obtain ⟨a, ha, rfl⟩ := hn
    have hd : d < p.length := by rw [hpl]; exact (List.getElem?_eq_some_iff.1 ha).1
    have hpd : p[d]? = some p[d] := List.getElem?_eq_getElem hd
    have hs := (loIdx_spec a (hc a (List.mem_of_getElem? ha)) _ (hpair d a _ ha hpd)).1
    rw [hixget k d _ (hlog d a _ ha hpd)] at hi
    cases hi
    split <;> omega
  let bk : Nat → Nat := fun k => rowMajor (shape as) (ixs k)
  have hbk : ∀ k, bk k < h.nBins := fun k => by rw [hv.nb]; exact rowMajor_lt (hixr k)
  let lc : Nat → List α := fun k =>
    List.zipWith (fun a i => a.centres.getD i 0) as (digits (shape as) (bk k))
  have hrun : h.getLatticePointValues p = .ok ((List.range (2 ^ as.length)).map (fun k => h.content (bk k)),
      (List.range (2 ^ as.length)).map lc) := by
    unfold getLatticePointValues Histogram.findBin
    rw [hv.axes.findBin hv.ne hpl]
    simp only [Res.ok_bind]
    rw [hv.axes.unpack hv.ne hlt, digits_rowMajor hr]
    simp only [Res.ok_bind]
    unfold AxisCollection.getBinCentres
    rw [hv.nd, hv.axes.binVec hv.ne hlt _ (fun a i => a.centres.getD i 0) hcg hpos, digits_rowMajor hr]
    simp only [Res.ok_bind]
    have e1 : Res.traverse (fun dim => (do
        let v ← at_ p dim
        let c ← at_ (List.zipWith (fun a i => a.centres.getD i 0) as
          (List.zipWith BinAxis.findBin as p)) dim
        pure (decide (v ≥ c)) : Res Bool)) (List.range as.length)
        = .ok (List.zipWith (fun a v => decide (v ≥ a.centres.getD (a.findBin v) 0)) as p) := by
      rw [BinAxis.traverse_range_ok (g := fun d =>
        (List.zipWith (fun a v => decide (v ≥ a.centres.getD (a.findBin v) 0)) as p).getD d false)]
      · congr 1
        apply List.ext_getElem
        · simp [hpl]
        · intro d h1 h2; simp only [List.length_map, List.length_range] at h1
          simp [List.getD, hpl, h1]
      · intro d hd
        rw [at_of_lt (by omega), at_of_lt (by simp; omega)]
        simp [List.getD, hd, hpl]
    rw [e1]
    simp only [Res.ok_bind]
    rw [Res.throwIf_false_of (by omega)]
    simp only [Res.ok_bind]
    rw [Res.traverse_ok (g := fun k => (h.content (bk k), lc k))]
    · simp [List.map_map, Function.comp_def]
    · intro k hk
      have e2 : Res.traverse (fun dim => (do
          let b ← at_ (List.zipWith BinAxis.findBin as p) dim
          let l ← at_ (List.zipWith (fun a v => decide (v ≥ a.centres.getD (a.findBin v) 0)) as p) dim
          pure (wrap64 ((b : Int) + (if Nat.testBit k dim then 1 else 0)
            + (if l then 1 else 0) - 1)) : Res Nat)) (List.range as.length) = .ok (ixs k) := by
        apply BinAxis.traverse_range_ok
        intro d hd
        have hd' : d < p.length := by omega
        rw [at_of_lt (by simp; omega), at_of_lt (by simp; omega)]
        simp only [Res.ok_bind, List.getElem_zipWith, Res.pure_eq, decide_eq_true_eq]
        congr 1
        have ha : as[d]? = some as[d] := List.getElem?_eq_getElem hd
        have hpd : p[d]? = some p[d] := List.getElem?_eq_getElem hd'
        have hs := loIdx_spec as[d] (hc _ (List.getElem_mem _)) _ (hpair d _ _ ha hpd)
        have hmax : as[d].nBins ≤ h.nBins := by
          rw [hv.nb]
          have : as[d].nBins ∣ (shape as).prod :=
            List.dvd_prod (List.mem_map_of_mem (List.getElem_mem hd))
          exact Nat.le_of_dvd (by rw [← hv.nb]; have := hbk 0; omega) this
        have hget : lo.getD d 0 = loIdx as[d] p[d] := by simp [List.getD, hlog d _ _ ha hpd]
        rw [hget]
        have hlodef : loIdx as[d] p[d] = as[d].findBin p[d]
          + (if p[d] ≥ as[d].centres.getD (as[d].findBin p[d]) 0 then 1 else 0) - 1 := rfl
        have h64 : loIdx as[d] p[d] + 1 < 2 ^ 64 := by omega
        have h1 := hs.2.1
        generalize loIdx as[d] p[d] = L at *
        generalize as[d].findBin p[d] = F at *
        unfold wrap64
        by_cases hge : p[d] ≥ as[d].centres.getD F 0 <;> by_cases hbit : k.testBit d = true <;>
          simp only [hge, hbit, if_true, if_false] at h1 hlodef ⊢
        · rw [show ((F : Int) + 1 + 1 - 1) = ((L + 1 : Nat) : Int) by omega]; omega
        · rw [if_neg (by simpa using hbit), if_neg (by simpa using hbit)]
          rw [show ((F : Int) + 0 + 1 - 1) = ((L : Nat) : Int) by omega]; omega
        · rw [show ((F : Int) + 1 + 0 - 1) = ((L + 1 : Nat) : Int) by omega]; omega
        · rw [if_neg (by simpa using hbit), if_neg (by simpa using hbit)]
          rw [show ((F : Int) + 0 + 0 - 1) = ((L : Nat) : Int) by omega]; omega
      rw [e2]
      simp only [Res.ok_bind]
      unfold flattenWrap
      rw [hv.axes.flatten hv.ne (by simp [ixs])]
      simp only [Res.ok_bind, Res.pure_eq]
      have hbk' := hbk k
      rw [show rowMajor (shape as) (ixs k) % 2 ^ 64 = bk k from Nat.mod_eq_of_lt (by
        show bk k < 2 ^ 64; omega)]
      rw [hv.get hbk', hv.axes.binVec hv.ne (by rw [← hv.nb]; exact hbk') _
        (fun a i => a.centres.getD i 0) hcg hpos]
      simp only [Res.ok_bind, content_valid hv hbk', lc]
  refine ⟨_, _, lo, hrun, by simp, by simp, ?_, ?_⟩
  · intro d a v ha hv'
    obtain ⟨_, _, x, y, h3, h4, h5, h6⟩ := loIdx_spec a (hc a (List.mem_of_getElem? ha)) v (hpair d a v ha hv')
    exact ⟨_, x, y, hlog d a v ha hv', h3, h4, h5, h6⟩
  · intro k hk
    refine ⟨ixs k, bk k, h.content (bk k), lc k, by simp [ixs], hixget k,
      hv.axes.flatten hv.ne (by simp [ixs]), hbk k, ?_, ?_, ?_, ?_⟩
    · rw [hv.get (hbk k), content_valid hv (hbk k)]
    · simp [List.getElem?_range hk]
    · exact hv.axes.binVec hv.ne (by rw [← hv.nb]; exact hbk k) _ _ hcg hpos
    · simp [List.getElem?_range hk]

/-- A one-dimensional histogram over [0,3) with three unit bins. -/
def exHist1 : Histogram ℚ :=
  { axes := ⟨[⟨"y", "y", 3, 0, 3, [0, 1, 2], [1, 2, 3], [1/2, 3/2, 5/2], [1, 1, 1]⟩], ["y"], [3], 3, 1⟩,
    contents := [10, 20, 30], nBins := 3, nDims := 1 }

theorem exHist1_valid : exHist1.Valid
    [⟨"y", "y", 3, 0, 3, [0, 1, 2], [1, 2, 3], [1/2, 3/2, 5/2], [1, 1, 1]⟩] :=
  ⟨⟨rfl, rfl, rfl, rfl, rfl, by decide +kernel⟩, by decide, rfl, rfl, rfl⟩

/-- C12 is false in the last half bin: in one dimension the upper neighbour is bin number `GetNBins()`, which
passes the range check and is read past the end (undefined behaviour). In the first half bin of a
one-dimensional histogram the wrapped index is rejected with `NotFoundError`. -/
theorem C12_lattice_edge_ub : exHist1.getLatticePointValues [14/5] = .ub ∧
    exHist1.getLatticePointValues [1/5] = .throw .notFound := by decide +kernel

/-- C12 is false in several dimensions: in the first half bin of a later axis the wrapped index silently
aliases to the last bin of that axis in the previous row. In the 2 x 3 x 2 example, the point
(0.75, 1.75, 0.2) is inside the range; the neighbour returned as its "lower x, y, z" one is the bin (0,0,1),
centred at (0.5, 0.5, 1.5): wrong in y and in z. -/
theorem C12_lattice_edge_alias : ∃ vals locs,
    exHist.getLatticePointValues [3/4, 7/4, 1/5] = .ok (vals, locs) ∧
    exHist.axes.unpackIndices 1 = .ok [0, 0, 1] ∧ vals[0]? = some 1 ∧
    locs[0]? = some [1/2, 1/2, 3/2] := by
  refine ⟨[1, 7, 3, 9, 2, 8, 4, 10], [[1/2, 1/2, 3/2], [3/2, 1/2, 3/2], [1/2, 3/2, 3/2], [3/2, 3/2, 3/2],
    [1/2, 3/2, 1/2], [3/2, 3/2, 1/2], [1/2, 5/2, 1/2], [3/2, 5/2, 1/2]], ?_, ?_, ?_, ?_⟩ <;> decide +kernel

/-- Non-vacuity of the C12 theorem: a point of the 2 x 3 x 2 example. -/
example : exHist.Valid exAxes ∧ (∀ a ∈ exAxes, a.Contiguous) ∧ exHist.nBins < 2 ^ 64 ∧
    List.Forall₂ BinAxis.BetweenCentres exAxes [1, 2, 1] := by
  refine ⟨exHist_valid, exAxes_contiguous, by decide, ?_⟩
  refine List.Forall₂.cons ⟨1/2, 3/2, by decide +kernel, by decide +kernel, by norm_num, by norm_num⟩
    (List.Forall₂.cons ⟨1/2, 5/2, by decide +kernel, by decide +kernel, by norm_num, by norm_num⟩
    (List.Forall₂.cons ⟨1/2, 3/2, by decide +kernel, by decide +kernel, by norm_num, by norm_num⟩
    List.Forall₂.nil))

end Oxsx
