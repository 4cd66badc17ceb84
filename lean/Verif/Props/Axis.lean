import Verif.Lemmas.Axis
import Mathlib.Algebra.Order.Field.Rat
/-
Properties C01 (equal-width axes), C02 (variable-width axes), C03 (bin lookup).
-/
set_option linter.unusedSectionVars false
namespace Oxsx
variable {α : Type} [Field α] [LinearOrder α] [IsStrictOrderedRing α]

/-! ### C01 -/

/-- C01 (acceptance): construction succeeds exactly for `min < max` and `n > 0`, and otherwise throws
`LogicError`. -/
theorem C01_equalAxis_accepts (nm lx : String) (mn mx : α) (n : Nat) :
    ((∃ a, BinAxis.mkEqual nm mn mx n lx = .ok a) ↔ mn < mx ∧ 0 < n) ∧
    (¬ (mn < mx ∧ 0 < n) → BinAxis.mkEqual nm mn mx n lx = .throw .logic) := by
  refine ⟨⟨?_, ?_⟩, BinAxis.mkEqual_throws⟩
  · rintro ⟨a, h⟩
    exact ⟨(BinAxis.mkEqual_ok_iff.1 h).1, (BinAxis.mkEqual_ok_iff.1 h).2.1⟩
  · rintro ⟨h1, h2⟩
    exact ⟨_, BinAxis.mkEqual_ok_iff.2 ⟨h1, h2, rfl⟩⟩

/-- C01 (tiling): the bins of an equal-width axis tile `[min, max]`. -/
theorem C01_equalAxis_tiles (nm lx : String) (mn mx : α) (n : Nat) (a : BinAxis α)
    (h : BinAxis.mkEqual nm mn mx n lx = .ok a) :
    a.name = nm ∧ a.min = mn ∧ a.max = mx ∧ a.nBins = n ∧
    a.getBinLowEdge 0 = .ok mn ∧ a.getBinHighEdge (n - 1) = .ok mx ∧
    (∀ i, i + 1 < n → a.getBinHighEdge i = a.getBinLowEdge (i + 1)) ∧
    (∀ i, i < n → ∃ lo hi, a.getBinLowEdge i = .ok lo ∧ a.getBinHighEdge i = .ok hi ∧
      hi - lo = (mx - mn) / n ∧ 0 < hi - lo ∧
      a.getBinWidth i = .ok (hi - lo) ∧ a.getBinCentre i = .ok ((lo + hi) / 2)) ∧
    (∀ i, n ≤ i → a.getBinLowEdge i = .throw .outOfRange ∧
      a.getBinHighEdge i = .throw .outOfRange) := by
  have hc := BinAxis.mkEqual_contiguous h
  have hp := BinAxis.mkEqual_posWidths h
  have hsave := h
  obtain ⟨h1, h2, ha⟩ := BinAxis.mkEqual_ok_iff.1 h
  have e1 : a.min = mn := by rw [ha]
  have e2 : a.max = mx := by rw [ha]
  have e3 : a.nBins = n := by rw [ha]
  refine ⟨by rw [ha], e1, e2, e3, e1 ▸ hc.first, ?_, ?_, ?_, ?_⟩
  · have := hc.last; rw [e2, e3] at this; exact this
  · intro i hi; exact hc.contig i (by omega)
  · intro i hi
    obtain ⟨lo, hi', hb, _, h4, h5⟩ := hc.bins i (by omega)
    refine ⟨lo, hi', hb.1, hb.2, ?_, sub_pos.2 (hp i lo hi' hb), h5, h4⟩
    have e5 := h5
    rw [ha] at e5
    unfold BinAxis.getBinWidth at e5
    simp only at e5
    rw [at_of_lt (by simpa using hi)] at e5
    simp only [List.getElem_replicate, Res.ok.injEq] at e5
    exact e5.symm
  · intro i hi
    have := hc.noMore i (by omega)
    exact ⟨this.1, this.2.1⟩

/-- Non-vacuity: a 4-bin axis on [0, 2]. -/
example : ∃ a : BinAxis ℚ, BinAxis.mkEqual "energy" 0 2 4 = .ok a ∧
    a.lowEdges = [0, 1/2, 1, 3/2] ∧ a.highEdges = [1/2, 1, 3/2, 2] := by
  refine ⟨_, (BinAxis.mkEqual_ok_iff).2 ⟨by norm_num, by norm_num, rfl⟩, ?_, ?_⟩ <;>
  norm_num [List.range_succ]

/-! ### C02 -/

/-- The edge lists a user may legally pass according to the checks of the constructor. -/
def LegalEdges (low high : List α) : Prop :=
  high.length = low.length ∧ low ≠ [] ∧
  (∀ (i : Nat) x y, low[i]? = some x → low[i + 1]? = some y → x ≤ y) ∧
  (∀ (i : Nat) x y, low[i]? = some x → high[i]? = some y → x ≤ y)

/-- C02: construction from explicit edges succeeds exactly on legal edge lists (otherwise
`LogicError`), and the bins are then exactly the supplied ones. -/
theorem C02_edgesAxis (nm lx : String) (low high : List α) :
    (LegalEdges low high → ∃ a, BinAxis.mkEdges nm low high lx = .ok a ∧
      a.name = nm ∧ a.nBins = low.length ∧
      (∀ (i : Nat) lo hi, low[i]? = some lo → high[i]? = some hi →
        a.getBinLowEdge i = .ok lo ∧ a.getBinHighEdge i = .ok hi ∧
        a.getBinWidth i = .ok (hi - lo) ∧ 0 ≤ hi - lo ∧ a.getBinCentre i = .ok ((lo + hi) / 2)) ∧
      low[0]? = some a.min ∧ high[low.length - 1]? = some a.max) ∧
    (¬ LegalEdges low high → BinAxis.mkEdges nm low high lx = .throw .logic) := by
  constructor
  · rintro ⟨hl, hn, h1, h2⟩
    obtain ⟨a, ha, e1, e2, e3, e4, e5, e6, e7, e8⟩ :=
      BinAxis.mkEdges_ok (nm := nm) (lx := lx) hl hn ((BinAxis.checkEdges_ok_iff hl).2 ⟨h1, h2⟩)
    refine ⟨a, ha, e1, e2, ?_, e7, e8⟩
    intro i lo hi hlo hhi
    refine ⟨?_, ?_, ?_, ?_, ?_⟩
    · unfold BinAxis.getBinLowEdge; rw [e3]; exact at_ok.2 hlo
    · unfold BinAxis.getBinHighEdge; rw [e4]; exact at_ok.2 hhi
    · unfold BinAxis.getBinWidth; rw [e6]; apply at_ok.2
      rw [List.getElem?_zipWith, hlo, hhi]
    · exact sub_nonneg.2 (h2 i lo hi hlo hhi)
    · unfold BinAxis.getBinCentre; rw [e5]; apply at_ok.2
      rw [List.getElem?_zipWith, hlo, hhi]
      simp only [Option.some.injEq]; ring
  · intro h
    unfold BinAxis.mkEdges
    by_cases hc : high.length ≠ low.length ∨ low.length = 0
    · rw [Res.throwIf_true_of hc]; rfl
    · rw [Res.throwIf_false_of hc]
      push Not at hc
      rcases BinAxis.checkEdges_cases low high hc.1 with h3 | h3
      · exfalso; apply h
        have := (BinAxis.checkEdges_ok_iff hc.1).1 h3
        exact ⟨hc.1, by intro hh; rw [hh] at hc; exact hc.2 rfl, this.1, this.2⟩
      · rw [h3]; rfl

/-- Non-vacuity: a legal three-bin list with unequal widths. -/
example : LegalEdges ([0, 1, 3] : List ℚ) [1, 3, 10] := by
  refine ⟨rfl, by simp, ?_, ?_⟩
  · intro i x y hx hy
    match i with
    | 0 => simp at hx hy; subst hx; subst hy; norm_num
    | 1 => simp at hx hy; subst hx; subst hy; norm_num
    | i + 2 => simp at hy
  · intro i x y hx hy
    match i with
    | 0 => simp at hx hy; subst hx; subst hy; norm_num
    | 1 => simp at hx hy; subst hx; subst hy; norm_num
    | 2 => simp at hx hy; subst hx; subst hy; norm_num
    | i + 3 => simp at hx

/-- C02, negative part: the constructor does *not* reject overlapping bins; the accepted axis
below has the value 1/2 inside two bins, so "every value lies in exactly one bin" fails. -/
theorem C02_overlap_accepted :
    ∃ a : BinAxis ℚ, BinAxis.mkEdges "x" [0, 0] [2, 1] = .ok a ∧
      (∃ lo hi, a.BinIs 0 lo hi ∧ lo ≤ 1/2 ∧ 1/2 < hi) ∧
      (∃ lo hi, a.BinIs 1 lo hi ∧ lo ≤ 1/2 ∧ 1/2 < hi) := by
  refine ⟨⟨"x", "x", 2, 0, 1, [0, 0], [2, 1], [1, 1/2], [2, 1]⟩, by decide +kernel, ⟨0, 2, ?_⟩, ⟨0, 1, ?_⟩⟩
  · exact ⟨⟨rfl, rfl⟩, by norm_num, by norm_num⟩
  · exact ⟨⟨rfl, rfl⟩, by norm_num, by norm_num⟩

/-- C02, negative part: gaps between bins are not rejected either; the value 3/2 is in no bin of
this accepted axis although it lies between its minimum and maximum. -/
theorem C02_gap_accepted :
    ∃ a : BinAxis ℚ, BinAxis.mkEdges "x" [0, 2] [1, 3] = .ok a ∧ a.min < 3/2 ∧ 3/2 < a.max ∧
      ∀ i lo hi, a.BinIs i lo hi → ¬ (lo ≤ 3/2 ∧ 3/2 < hi) := by
  refine ⟨⟨"x", "x", 2, 0, 3, [0, 2], [1, 3], [1/2, 5/2], [1, 1]⟩, by decide +kernel, by norm_num,
    by norm_num, ?_⟩
  rintro i lo hi ⟨h1, h2⟩ ⟨h3, h4⟩
  match i with
  | 0 =>
    have : hi = 1 := by
      have := h2; simp only [BinAxis.getBinHighEdge, at_, List.getElem?_cons_zero] at this
      cases this; rfl
    subst this; norm_num at h4
  | 1 =>
    have : lo = 2 := by
      have := h1; simp [BinAxis.getBinLowEdge, at_] at this
      exact this.symm
    subst this; norm_num at h3
  | i + 2 => simp [BinAxis.getBinHighEdge, at_] at h2

/-- C02/C03 link: if each supplied high edge is the next low edge, the accepted axis is contiguous. -/
theorem C02_edgesAxis_contiguous (nm lx : String) (low high : List α) (a : BinAxis α)
    (hc : ∀ (i : Nat) x y, high[i]? = some x → low[i + 1]? = some y → x = y)
    (h : BinAxis.mkEdges nm low high lx = .ok a) : a.Contiguous := by
  have hL : LegalEdges low high := by
    by_contra hc'
    rw [(C02_edgesAxis nm lx low high).2 hc'] at h; cases h
  obtain ⟨hl, hn, h1, h2⟩ := hL
  obtain ⟨a', ha, e1, e2, e3, e4, e5, e6, e7, e8⟩ :=
    BinAxis.mkEdges_ok (nm := nm) (lx := lx) hl hn ((BinAxis.checkEdges_ok_iff hl).2 ⟨h1, h2⟩)
  rw [ha] at h; cases h
  have hpos : 0 < low.length := List.length_pos_iff.2 hn
  refine ⟨by omega, ?_, ?_, ?_, ?_, ?_⟩
  · intro i hi
    rw [e2] at hi
    have e9 : low[i]? = some low[i] := List.getElem?_eq_getElem hi
    have e10 : high[i]? = some high[i] := List.getElem?_eq_getElem (by omega)
    refine ⟨low[i], high[i], ⟨?_, ?_⟩, h2 i _ _ e9 e10, ?_, ?_⟩
    · unfold BinAxis.getBinLowEdge; rw [e3]; exact at_ok.2 e9
    · unfold BinAxis.getBinHighEdge; rw [e4]; exact at_ok.2 e10
    · unfold BinAxis.getBinCentre; rw [e5]; apply at_ok.2
      rw [List.getElem?_zipWith, e9, e10]
      simp only [Option.some.injEq]; ring
    · unfold BinAxis.getBinWidth; rw [e6]; apply at_ok.2
      rw [List.getElem?_zipWith, e9, e10]
  · intro i hi
    rw [e2] at hi
    refine ⟨at_of_ge (by rw [e3]; exact hi), at_of_ge (by rw [e4]; omega), at_of_ge ?_,
      at_of_ge ?_⟩
    · rw [e5]; simp; omega
    · rw [e6]; simp; omega
  · intro i hi
    rw [e2] at hi
    unfold BinAxis.getBinHighEdge BinAxis.getBinLowEdge
    rw [e3, e4, at_of_lt (show i < high.length by omega), at_of_lt hi]
    congr 1
    exact hc i _ _ (List.getElem?_eq_getElem (by omega)) (List.getElem?_eq_getElem hi)
  · unfold BinAxis.getBinLowEdge; rw [e3]; exact at_ok.2 e7
  · unfold BinAxis.getBinHighEdge; rw [e4, e2]; exact at_ok.2 e8

/-! ### C03 -/

/-- C03: lookup on a contiguous axis. Every value gets a valid bin; a value in `[min, max)` gets the
one and only bin with `lo ≤ v < hi`; values below `min` go to the first bin, values at or above
`max` to the last. -/
theorem C03_findBin (a : BinAxis α) (hc : a.Contiguous) (v : α) :
    a.findBin v < a.nBins ∧
    (a.min ≤ v → v < a.max →
      ∀ i lo hi, a.BinIs i lo hi → ((lo ≤ v ∧ v < hi) ↔ i = a.findBin v)) ∧
    (v < a.min → a.findBin v = 0) ∧
    (a.max ≤ v → a.findBin v = a.nBins - 1) := by
  obtain ⟨h1, h2, h3⟩ := hc.findBin_spec v
  have hpos := hc.pos
  refine ⟨h1, ?_, ?_, ?_⟩
  · intro hmin hmax i lo hi hb
    constructor
    · rintro ⟨hlo, hhi⟩
      rcases lt_trichotomy i (a.findBin v) with hlt | heq | hgt
      · exact absurd (h2 i hi hlt hb.2) (not_le.2 hhi)
      · exact heq
      · exfalso
        obtain ⟨lo', hi', hb', _⟩ := hc.bins _ h1
        have hle := hc.high_le_low hgt hb'.2 hb.1
        rcases h3 _ hi' (le_refl _) hb'.2 with h4 | h4
        · exact absurd (le_trans hle hlo) (not_le.2 h4)
        · have := hc.last
          rw [← h4, hb'.2] at this; cases this
          exact absurd (le_trans hle hlo) (not_le.2 hmax)
    · intro heq
      subst heq
      constructor
      · by_cases h0 : a.findBin v = 0
        · have := hb.1; rw [h0, hc.first] at this; cases this; exact hmin
        · obtain ⟨lo', hi', hb', _⟩ := hc.bins (a.findBin v - 1) (by omega)
          have hle := h2 _ hi' (by omega) hb'.2
          have := hc.contig (a.findBin v - 1) (by omega)
          rw [show a.findBin v - 1 + 1 = a.findBin v by omega, hb'.2, hb.1] at this
          cases this; exact hle
      · rcases h3 _ hi (le_refl _) hb.2 with h4 | h4
        · exact h4
        · have := hc.last
          rw [← h4, hb.2] at this; cases this; exact hmax
  · intro hv
    by_contra h0
    obtain ⟨lo, hi, hb, hle, _⟩ := hc.bins 0 hpos
    have h4 := h2 0 hi (by omega) hb.2
    have := hb.1
    rw [hc.first] at this; cases this
    exact absurd (lt_of_lt_of_le hv hle) (not_lt.2 h4)
  · intro hv
    by_contra h0
    obtain ⟨lo, hi, hb, hle, _⟩ := hc.bins _ h1
    rcases h3 _ hi (le_refl _) hb.2 with h4 | h4
    · have h5 := hc.high_mono (show a.findBin v ≤ a.nBins - 1 by omega) hb.2 hc.last
      exact absurd (lt_of_lt_of_le h4 h5) (not_lt.2 hv)
    · exact h0 h4

/-- C03: lookup is monotone. -/
theorem C03_findBin_mono (a : BinAxis α) (hc : a.Contiguous) (v w : α) (hvw : v ≤ w) :
    a.findBin v ≤ a.findBin w := by
  by_contra hlt
  push Not at hlt
  obtain ⟨h1, h2, _⟩ := hc.findBin_spec v
  obtain ⟨h1', _, h3'⟩ := hc.findBin_spec w
  obtain ⟨lo, hi, hb, _⟩ := hc.bins _ h1'
  have h4 := h2 _ hi hlt hb.2
  rcases h3' _ hi (le_refl _) hb.2 with h5 | h5
  · exact absurd (le_trans h4 hvw) (not_le.2 h5)
  · omega

/-- C03: the low edge and the centre of a non-empty bin are found in that bin. -/
theorem C03_findBin_centre (a : BinAxis α) (hc : a.Contiguous) (i : Nat) (lo hi : α)
    (hb : a.BinIs i lo hi) (hw : lo < hi) :
    a.findBin lo = i ∧ ∀ c, a.getBinCentre i = .ok c → a.findBin c = i := by
  have hi' : i < a.nBins := by
    by_contra h
    have := (hc.noMore i (by omega)).1
    rw [hb.1] at this; cases this
  have key : ∀ v, lo ≤ v → v < hi → a.findBin v = i := by
    intro v h1 h2
    have hmin : a.min ≤ v := by
      rcases Nat.eq_zero_or_pos i with h0 | h0
      · subst h0; have := hb.1; rw [hc.first] at this; cases this; exact h1
      · obtain ⟨lo0, hi0, hb0, hle0, _⟩ := hc.bins 0 hc.pos
        have h4 := hc.high_le_low h0 hb0.2 hb.1
        have := hb0.1; rw [hc.first] at this; cases this
        exact le_trans hle0 (le_trans h4 h1)
    have hmax : v < a.max :=
      lt_of_lt_of_le h2 (hc.high_mono (show i ≤ a.nBins - 1 by omega) hb.2 hc.last)
    exact (((C03_findBin a hc v).2.1 hmin hmax i lo hi hb).1 ⟨h1, h2⟩).symm
  refine ⟨key lo (le_refl _) hw, ?_⟩
  intro c hcen
  obtain ⟨lo', hi'', hb', _, h4, _⟩ := hc.bins i hi'
  have e1 := hb'.1; rw [hb.1] at e1; cases e1
  have e2 := hb'.2; rw [hb.2] at e2; cases e2
  rw [h4] at hcen; cases hcen
  apply key <;> linarith

/-- Non-vacuity: the hypotheses of the lookup theorems are met by every equal-width axis, here a
4-bin one on [0,2], in which 5/4 is found in bin 2. -/
example : ∃ a : BinAxis ℚ, BinAxis.mkEqual "energy" 0 2 4 = .ok a ∧ a.Contiguous ∧ a.PosWidths ∧
    a.findBin (5/4) = 2 := by
  obtain ⟨a, ha⟩ := ((C01_equalAxis_accepts "energy" "" (0:ℚ) 2 4).1).2 ⟨by norm_num, by norm_num⟩
  refine ⟨a, ha, BinAxis.mkEqual_contiguous ha, BinAxis.mkEqual_posWidths ha, ?_⟩
  have hc := BinAxis.mkEqual_contiguous ha
  obtain ⟨_, _, rfl⟩ := BinAxis.mkEqual_ok_iff.1 ha
  symm
  refine ((C03_findBin _ hc (5/4)).2.1 (by norm_num) (by norm_num) 2 1 (3/2) ⟨?_, ?_⟩).1 (by norm_num)
  · rw [BinAxis.getBinLowEdge, BinAxis.at_map_range (by norm_num)]; norm_num
  · rw [BinAxis.getBinHighEdge, BinAxis.at_map_range (by norm_num)]; norm_num
end Oxsx
