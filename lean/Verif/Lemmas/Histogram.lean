import Verif.Lemmas.AxisCollection
import Verif.Lemmas.Accum
import Verif.Spec.Histogram
/- Helper lemmas about histograms. -/
set_option linter.unusedSectionVars false
set_option linter.unusedSimpArgs false
namespace Oxsx
open AxisCollection
variable {α : Type} [Field α] [LinearOrder α]

namespace Histogram

theorem valid_ofAxes {c : AxisCollection α} {as : List (BinAxis α)} (h : Holds c as) (hn : as ≠ []) :
    (ofAxes c).Valid as := by
  refine ⟨h, hn, h.total_ne hn, h.dims, ?_⟩
  simp [ofAxes, setAxes, h.total_ne hn]

theorem ofAxes_contents (c : AxisCollection α) :
    (ofAxes c).contents = List.replicate c.nBins 0 := by
  simp [ofAxes, setAxes, resize, empty]

variable {h : Histogram α} {as : List (BinAxis α)}

theorem Valid.withContents (hv : h.Valid as) {cs : List α} (hl : cs.length = h.contents.length) :
    ({ h with contents := cs } : Histogram α).Valid as :=
  ⟨hv.axes, hv.ne, hv.nb, hv.nd, by rw [← hv.len]; exact hl⟩

theorem Valid.integral (hv : h.Valid as) : h.integral = h.contents.sum := by
  unfold Histogram.integral
  rw [List.take_of_length_le (by rw [hv.len, hv.nb]), List.sum_eq_foldl]

theorem Valid.get (hv : h.Valid as) {b : Nat} (hb : b < h.nBins) :
    h.getBinContent b = .ok (h.contents.getD b 0) := by
  unfold getBinContent
  rw [if_neg (by omega)]
  have : b < h.contents.length := by rw [hv.len, ← hv.nb]; exact hb
  rw [idx_of_lt this]; simp [List.getD, this]

theorem getBinContent_ok_iff {b : Nat} {x : α} :
    h.getBinContent b = .ok x ↔ b ≤ h.nBins ∧ h.contents[b]? = some x := by
  unfold getBinContent
  by_cases hb : b > h.nBins
  · rw [if_pos hb]; simp; omega
  · rw [if_neg hb, idx_ok]; simp; omega

theorem Valid.addBin (hv : h.Valid as) {b : Nat} (hb : b < h.nBins) (x : α) :
    h.addBinContent b x = .ok { h with contents := addAt h.contents b x } := by
  have hl : b < h.contents.length := by rw [hv.len, ← hv.nb]; exact hb
  unfold addBinContent
  rw [if_neg (by omega), idx_of_lt hl]
  simp only [Res.ok_bind]
  rw [setIdx_of_lt hl]
  simp [addAt, List.getD, hl]

theorem Valid.setBin (hv : h.Valid as) {b : Nat} (hb : b < h.nBins) (x : α) :
    h.setBinContent b x = .ok { h with contents := h.contents.set b x } := by
  have hl : b < h.contents.length := by rw [hv.len, ← hv.nb]; exact hb
  unfold setBinContent
  rw [if_neg (by omega), setIdx_of_lt hl]
  simp

/-- Generic accumulation loop. -/
theorem Valid.accumLoop (hv : h.Valid as) {β : Type} (l : List β) (bin : β → Nat) (w : β → α)
    (f : Histogram α → β → Res (Histogram α))
    (hf : ∀ m b, m.Valid as → m.axes = h.axes → b ∈ l → f m b = m.addBinContent (bin b) (w b))
    (hb : ∀ b ∈ l, bin b < h.nBins) :
    Res.forFold f h l = .ok { h with contents := accum h.contents (l.map (fun b => (bin b, w b))) } := by
  induction l generalizing h with
  | nil => rfl
  | cons b l ih =>
    have h1 := hf h b hv rfl (by simp)
    rw [hv.addBin (hb b (by simp))] at h1
    rw [Res.forFold_cons_ok h1]
    have hv' : ({ h with contents := addAt h.contents (bin b) (w b) } : Histogram α).Valid as :=
      hv.withContents (by simp)
    rw [ih hv' (fun m b' h1 h2 h3 => hf m b' h1 (by rw [h2]) (by simp [h3]))
      (fun b' hb' => hb b' (by simp [hb']))]
    rfl

theorem Valid.fill [IsStrictOrderedRing α] (hv : h.Valid as) (hc : ∀ a ∈ as, a.Contiguous) {vs : List α}
    (hl : vs.length = as.length) (w : α) :
    ∃ b, h.axes.findBin vs = .ok b ∧ b < h.nBins ∧
      h.fill vs w = .ok { h with contents := addAt h.contents b w } := by
  have hlt := rowMajor_lt (findBins_inRange hc hl)
  refine ⟨_, hv.axes.findBin hv.ne hl, by rw [hv.nb]; exact hlt, ?_⟩
  have hlen : rowMajor (shape as) (List.zipWith BinAxis.findBin as vs) < h.contents.length := by
    rw [hv.len]; exact hlt
  unfold Histogram.fill Histogram.findBin
  rw [Res.throwIf_false_of (by rw [hv.nd]; omega), hv.axes.findBin hv.ne hl]
  simp only [Res.ok_bind]
  rw [idx_of_lt hlen]
  simp only [Res.ok_bind]
  rw [setIdx_of_lt hlen]
  simp [addAt, List.getD, hlen]

theorem Valid.fill_dim (hv : h.Valid as) {vs : List α}
    (hl : vs.length ≠ as.length) (w : α) : h.fill vs w = .throw .dimension := by
  unfold Histogram.fill
  rw [Res.throwIf_true_of (by rw [hv.nd]; exact hl)]; rfl

theorem eq_iff {c d : AxisCollection α} {as bs : List (BinAxis α)} (hc : Holds c as)
    (hd : Holds d bs) : c.eq d = true ↔ SameBinning as bs := by
  unfold AxisCollection.eq SameBinning
  rw [hc.axes, hd.axes]
  simp only [Bool.and_eq_true, decide_eq_true_eq, List.all_eq_true]
  constructor
  · rintro ⟨h1, h2⟩
    rw [List.forall₂_iff_zip]
    refine ⟨h1, fun {a b} hab => ?_⟩
    have := h2 (a, b) hab
    simp only [BinAxis.eq, decide_eq_true_eq] at this
    exact ⟨this.1.symm, this.2.symm⟩
  · intro h
    rw [List.forall₂_iff_zip] at h
    refine ⟨h.1, ?_⟩
    rintro ⟨a, b⟩ hab
    have := h.2 hab
    simp only [BinAxis.eq, decide_eq_true_eq]
    exact ⟨this.1.symm, this.2.symm⟩

/-- The bin-by-bin loop. -/
theorem combineLoop {other : Histogram α} {bs : List (BinAxis α)} (hv : h.Valid as)
    (ho : other.Valid bs) (hnb : other.nBins = h.nBins) (f : α → α → α) (n : Nat) (hn : n ≤ h.nBins) :
    Res.forFold (fun (s : Histogram α) i => do
      let x ← s.getBinContent i
      let y ← other.getBinContent i
      s.setBinContent i (f x y)) h (List.range n) =
    .ok { h with contents := (List.range h.contents.length).map (fun i =>
      if i < n then f (h.contents.getD i 0) (other.contents.getD i 0) else h.contents.getD i 0) } := by
  induction n with
  | zero =>
    simp only [List.range_zero, Res.forFold_nil, Res.ok.injEq, Nat.not_lt_zero, if_false]
    have : (List.range h.contents.length).map (fun i => h.contents.getD i 0) = h.contents := by
      apply List.ext_getElem
      · simp
      · intro i h1 h2; simp [List.getD, h2]
    rw [this]
  | succ n ih =>
    rw [List.range_succ, Res.forFold_append, ih (by omega)]
    simp only [Res.bind]
    set cs := (List.range h.contents.length).map (fun i =>
      if i < n then f (h.contents.getD i 0) (other.contents.getD i 0) else h.contents.getD i 0) with hcs
    have hlen : cs.length = h.contents.length := by simp [hcs]
    have hv' : ({ h with contents := cs } : Histogram α).Valid as := hv.withContents hlen
    have hnl : n < h.contents.length := by rw [hv.len, ← hv.nb]; omega
    have g1 := hv'.get (b := n) (show n < h.nBins by omega)
    have g2 := ho.get (b := n) (by omega)
    have e1 : cs.getD n 0 = h.contents.getD n 0 := by
      rw [hcs]; simp [List.getD, hnl]
    rw [Res.forFold_cons_ok (s' := { h with contents := cs.set n (f (h.contents.getD n 0) (other.contents.getD n 0)) })]
    · simp only [Res.forFold_nil, Res.ok.injEq, Histogram.mk.injEq, true_and, and_true]
      apply List.ext_getElem
      · simp [hcs]
      · intro i h1 h2
        simp only [List.getElem_set]
        simp at h2
        by_cases hin : n = i
        · subst hin; simp
        · rw [if_neg hin]
          simp only [hcs, List.getElem_map, List.getElem_range]
          by_cases h3 : i < n
          · rw [if_pos h3, if_pos (by omega)]
          · rw [if_neg h3, if_neg (by omega)]
    · rw [g1, g2]
      simp only [Res.ok_bind, e1]
      exact hv'.setBin (show n < h.nBins by omega) _

theorem SameBinning.shape {bs : List (BinAxis α)} [IsStrictOrderedRing α]
    (ha : ∀ a ∈ as, a.Contiguous) (hb : ∀ b ∈ bs, b.Contiguous) (h : SameBinning as bs) :
    shape as = shape bs := by
  unfold SameBinning at h
  induction h with
  | nil => rfl
  | @cons a b as bs h1 h2 ih =>
    simp only [AxisCollection.shape, List.map_cons]
    have e : a.nBins = b.nBins := by
      rw [← (ha a (by simp)).lowLen, ← (hb b (by simp)).lowLen, h1.1]
    have := ih (fun a h => ha a (by simp [h])) (fun b h => hb b (by simp [h]))
    simp only [AxisCollection.shape] at this
    rw [e, this]

theorem combine_ok {other : Histogram α} {bs : List (BinAxis α)} (hv : h.Valid as)
    (ho : other.Valid bs) (hs : SameBinning as bs) (hshape : shape as = shape bs) (f : α → α → α) :
    h.combine other f = .ok { h with contents := List.zipWith f h.contents other.contents } := by
  unfold combine
  have : other.axes.eq h.axes = true := by
    rw [eq_iff ho.axes hv.axes]
    exact List.Forall₂.flip (List.Forall₂.imp (fun a b h => ⟨h.1.symm, h.2.symm⟩) hs)
  rw [this]
  simp only [Bool.not_true, Bool.false_eq_true, if_false]
  rw [combineLoop hv ho (by rw [hv.nb, ho.nb, hshape]) f h.nBins (le_refl _)]
  congr 2
  have l1 := hv.len
  have l2 := ho.len
  rw [← hshape] at l2
  apply List.ext_getElem
  · simp; omega
  · intro i h1 h2
    simp at h1 h2
    have : i < h.nBins := by rw [hv.nb]; omega
    simp [this, List.getD, h2.1, h2.2]

theorem combine_bad {other : Histogram α} {bs : List (BinAxis α)} (hv : h.Valid as)
    (ho : other.Valid bs) (hs : ¬ SameBinning as bs) (f : α → α → α) :
    h.combine other f = .throw .value := by
  unfold combine
  have : other.axes.eq h.axes = false := by
    rw [← Bool.not_eq_true, eq_iff ho.axes hv.axes]
    intro hc
    exact hs (List.Forall₂.flip (List.Forall₂.imp (fun a b h => ⟨h.1.symm, h.2.symm⟩) hc))
  rw [this]; rfl

end Histogram
end Oxsx
