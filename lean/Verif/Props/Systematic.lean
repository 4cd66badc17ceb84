import Verif.Lemmas.Systematic
import Verif.Lemmas.Histogram
import Verif.Props.AxisCollection
import Verif.Props.Matrix
import Mathlib.Algebra.BigOperators.Field
/-
Properties C20 (scale and shift responses), C21 (applying a systematic), C22 (re-targeting).
-/
set_option linter.unusedSectionVars false
set_option linter.unusedSimpArgs false
set_option linter.unusedVariables false
namespace Oxsx
open AxisCollection AxisSys
variable {α : Type} [Field α] [LinearOrder α] [IsStrictOrderedRing α]

/-! ### C20 -/

theorem overlap_add {a b c d e : α} (hab : a ≤ b) (hcd : c ≤ d) (hde : d ≤ e) :
    overlap a b c d + overlap a b d e = overlap a b c e := by
  unfold overlap
  simp only [max_def, min_def]
  split_ifs <;> linarith

/-- The overlaps of an interval with the bins of a contiguous axis add up to its overlap with the axis range. -/
theorem overlap_sum {a : BinAxis α} (h : a.Contiguous) {L H : α} (hLH : L ≤ H) :
    ((List.range a.nBins).map (fun j => overlap L H (lowE a j) (highE a j))).sum = overlap L H a.min a.max := by
  have key : ∀ i, i < a.nBins → 
      ((List.range (i + 1)).map (fun j => overlap L H (lowE a j) (highE a j))).sum = overlap L H a.min (highE a i) ∧
      a.min ≤ highE a i := by
    intro i
    induction i with
    | zero =>
      intro hi
      have hb := binIs_edges h hi
      have h0 : lowE a 0 = a.min := Res.ok.inj (hb.1.symm.trans h.first)
      obtain ⟨lo, hh, h1, h2, _⟩ := h.bins 0 hi
      obtain ⟨_, rfl, rfl⟩ := binIs_unique h h1
      exact ⟨by simp [h0], h0 ▸ h2⟩
    | succ i ih =>
      intro hi
      obtain ⟨ih1, ih2⟩ := ih (by omega)
      have hb := binIs_edges h hi
      have hb' := binIs_edges h (show i < a.nBins by omega)
      have hc : highE a i = lowE a (i + 1) := 
        Res.ok.inj (hb'.2.symm.trans ((h.contig i hi).trans hb.1))
      obtain ⟨lo, hh, h1, h2, _⟩ := h.bins (i + 1) hi
      obtain ⟨_, rfl, rfl⟩ := binIs_unique h h1
      rw [List.range_succ, List.map_append, List.sum_append, ih1]
      constructor
      · simp only [List.map_cons, List.map_nil, List.sum_cons, List.sum_nil, add_zero]
        rw [hc]; exact overlap_add hLH (hc ▸ ih2) h2
      · rw [hc] at ih2; exact le_trans ih2 h2
  have hn := h.pos
  have := (key (a.nBins - 1) (by omega)).1
  rw [show a.nBins - 1 + 1 = a.nBins by omega] at this
  rw [this]
  have hb := binIs_edges h (show a.nBins - 1 < a.nBins by omega)
  rw [Res.ok.inj (hb.2.symm.trans h.last)]

/-- A systematic freshly made and pointed at observable `tn` of a distribution with observables `dn` and axes `c`. -/
def freshAxisSys (tn : String) (dn : List String) (c : AxisCollection α) : AxisSys α :=
  (AxisSys.new.setObs (ObsSet.ofNames [tn]) (ObsSet.ofNames dn)).setAxes c

theorem fresh_setting {as : List (BinAxis α)} {c : AxisCollection α}
    (hb : (empty : AxisCollection α).addAxes as = .ok c) (hc : ∀ a ∈ as, a.Contiguous)
    {k : Nat} {a : BinAxis α} (hk : as[k]? = some a) {tn : String} {dn : List String} (hd : dn.Nodup)
    (ht : dn[k]? = some tn) : Setting (freshAxisSys tn dn c) as k a :=
  ⟨holds_of_addAxes hb, hk, hc, ⟨tn, dn, rfl, rfl, hd, ht⟩, rfl, rfl⟩

/-- C20 (entries). For a strictly increasing map `t` of the observable in position `k` (scaling by a positive factor,
shifting, or a user's increasing function), `Construct` succeeds and the response from bin `b` to bin `b'` is: the
fraction of the image under `t` of `b`'s interval on axis `k` which lies in the interval of `b'` on that axis, if the
two bins agree on all other axes; zero otherwise. -/
theorem C20_response (as : List (BinAxis α)) (c : AxisCollection α)
    (hbuild : (empty : AxisCollection α).addAxes as = .ok c) (hc : ∀ a ∈ as, a.Contiguous)
    (k : Nat) (a : BinAxis α) (hk : as[k]? = some a) (hw : a.PosWidths)
    (tn : String) (dn : List String) (hd : dn.Nodup) (htn : dn[k]? = some tn)
    (t : α → α) (ht : StrictMono t) :
    ∃ s', (freshAxisSys tn dn c).constructWith t = .ok s' ∧
      s'.base.response.nRows = c.nBins ∧ s'.base.response.nCols = c.nBins ∧ s'.base.response.Sized ∧
      ∀ b b', b < c.nBins → b' < c.nBins → ∀ is is' : List Nat, c.unpackIndices b = .ok is →
        c.unpackIndices b' = .ok is' →
        (AgreeOff k is is' → ∀ i j lo hi lo' hi', is[k]? = some i → is'[k]? = some j →
          a.BinIs i lo hi → a.BinIs j lo' hi' →
          s'.base.response.getComponent b' b = .ok (overlapFrac (t lo) (t hi) lo' hi')) ∧
        (¬ AgreeOff k is is' → s'.base.response.getComponent b' b = .ok 0) := by
  have hs := fresh_setting hbuild hc hk hd htn
  have hne := hs.ne
  have hN : c.nBins = (shape as).prod := hs.holds.total_ne hne
  obtain ⟨s', h1, h2, h3, h3', h3'', h4, h5, h6, h7, h8⟩ := construct_ok hs hw (Or.inl rfl) ht
  refine ⟨s', h1, by rw [h5, hN], by rw [h6, hN], h4, ?_⟩
  intro b b' hb hb' is is' hi hi'
  rw [hN] at hb hb'
  have hu := hs.holds.unpack hne hb
  have hu' := hs.holds.unpack hne hb'
  have hi2 : is = digits (shape as) b := by have := hi.symm.trans hu; cases this; rfl
  have hi2' : is' = digits (shape as) b' := by have := hi'.symm.trans hu'; cases this; rfl
  subst hi2 hi2'
  have hca := hc a (List.mem_of_getElem? hk)
  have hdig := digits_getElem? (shape as) b' k a.nBins hs.shapeK
  have hget : s'.base.response.getComponent b' b = .ok (s'.base.response.arma.entry b' b) :=
    Matrix'.get_ok h4 (by omega) (by omega)
  have hj' : b' / ((shape as).drop (k + 1)).prod % a.nBins < a.nBins := Nat.mod_lt _ hca.pos
  constructor
  · intro hag i j lo hi lo' hi' hik hjk hbi hbj
    rw [hdig] at hjk; cases hjk
    have hmv := (agreeOff_iff hs.shapeK hb' hdig).1 hag
    rw [hget]
    obtain ⟨_, rfl, rfl⟩ := binIs_unique hca hbi
    obtain ⟨_, rfl, rfl⟩ := binIs_unique hca hbj
    have := h7 b _ hb hj'
    rw [hmv] at this
    rw [this, List.getD_eq_getElem?_getD, hik]
    rfl
  · intro hag
    rw [hget, h8 b b' hb]
    intro j hj heq
    apply hag
    have hpos := shape_pos hc
    have hd := digits_moved hpos hs.shapeK hj b
    rw [heq] at hd
    intro d hdk
    rw [hd, List.getElem?_set_ne (Ne.symm hdk)]

theorem list_sum_range {β : Type} [AddCommMonoid β] (k : Nat) (g : Nat → β) :
    ((List.range k).map g).sum = ∑ i ∈ Finset.range k, g i := by
  induction k with
  | zero => simp
  | succ k ih => rw [List.range_succ, Finset.sum_range_succ]; simp [ih]

/-- Sum of a column of the response. -/
theorem col_sum {as : List (BinAxis α)} {k : Nat} {a : BinAxis α} {s s' : AxisSys α} (hs : Setting s as k a)
    (hw : a.PosWidths) {t : α → α} (ht : StrictMono t)
    (h4 : s'.base.response.Sized) (h5 : s'.base.response.nRows = (shape as).prod)
    (h6 : s'.base.response.nCols = (shape as).prod)
    (h7 : ∀ b j, b < (shape as).prod → j < a.nBins → 
        s'.base.response.arma.entry (moved (shape as) k b j) b = ov a t ((digits (shape as) b).getD k 0) j)
    (h8 : ∀ b b', b < (shape as).prod → (∀ j, j < a.nBins → moved (shape as) k b j ≠ b') →
        s'.base.response.arma.entry b' b = 0) {b : Nat} (hb : b < (shape as).prod) :
    ((List.range (shape as).prod).map (fun b' => s'.base.response.comp b' b)).sum =
      ((List.range a.nBins).map (fun j => ov a t ((digits (shape as) b).getD k 0) j)).sum := by
  have hpos := shape_pos hs.cont
  simp only [list_sum_range]
  have e : ∀ b' ∈ Finset.range (shape as).prod, s'.base.response.comp b' b =
      ∑ j ∈ Finset.range a.nBins, if moved (shape as) k b j = b' then
        ov a t ((digits (shape as) b).getD k 0) j else 0 := by
    intro b' hb'
    rw [Finset.mem_range] at hb'
    rw [Matrix'.comp_eq h4 (by omega) (by omega)]
    by_cases hex : ∃ j, j < a.nBins ∧ moved (shape as) k b j = b'
    · obtain ⟨j, hj, rfl⟩ := hex
      rw [h7 b j hb hj, Finset.sum_eq_single j]
      · simp
      · intro i hi hij
        rw [if_neg]
        intro h
        exact hij (moved_inj hpos hs.shapeK (Finset.mem_range.1 hi) hj h)
      · intro h; exact absurd (Finset.mem_range.2 hj) h
    · push Not at hex
      rw [h8 b b' hb hex, Finset.sum_eq_zero]
      intro j hj
      rw [if_neg (hex j (Finset.mem_range.1 hj))]
  rw [Finset.sum_congr rfl e, Finset.sum_comm]
  apply Finset.sum_congr rfl
  intro j hj
  rw [Finset.sum_ite_eq, if_pos]
  exact Finset.mem_range.2 (moved_lt hpos hs.shapeK (Finset.mem_range.1 hj) b)

/-- C20 (columns). In the setting of `C20_response`: every entry lies in `[0, 1]`; the column of bin `b` adds up to the
fraction of the image of `b`'s interval that lies in the range of the axis; it is at most 1, and it is 1 exactly if the
image lies within the range. -/
theorem C20_columns (as : List (BinAxis α)) (c : AxisCollection α)
    (hbuild : (empty : AxisCollection α).addAxes as = .ok c) (hc : ∀ a ∈ as, a.Contiguous)
    (k : Nat) (a : BinAxis α) (hk : as[k]? = some a) (hw : a.PosWidths)
    (tn : String) (dn : List String) (hd : dn.Nodup) (htn : dn[k]? = some tn)
    (t : α → α) (ht : StrictMono t) :
    ∃ s', (freshAxisSys tn dn c).constructWith t = .ok s' ∧
      (∀ b b' : Nat, 0 ≤ s'.base.response.comp b' b ∧ s'.base.response.comp b' b ≤ 1) ∧
      ∀ b, b < c.nBins → ∀ (is : List Nat) (i : Nat) lo hi, c.unpackIndices b = .ok is → is[k]? = some i →
        a.BinIs i lo hi →
        let total := ((List.range c.nBins).map (fun b' => s'.base.response.comp b' b)).sum
        total = overlapFrac (t lo) (t hi) a.min a.max ∧ total ≤ 1 ∧
        (total = 1 ↔ a.min ≤ t lo ∧ t hi ≤ a.max) := by
  have hs := fresh_setting hbuild hc hk hd htn
  have hne := hs.ne
  have hN : c.nBins = (shape as).prod := hs.holds.total_ne hne
  have hca := hc a (List.mem_of_getElem? hk)
  obtain ⟨s', h1, h2, h3, h3', h3'', h4, h5, h6, h7, h8⟩ := construct_ok hs hw (Or.inl rfl) ht
  have hdk : ∀ b, (digits (shape as) b).getD k 0 < a.nBins := by
    intro b
    rw [List.getD_eq_getElem?_getD, digits_getElem? (shape as) b k a.nBins hs.shapeK]
    exact Nat.mod_lt _ hca.pos
  refine ⟨s', h1, ?_, ?_⟩
  · intro b b'
    by_cases hr : b' < s'.base.response.nRows ∧ b < s'.base.response.nCols
    · rw [Matrix'.comp_eq h4 hr.1 hr.2]
      rw [h6] at hr
      by_cases hex : ∃ j, j < a.nBins ∧ moved (shape as) k b j = b'
      · obtain ⟨j, hj, rfl⟩ := hex
        rw [h7 b j hr.2 hj]
        have := ht (lowE_lt hca hw (hdk b))
        exact ⟨overlapFrac_nonneg this, overlapFrac_le_one this⟩
      · push Not at hex
        rw [h8 b b' hr.2 hex]; exact ⟨le_refl _, zero_le_one⟩
    · have : s'.base.response.comp b' b = 0 := by
        unfold Matrix'.comp Matrix'.getComponent
        rw [if_pos (by omega)]
      rw [this]; exact ⟨le_refl _, zero_le_one⟩
  · intro b hb is i lo hi hu hik hbi
    rw [hN] at hb
    have hu' := hs.holds.unpack hne hb
    have hi2 : is = digits (shape as) b := by have := hu.symm.trans hu'; cases this; rfl
    subst hi2
    have hig : (digits (shape as) b).getD k 0 = i := by rw [List.getD_eq_getElem?_getD, hik]; rfl
    obtain ⟨hin, rfl, rfl⟩ := binIs_unique hca hbi
    have hlt := ht (lowE_lt hca hw hin)
    have htot : ((List.range c.nBins).map (fun b' => s'.base.response.comp b' b)).sum
        = overlapFrac (t (lowE a i)) (t (highE a i)) a.min a.max := by
      rw [hN, col_sum hs hw ht h4 h5 h6 h7 h8 hb, hig]
      unfold overlapFrac
      rw [← overlap_sum hca hlt.le]
      simp only [ov, overlapFrac, list_sum_range, Finset.sum_div]
    simp only
    rw [htot]
    refine ⟨rfl, overlapFrac_le_one hlt, ?_⟩
    unfold overlapFrac overlap
    rw [div_eq_one_iff_eq (sub_pos.2 hlt).ne']
    constructor
    · intro h
      have hp : max 0 (min (t (highE a i)) a.max - max (t (lowE a i)) a.min)
          = min (t (highE a i)) a.max - max (t (lowE a i)) a.min := by
        rcases max_choice 0 (min (t (highE a i)) a.max - max (t (lowE a i)) a.min) with h' | h'
        · rw [h'] at h; linarith
        · exact h'
      rw [hp] at h
      have e1 := min_le_left (t (highE a i)) a.max
      have e2 := le_max_left (t (lowE a i)) a.min
      have e3 := min_le_right (t (highE a i)) a.max
      have e4 := le_max_right (t (lowE a i)) a.min
      constructor <;> linarith
    · rintro ⟨g1, g2⟩
      rw [min_eq_left g2, max_eq_left g1, max_eq_right (sub_pos.2 hlt).le]

/-- C20 (what is conserved): the integral after applying the response is the sum of the contents weighted by the
fraction of each bin's image that stays in range. -/
theorem C20_conserved (as : List (BinAxis α)) (c : AxisCollection α)
    (hbuild : (empty : AxisCollection α).addAxes as = .ok c) (hc : ∀ a ∈ as, a.Contiguous)
    (k : Nat) (a : BinAxis α) (hk : as[k]? = some a) (hw : a.PosWidths)
    (tn : String) (dn : List String) (hd : dn.Nodup) (htn : dn[k]? = some tn)
    (t : α → α) (ht : StrictMono t) (v : List α) (hv : v.length = c.nBins) :
    ∃ s' w, (freshAxisSys tn dn c).constructWith t = .ok s' ∧ s'.base.response.apply v = .ok w ∧
      w.length = c.nBins ∧
      w.sum = ((List.range c.nBins).map (fun b => v.getD b 0 *
        ((List.range c.nBins).map (fun b' => s'.base.response.comp b' b)).sum)).sum := by
  obtain ⟨s', h1, h2, h3, h4, _⟩ := C20_response as c hbuild hc k a hk hw tn dn hd htn t ht
  obtain ⟨w, e1, e2, e3⟩ := (C18_apply s'.base.response h4 v).2 (by rw [hv, h3])
  refine ⟨s', w, h1, e1, by rw [e2, h2], ?_⟩
  have hw' : w = (List.range c.nBins).map (fun b' =>
      ((List.range c.nBins).map (fun b => s'.base.response.comp b' b * v.getD b 0)).sum) := by
    apply List.ext_getElem?
    intro i
    by_cases hi : i < c.nBins
    · rw [e3 i (by rw [h2]; exact hi), h3, List.getElem?_map, List.getElem?_range hi]; rfl
    · rw [List.getElem?_eq_none (by rw [e2, h2]; omega), List.getElem?_eq_none (by simp; omega)]
  rw [hw']
  simp only [list_sum_range]
  rw [Finset.sum_comm]
  apply Finset.sum_congr rfl
  intro b _
  rw [Finset.mul_sum]
  apply Finset.sum_congr rfl
  intro b' _
  ring

/-- C20 (scale): a non-positive factor is a `ValueError`; a positive one gives the response of `x ↦ x * factor`, which is
strictly increasing. Shift gives that of `x ↦ x + shift`. -/
theorem C20_scale_shift (s : AxisSys α) (f : α) :
    (f ≤ 0 → s.constructScale f = .throw .value) ∧
    (0 < f → s.constructScale f = s.constructWith (fun x => x * f) ∧ StrictMono (fun x : α => x * f)) ∧
    s.constructShift f = s.constructWith (fun x => x + f) ∧ StrictMono (fun x : α => x + f) := by
  refine ⟨?_, ?_, rfl, fun x y h => by simpa using h⟩
  · intro h; unfold AxisSys.constructScale; rw [Res.throwIf_true_of h]; rfl
  · intro h
    refine ⟨?_, fun x y hxy => mul_lt_mul_of_pos_right hxy h⟩
    unfold AxisSys.constructScale; rw [Res.throwIf_false_of (not_le.2 h)]; rfl

/-- C20 (no effect): scaling by one and shifting by zero give the identity response. -/
theorem C20_identity (as : List (BinAxis α)) (c : AxisCollection α)
    (hbuild : (empty : AxisCollection α).addAxes as = .ok c) (hc : ∀ a ∈ as, a.Contiguous)
    (k : Nat) (a : BinAxis α) (hk : as[k]? = some a) (hw : a.PosWidths)
    (tn : String) (dn : List String) (hd : dn.Nodup) (htn : dn[k]? = some tn) :
    ∃ s', (freshAxisSys tn dn c).constructScale 1 = .ok s' ∧ (freshAxisSys tn dn c).constructShift 0 = .ok s' ∧
      ∀ b b', b < c.nBins → b' < c.nBins → s'.base.response.getComponent b' b = .ok (if b' = b then 1 else 0) := by
  have e1 := ((C20_scale_shift (freshAxisSys tn dn c) (1 : α)).2.1 one_pos).1
  have e2 := (C20_scale_shift (freshAxisSys tn dn c) (0 : α)).2.2.1
  have f1 : (fun x : α => x * 1) = id := by funext x; simp
  have f2 : (fun x : α => x + 0) = id := by funext x; simp
  rw [f1] at e1; rw [f2] at e2
  obtain ⟨s', h1, h2, h3, h4, h5⟩ := C20_response as c hbuild hc k a hk hw tn dn hd htn id strictMono_id
  refine ⟨s', by rw [e1, h1], by rw [e2, h1], ?_⟩
  intro b b' hb hb'
  have hh := holds_of_addAxes hbuild
  have hne : as ≠ [] := by rintro rfl; simp at hk
  have hN := hh.total_ne hne
  have hca := hc a (List.mem_of_getElem? hk)
  have hsk : (shape as)[k]? = some a.nBins := by simp [shape, hk]
  have hb1 := hb; have hb1' := hb'
  rw [hN] at hb1 hb1'
  obtain ⟨g1, g2⟩ := h5 b b' hb hb' _ _ (hh.unpack hne hb1) (hh.unpack hne hb1')
  have d1 := digits_getElem? (shape as) b k a.nBins hsk
  have d2 := digits_getElem? (shape as) b' k a.nBins hsk
  by_cases hag : AgreeOff k (digits (shape as) b) (digits (shape as) b')
  · set i := b / ((shape as).drop (k + 1)).prod % a.nBins with hi
    set j := b' / ((shape as).drop (k + 1)).prod % a.nBins with hj
    have hi' : i < a.nBins := Nat.mod_lt _ hca.pos
    have hj' : j < a.nBins := Nat.mod_lt _ hca.pos
    have bi := binIs_edges hca hi'
    have bj := binIs_edges hca hj'
    rw [g1 hag i j _ _ _ _ d1 d2 bi bj]
    have hlt := lowE_lt hca hw hi'
    by_cases hij : i = j
    · have hbb : b' = b := by
        have : digits (shape as) b = digits (shape as) b' := by
          apply List.ext_getElem?
          intro d
          by_cases hdk : d = k
          · subst hdk; rw [d1, d2, hij]
          · exact hag d hdk
        rw [← rowMajor_digits hb1, ← rowMajor_digits hb1', this]
      rw [if_pos hbb, ← hij]
      simp [overlapFrac, overlap, max_eq_right (sub_pos.2 hlt).le, div_self (sub_pos.2 hlt).ne']
    · have hbb : b' ≠ b := by rintro rfl; exact hij rfl
      rw [if_neg hbb]
      congr 1
      unfold overlapFrac overlap
      have hz : min (id (highE a i)) (highE a j) - max (id (lowE a i)) (lowE a j) ≤ 0 := by
        simp only [id]
        rcases Nat.lt_or_gt_of_ne hij with hl | hl
        · have := hca.high_le_low hl bi.2 bj.1
          have := min_le_left (highE a i) (highE a j); have := le_max_right (lowE a i) (lowE a j); linarith
        · have := hca.high_le_low hl bj.2 bi.1
          have := min_le_right (highE a i) (highE a j); have := le_max_left (lowE a i) (lowE a j); linarith
      rw [max_eq_left hz, zero_div]
  · rw [g2 hag, if_neg]
    rintro rfl; exact hag (fun _ _ => rfl)

/-- Non-vacuity: the 2×3×2 grid `exAxes` meets the hypotheses of the theorems above; scaling its middle observable by
11/10 gives these entries. -/
def exColl : AxisCollection ℚ :=
  match (empty : AxisCollection ℚ).addAxes exAxes with
  | .ok c => c
  | _ => .empty

theorem exColl_built : (empty : AxisCollection ℚ).addAxes exAxes = .ok exColl := by
  obtain ⟨c, hc⟩ := (C04_build exAxes).1 (by decide +kernel)
  unfold exColl; rw [hc]

/-- One entry of the response of a scale systematic. -/
def exEntry (f : ℚ) (i j : Nat) : Res ℚ :=
  (freshAxisSys "r" ["e", "r", "t"] exColl).constructScale f >>= fun s => s.base.response.getComponent i j

example : exEntry (11/10) 0 0 = .ok (10/11) ∧ exEntry (11/10) 2 0 = .ok (1/11) ∧
    exEntry (11/10) 3 0 = .ok 0 := by decide +kernel

end Oxsx
