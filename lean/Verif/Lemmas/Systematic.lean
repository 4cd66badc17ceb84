import Verif.Model.Systematic
import Verif.Spec.Systematic
import Verif.Lemmas.AxisCollection
import Verif.Props.Event
import Verif.Props.Matrix
import Mathlib.Algebra.Order.Field.Rat
import Mathlib.Tactic.Linarith
/- Helper lemmas for the systematics that transform one axis. -/
set_option linter.unusedSectionVars false
set_option linter.unusedSimpArgs false
namespace Oxsx
open AxisCollection
variable {α : Type} [Field α] [LinearOrder α] [IsStrictOrderedRing α]

theorem overlap_nonneg (a b c d : α) : 0 ≤ overlap a b c d := le_max_left _ _

theorem overlapFrac_nonneg {a b c d : α} (h : a < b) : 0 ≤ overlapFrac a b c d :=
  div_nonneg (overlap_nonneg a b c d) (sub_pos.2 h).le

theorem overlap_le {a b c d : α} (h : a ≤ b) : overlap a b c d ≤ b - a := by
  unfold overlap
  apply max_le (sub_nonneg.2 h)
  have := min_le_left b d; have := le_max_left a c; linarith

theorem overlapFrac_le_one {a b c d : α} (h : a < b) : overlapFrac a b c d ≤ 1 := by
  unfold overlapFrac
  rw [div_le_one (sub_pos.2 h)]
  exact overlap_le h.le

/-- `setComponent` in range. -/
theorem Matrix'.setComponent_ok {β : Type} {m : Matrix' β} {i j : Nat} (v : β) (h1 : i < m.nRows) (h2 : j < m.nCols)
    (h3 : i < m.arma.rows) (h4 : j < m.arma.cols) : m.setComponent i j v =
      .ok ⟨m.nRows, m.nCols, m.arma.rows, m.arma.cols, fun a b => if a = i ∧ b = j then v else m.arma.entry a b⟩ := by
  unfold setComponent
  rw [if_neg (by omega)]
  unfold ArmaMat.set
  rw [if_pos ⟨h3, h4⟩]
  rfl

namespace AxisSys

/-- The code's case analysis computes the overlap fraction. -/
theorem contribution_eq {ax : BinAxis α} {low high lo' hi' : α} {j : Nat} (hlt : low < high)
    (hb : ax.BinIs j lo' hi') (hle : lo' ≤ hi') :
    getBinContribution ax low high j = .ok (overlapFrac low high lo' hi') := by
  unfold getBinContribution
  rw [hb.1, hb.2]
  simp only [Res.ok_bind, Res.pure_eq, Res.ok.injEq]
  unfold overlapFrac overlap
  have hw : high - low ≠ 0 := (sub_pos.2 hlt).ne'
  by_cases h1 : lo' > high ∨ hi' < low
  · rw [if_pos h1]
    have : min high hi' - max low lo' ≤ 0 := by
      rcases h1 with h | h
      · have := min_le_left high hi'; have := le_max_right low lo'; linarith
      · have := min_le_right high hi'; have := le_max_left low lo'; linarith
    rw [max_eq_left this, zero_div]
  · rw [if_neg h1]
    push Not at h1
    by_cases h2 : lo' > low
    · rw [if_pos h2, max_eq_right h2.le]
      by_cases h3 : hi' < high
      · rw [if_pos h3, min_eq_right h3.le, max_eq_right (by linarith)]
      · rw [if_neg h3, min_eq_left (not_lt.1 h3), max_eq_right (by linarith [h1.1])]
    · rw [if_neg h2, max_eq_left (not_lt.1 h2)]
      by_cases h3 : hi' < high
      · rw [if_pos h3, min_eq_right h3.le, max_eq_right (by linarith [h1.2])]
      · rw [if_neg h3, min_eq_left (not_lt.1 h3), max_eq_right (by linarith), div_self hw]

/-- Edges of bin `j`, zero outside the axis. -/
def lowE (a : BinAxis α) (j : Nat) : α := a.lowEdges.getD j 0
def highE (a : BinAxis α) (j : Nat) : α := a.highEdges.getD j 0

theorem binIs_edges {a : BinAxis α} (h : a.Contiguous) {j : Nat} (hj : j < a.nBins) :
    a.BinIs j (lowE a j) (highE a j) := by
  have h1 : j < a.lowEdges.length := by rw [h.lowLen]; exact hj
  have h2 : j < a.highEdges.length := by rw [h.highLen]; exact hj
  refine ⟨?_, ?_⟩
  · unfold BinAxis.getBinLowEdge lowE; rw [at_of_lt h1]; simp [h1]
  · unfold BinAxis.getBinHighEdge highE; rw [at_of_lt h2]; simp [h2]

theorem binIs_unique {a : BinAxis α} {j : Nat} {lo hi : α} (h : a.Contiguous) (hb : a.BinIs j lo hi) :
    j < a.nBins ∧ lo = lowE a j ∧ hi = highE a j := by
  have hj : j < a.nBins := by
    by_contra hc
    have := (h.noMore j (not_lt.1 hc)).1
    rw [hb.1] at this; cases this
  have := binIs_edges h hj
  refine ⟨hj, ?_, ?_⟩
  · have := hb.1.symm.trans this.1; cases this; rfl
  · have := hb.2.symm.trans this.2; cases this; rfl

theorem lowE_lt {a : BinAxis α} (h : a.Contiguous) (hw : a.PosWidths) {j : Nat} (hj : j < a.nBins) :
    lowE a j < highE a j := hw j _ _ (binIs_edges h hj)

/-- Image of bin `b`, overlapped with bin `j`. -/
def ov (a : BinAxis α) (t : α → α) (b j : Nat) : α :=
  overlapFrac (t (lowE a b)) (t (highE a b)) (lowE a j) (highE a j)

theorem ov_zero_outside {a : BinAxis α} (h : a.Contiguous) {t : α → α} {b j : Nat}
    (hj : j < a.nBins) (hout : j < a.findBin (t (lowE a b)) ∨ a.findBin (t (highE a b)) < j) :
    ov a t b j = 0 := by
  unfold ov overlapFrac overlap
  have hbj := binIs_edges h hj
  have : min (t (highE a b)) (highE a j) - max (t (lowE a b)) (lowE a j) ≤ 0 := by
    rcases hout with h1 | h1
    · have := (h.findBin_spec (t (lowE a b))).2.1 j _ h1 hbj.2
      have h3 := min_le_right (t (highE a b)) (highE a j)
      have h4 := le_max_left (t (lowE a b)) (lowE a j)
      linarith
    · have hs := h.findBin_spec (t (highE a b))
      have hf := binIs_edges h hs.1
      have h5 := hs.2.2 _ _ (le_refl _) hf.2
      have h6 : t (highE a b) < highE a (a.findBin (t (highE a b))) := by
        rcases h5 with h5 | h5
        · exact h5
        · omega
      have h7 := h.high_le_low h1 hf.2 hbj.1
      have h3 := min_le_left (t (highE a b)) (highE a j)
      have h4 := le_max_right (t (lowE a b)) (lowE a j)
      linarith
  rw [max_eq_left this, zero_div]

/-- The list of contributions of bin `b`. -/
def psOf (a : BinAxis α) (t : α → α) (b : Nat) : List (Nat × α) :=
  ((List.range' (a.findBin (t (lowE a b))) (a.findBin (t (highE a b)) + 1 - a.findBin (t (lowE a b)))).map
    (fun j => (j, ov a t b j))).filter (fun p => decide (p.2 > 0))

theorem valsOfBin_eq {a : BinAxis α} (h : a.Contiguous) (hw : a.PosWidths) {t : α → α} (ht : StrictMono t)
    {b : Nat} (hb : b < a.nBins) : valsOfBin a t b = .ok (psOf a t b) := by
  unfold valsOfBin
  have hbi := binIs_edges h hb
  rw [hbi.1, hbi.2]
  simp only [Res.ok_bind]
  rw [Res.traverse_ok (g := fun j => (j, ov a t b j))]
  · rfl
  · intro j hj
    have hj' : j < a.nBins := by
      have := (h.findBin_spec (t (highE a b))).1
      rw [List.mem_range'_1] at hj; omega
    have hbj := binIs_edges h hj'
    rw [contribution_eq (ht (lowE_lt h hw hb)) hbj (lowE_lt h hw hj').le]
    rfl

theorem mem_psOf {a : BinAxis α} (h : a.Contiguous) (hw : a.PosWidths) {t : α → α} (ht : StrictMono t)
    {b : Nat} (hb : b < a.nBins) (j : Nat) (v : α) :
    (j, v) ∈ psOf a t b ↔ j < a.nBins ∧ v = ov a t b j ∧ 0 < v := by
  unfold psOf
  simp only [List.mem_filter, List.mem_map, List.mem_range'_1, decide_eq_true_eq, Prod.mk.injEq, gt_iff_lt]
  have hhi := (h.findBin_spec (t (highE a b))).1
  constructor
  · rintro ⟨⟨j', ⟨h1, h2⟩, rfl, rfl⟩, h3⟩
    exact ⟨by omega, rfl, h3⟩
  · rintro ⟨h1, rfl, h3⟩
    refine ⟨⟨j, ?_, rfl, rfl⟩, h3⟩
    by_contra hc
    have : ov a t b j = 0 := ov_zero_outside h h1 (by omega)
    rw [this] at h3; exact lt_irrefl _ h3

theorem psOf_nodup (a : BinAxis α) (t : α → α) (b : Nat) : ((psOf a t b).map (·.1)).Nodup := by
  unfold psOf
  refine List.Nodup.sublist (List.Sublist.map _ List.filter_sublist) ?_
  rw [List.map_map]
  have : ((fun p : Nat × α => p.1) ∘ fun j => (j, ov a t b j)) = id := rfl
  rw [this, List.map_id]
  exact List.nodup_range'

/-! ### The bin-number table -/

/-- Flat number of the bin like `b` but with index `j` on axis `k`. -/
def moved (ns : List Nat) (k b j : Nat) : Nat := rowMajor ns ((digits ns b).set k j)

theorem digits_length (ns : List Nat) (b : Nat) : (digits ns b).length = ns.length := by
  induction ns with
  | nil => rfl
  | cons n ns ih => simp [digits, ih]

theorem set_inRange {is ns : List Nat} (h : InRange is ns) {k n j : Nat} (hk : ns[k]? = some n) (hj : j < n) :
    InRange (is.set k j) ns := by
  unfold InRange at *
  induction h generalizing k with
  | nil => simp at hk
  | @cons i m is ns h1 h2 ih =>
    cases k with
    | zero => simp at hk; subst hk; exact List.Forall₂.cons hj h2
    | succ k => simp at hk; exact List.Forall₂.cons h1 (ih hk)

theorem moved_lt {ns : List Nat} (hpos : ∀ n ∈ ns, 0 < n) {k n j : Nat} (hk : ns[k]? = some n) (hj : j < n)
    (b : Nat) : moved ns k b j < ns.prod := rowMajor_lt (set_inRange (digits_inRange hpos b) hk hj)

theorem digits_moved {ns : List Nat} (hpos : ∀ n ∈ ns, 0 < n) {k n j : Nat} (hk : ns[k]? = some n) (hj : j < n)
    (b : Nat) : digits ns (moved ns k b j) = (digits ns b).set k j :=
  digits_rowMajor (set_inRange (digits_inRange hpos b) hk hj)

theorem moved_inj {ns : List Nat} (hpos : ∀ n ∈ ns, 0 < n) {k n i j : Nat} (hk : ns[k]? = some n) (hi : i < n)
    (hj : j < n) {b : Nat} (h : moved ns k b i = moved ns k b j) : i = j := by
  have h1 := digits_moved hpos hk hi b
  have h2 := digits_moved hpos hk hj b
  rw [h] at h1
  have h3 := h1.symm.trans h2
  have hkl : k < (digits ns b).length := by rw [digits_length]; exact (List.getElem?_eq_some_iff.1 hk).1
  have := congrArg (fun l : List Nat => l[k]?) h3
  simp only [List.getElem?_set_self hkl, Option.some.injEq] at this
  exact this

/-- `b'` agrees with `b` off axis `k` iff it is `b` moved to its own index on that axis. -/
theorem agreeOff_iff {ns : List Nat} {k n : Nat} (hk : ns[k]? = some n) {b b' : Nat}
    (hb' : b' < ns.prod) {j : Nat} (hj : (digits ns b')[k]? = some j) :
    AgreeOff k (digits ns b) (digits ns b') ↔ moved ns k b j = b' := by
  have hkl : k < (digits ns b).length := by rw [digits_length]; exact (List.getElem?_eq_some_iff.1 hk).1
  have key : AgreeOff k (digits ns b) (digits ns b') ↔ (digits ns b).set k j = digits ns b' := by
    constructor
    · intro h
      apply List.ext_getElem?
      intro d
      by_cases hd : d = k
      · subst hd; rw [List.getElem?_set_self hkl, hj]
      · rw [List.getElem?_set_ne (Ne.symm hd), h d hd]
    · intro h d hd
      rw [← h, List.getElem?_set_ne (Ne.symm hd)]
  rw [key]
  constructor
  · intro h; unfold moved; rw [h, rowMajor_digits hb']
  · intro h
    have hj' : j < n := by
      have := digits_getElem? ns b' k n hk
      rw [hj] at this; cases this
      apply Nat.mod_lt
      by_contra hn
      have hn0 : n = 0 := by omega
      have : ns.prod = 0 := List.prod_eq_zero (hn0 ▸ List.mem_of_getElem? hk)
      omega
    have hpos : ∀ m ∈ ns, 0 < m := by
      intro m hm
      by_contra hn
      have hn0 : m = 0 := by omega
      have : ns.prod = 0 := List.prod_eq_zero (hn0 ▸ hm)
      omega
    rw [← h, digits_moved hpos hk hj' b]

/-- What the cache should hold for a grid of shape `ns` and axis `k` of `n` bins. -/
structure CacheFor (ns : List Nat) (k n : Nat) (s : AxisSys α) : Prop where
  cached : s.cached = true
  dt : s.distTrans = (List.range ns.prod).map (fun b => (digits ns b).getD k 0)
  rows : s.mapping.nRows = ns.prod
  cols : s.mapping.nCols = n
  arows : s.mapping.arma.rows = ns.prod
  acols : s.mapping.arma.cols = n
  ent : ∀ b j, b < ns.prod → j < n → s.mapping.arma.entry b j = moved ns k b j

variable {as : List (BinAxis α)} {c : AxisCollection α}

/-- The setting in which an axis systematic is used: axes `as` held by `c`, the observable `tn` transformed, in
position `k` of the distribution's observables. -/
structure Setting (s : AxisSys α) (as : List (BinAxis α)) (k : Nat) (a : BinAxis α) : Prop where
  holds : Holds s.base.axes as
  ax : as[k]? = some a
  cont : ∀ a ∈ as, a.Contiguous
  trans : ∃ tn dn, s.base.transObs = ObsSet.ofNames [tn] ∧ s.base.distObs = ObsSet.ofNames dn ∧ dn.Nodup ∧
    dn[k]? = some tn
  rows : s.base.response.nRows = s.base.axes.nBins
  cols : s.base.response.nCols = s.base.axes.nBins

theorem Setting.ne {s : AxisSys α} {k : Nat} {a : BinAxis α} (h : Setting s as k a) : as ≠ [] := by
  rintro rfl; simpa using h.ax

theorem Setting.shapeK {s : AxisSys α} {k : Nat} {a : BinAxis α} (h : Setting s as k a) :
    (shape as)[k]? = some a.nBins := by simp [shape, h.ax]

theorem Setting.ti {s : AxisSys α} {k : Nat} {a : BinAxis α} (h : Setting s as k a) :
    transIndex s.base = .ok k ∧ s.base.axes.getAxis k = .ok a ∧
    s.base.transObs.getRelativeIndices s.base.distObs = .ok [k] ∧ s.base.transObs.names.length = 1 := by
  obtain ⟨tn, dn, h1, h2, h3, h4⟩ := h.trans
  have hi := ((C42_index dn h3 tn).1 k).2 h4
  refine ⟨?_, ?_, ?_, ?_⟩
  · unfold transIndex; rw [h1, h2]; simp [ObsSet.ofNames, at_] ; exact hi
  · unfold getAxis; rw [h.holds.axes, (at_ok).2 h.ax]; rfl
  · unfold ObsSet.getRelativeIndices; rw [h1, h2]
    have hl := (List.getElem?_eq_some_iff.1 h4).1
    rw [if_neg (by show ¬ dn.length < 1; omega)]
    have e : (ObsSet.ofNames [tn]).names = [tn] := rfl
    rw [e]
    simp [Res.traverse, hi]
  · rw [h1]; rfl

theorem cache_ok {s : AxisSys α} {k : Nat} {a : BinAxis α} (h : Setting s as k a) :
    ∃ s', s.cacheBinMapping = .ok s' ∧ s'.base = s.base ∧ CacheFor (shape as) k a.nBins s' := by
  have hne := h.ne
  have hN := h.holds.total_ne hne
  obtain ⟨t1, t2, t3, t4⟩ := h.ti
  have hk := (List.getElem?_eq_some_iff.1 h.ax).1
  have hpos := shape_pos h.cont
  unfold cacheBinMapping
  rw [t3]
  simp only [Res.ok_bind, at_, List.getElem?_cons_zero, t1, t2]
  rw [Res.traverse_ok (g := fun b => (digits (shape as) b).getD k 0) (by
    intro b hb
    rw [List.mem_range, hN] at hb
    obtain ⟨d, h1, h2⟩ := h.holds.unflatten hne hb hk
    rw [h1]; simp [h2])]
  simp only [Res.ok_bind]
  have inner : ∀ b, b < (shape as).prod → ∀ m : Matrix' Nat,
      m.nRows = (shape as).prod → m.nCols = a.nBins → m.arma.rows = (shape as).prod → m.arma.cols = a.nBins →
      ∃ m', Res.forFold (mapStep s.base k b (digits (shape as) b)) m (List.range a.nBins) = .ok m' ∧
        (m'.nRows = (shape as).prod ∧ m'.nCols = a.nBins ∧ m'.arma.rows = (shape as).prod ∧ m'.arma.cols = a.nBins) ∧
        (∀ j, j < a.nBins → m'.arma.entry b j = moved (shape as) k b j) ∧
        (∀ r j, r ≠ b → m'.arma.entry r j = m.arma.entry r j) := by
    intro b hb m h1 h2 h3 h4
    obtain ⟨m', hm1, hm2, hm3, hm4⟩ := Res.forFold_range (n := a.nBins) (s := m)
      (f := mapStep s.base k b (digits (shape as) b))
      (fun i (m' : Matrix' Nat) => (m'.nRows = (shape as).prod ∧ m'.nCols = a.nBins ∧
        m'.arma.rows = (shape as).prod ∧ m'.arma.cols = a.nBins) ∧
        (∀ j, j < i → m'.arma.entry b j = moved (shape as) k b j) ∧
        (∀ r j, r ≠ b → m'.arma.entry r j = m.arma.entry r j))
      ⟨⟨h1, h2, h3, h4⟩, by intro j hj; omega, by intros; rfl⟩ (by
        rintro i m1 hi ⟨⟨g1, g2, g3, g4⟩, g5, g6⟩
        have hkl : k < (digits (shape as) b).length := by rw [digits_length]; simpa [shape] using hk
        have hr := set_inRange (digits_inRange hpos b) h.shapeK hi
        refine ⟨⟨m1.nRows, m1.nCols, m1.arma.rows, m1.arma.cols, fun x y => if x = b ∧ y = i then
          moved (shape as) k b i else m1.arma.entry x y⟩, ?_, ?_⟩
        · unfold mapStep
          rw [setIdx_of_lt hkl]
          simp only [Res.ok_bind]
          rw [h.holds.flatten hne (by rw [List.length_set, digits_length]; simp [shape])]
          simp only [Res.ok_bind]
          rw [Matrix'.setComponent_ok _ (by omega) (by omega) (by omega) (by omega)]
          rfl
        · refine ⟨⟨g1, g2, g3, g4⟩, ?_, ?_⟩
          · intro j hj
            simp only
            by_cases hji : j = i
            · subst hji; simp [moved]
            · simp [hji, g5 j (by omega)]
          · intro r j hr
            simp [hr, g6 r j hr])
    exact ⟨m', hm1, hm2, hm3, hm4⟩
  obtain ⟨m', hm1, ⟨g1, g2, g3, g4⟩, g5⟩ := Res.forFold_range (n := s.base.axes.nBins)
    (s := (Matrix'.mk' s.base.axes.nBins a.nBins : Matrix' Nat))
    (f := fun (m : Matrix' Nat) bin => do
      let unflat ← s.base.axes.unpackIndices bin
      Res.forFold (mapStep s.base k bin unflat) m (List.range a.nBins))
    (fun i (m' : Matrix' Nat) => (m'.nRows = (shape as).prod ∧ m'.nCols = a.nBins ∧
        m'.arma.rows = (shape as).prod ∧ m'.arma.cols = a.nBins) ∧
        (∀ b j, b < i → j < a.nBins → m'.arma.entry b j = moved (shape as) k b j))
    ⟨⟨hN, rfl, hN, rfl⟩, by intro b j hb; omega⟩ (by
      rintro i m1 hi ⟨⟨g1, g2, g3, g4⟩, g5⟩
      rw [hN] at hi
      obtain ⟨m2, e1, e2, e3, e4⟩ := inner i hi m1 g1 g2 g3 g4
      refine ⟨m2, ?_, e2, ?_⟩
      · rw [h.holds.unpack hne hi]; exact e1
      · intro b j hb hj
        by_cases hbi : b = i
        · subst hbi; exact e3 j hj
        · rw [e4 b j hbi]; exact g5 b j (by omega) hj)
  rw [hm1]
  refine ⟨_, rfl, rfl, rfl, ?_, g1, g2, g3, g4, ?_⟩
  · simp only [hN]
  · intro b j hb hj; exact g5 b j (by rw [hN]; exact hb) hj

/-- Inner filling loop: one column. -/
theorem fillCol {s : AxisSys α} {ns : List Nat} {k n b : Nat} (hc : CacheFor ns k n s) (hk : ns[k]? = some n)
    (hpos : ∀ m ∈ ns, 0 < m) (hb : b < ns.prod) (ps : List (Nat × α)) (hps : ∀ p ∈ ps, p.1 < n)
    (hnd : (ps.map (·.1)).Nodup) (m : Matrix' α) (h1 : m.nRows = ns.prod) (h2 : m.nCols = ns.prod)
    (h3 : m.arma.rows = ns.prod) (h4 : m.arma.cols = ns.prod) :
    ∃ m', Res.forFold (s.fillStep b) m ps = .ok m' ∧
      (m'.nRows = ns.prod ∧ m'.nCols = ns.prod ∧ m'.arma.rows = ns.prod ∧ m'.arma.cols = ns.prod) ∧
      (∀ p ∈ ps, m'.arma.entry (moved ns k b p.1) b = p.2) ∧
      (∀ r q, (q ≠ b ∨ ∀ p ∈ ps, moved ns k b p.1 ≠ r) → m'.arma.entry r q = m.arma.entry r q) := by
  induction ps generalizing m with
  | nil => exact ⟨m, rfl, ⟨h1, h2, h3, h4⟩, by simp, by intros; rfl⟩
  | cons p ps ih =>
    have hp := hps p List.mem_cons_self
    have hmv := moved_lt hpos hk hp b
    have hstep : ∃ m1 : Matrix' α, s.fillStep b m p = .ok m1 ∧
        (m1.nRows = ns.prod ∧ m1.nCols = ns.prod ∧ m1.arma.rows = ns.prod ∧ m1.arma.cols = ns.prod) ∧
        ∀ r q, m1.arma.entry r q = if r = moved ns k b p.1 ∧ q = b then p.2 else m.arma.entry r q := by
      refine ⟨⟨m.nRows, m.nCols, m.arma.rows, m.arma.cols, fun x y => if x = moved ns k b p.1 ∧ y = b then
          p.2 else m.arma.entry x y⟩, ?_, ?_⟩
      · unfold fillStep Matrix'.getComponent ArmaMat.get
        rw [if_neg (by rw [hc.rows, hc.cols]; omega), if_pos (by rw [hc.arows, hc.acols]; exact ⟨hb, hp⟩)]
        simp only [Res.ok_bind, hc.ent b p.1 hb hp]
        rw [Matrix'.setComponent_ok _ (by omega) (by omega) (by omega) (by omega)]
      · exact ⟨⟨h1, h2, h3, h4⟩, by intros; rfl⟩
    obtain ⟨m1, e0, ⟨e1, e2, e3, e4⟩, e5⟩ := hstep
    have hnd' := List.nodup_cons.1 (show (p.1 :: ps.map (·.1)).Nodup from hnd)
    obtain ⟨m2, f0, f1, f2, f3⟩ := ih (fun q hq => hps q (List.mem_cons_of_mem _ hq))
      hnd'.2 m1 e1 e2 e3 e4
    refine ⟨m2, by rw [Res.forFold_cons_ok e0]; exact f0, f1, ?_, ?_⟩
    · intro q hq
      rcases List.mem_cons.1 hq with rfl | hq
      · rw [f3 _ _ (Or.inr ?_), e5]; simp
        intro p' hp' heq
        have := moved_inj hpos hk (hps p' (List.mem_cons_of_mem _ hp')) hp heq
        exact hnd'.1 (List.mem_map.2 ⟨p', hp', this⟩)
      · exact f2 q hq
    · intro r q hrq
      rw [f3 r q (hrq.imp id (fun h p' hp' => h p' (List.mem_cons_of_mem _ hp'))), e5]
      rw [if_neg]
      rintro ⟨rfl, rfl⟩
      rcases hrq with h | h
      · exact h rfl
      · exact h p List.mem_cons_self rfl

/-- `Construct` on a systematic whose cache is empty or right for these axes. -/
theorem construct_ok {s : AxisSys α} {k : Nat} {a : BinAxis α} (h : Setting s as k a) (hw : a.PosWidths)
    (hcache : s.cached = false ∨ CacheFor (shape as) k a.nBins s) {t : α → α} (ht : StrictMono t) :
    ∃ s', s.constructWith t = .ok s' ∧ CacheFor (shape as) k a.nBins s' ∧
      s'.base.axes = s.base.axes ∧ s'.base.transObs = s.base.transObs ∧ s'.base.distObs = s.base.distObs ∧
      s'.base.response.Sized ∧ s'.base.response.nRows = (shape as).prod ∧ s'.base.response.nCols = (shape as).prod ∧
      (∀ b j, b < (shape as).prod → j < a.nBins → 
        s'.base.response.arma.entry (moved (shape as) k b j) b = ov a t ((digits (shape as) b).getD k 0) j) ∧
      (∀ b b', b < (shape as).prod → (∀ j, j < a.nBins → moved (shape as) k b j ≠ b') →
        s'.base.response.arma.entry b' b = 0) := by
  have hne := h.ne
  have hN := h.holds.total_ne hne
  have hpos := shape_pos h.cont
  have hca := h.cont a (List.mem_of_getElem? h.ax)
  have hNpos : 0 < (shape as).prod := prod_pos_of hpos
  obtain ⟨t1, t2, t3, t4⟩ := h.ti
  have hcs : ∃ s1, (if s.cached then pure s else s.cacheBinMapping) = Res.ok s1 ∧ s1.base = s.base ∧
      CacheFor (shape as) k a.nBins s1 := by
    rcases hcache with hc | hc
    · rw [hc]; obtain ⟨s1, e1, e2, e3⟩ := cache_ok h
      exact ⟨s1, by simpa using e1, e2, e3⟩
    · rw [hc.cached]; exact ⟨s, rfl, rfl, hc⟩
  obtain ⟨s1, e1, e2, e3⟩ := hcs
  unfold constructWith
  rw [Res.throwIf_false_of (by omega), Res.throwIf_false_of (by omega)]
  simp only [Res.ok_bind]
  rw [e1]
  simp only [Res.ok_bind]
  rw [e2, t1]
  simp only [Res.ok_bind, t2]
  rw [BinAxis.traverse_range_ok (g := psOf a t) (fun b hb => valsOfBin_eq hca hw ht hb)]
  simp only [Res.ok_bind]
  unfold fillResponse Matrix'.setZeros
  rw [e2, if_neg (by rw [h.rows, h.cols]; omega)]
  simp only [Res.ok_bind]
  have hdig : ∀ b, (digits (shape as) b).getD k 0 < a.nBins := by
    intro b
    have hr := digits_getElem? (shape as) b k a.nBins h.shapeK
    rw [List.getD_eq_getElem?_getD, hr]
    exact Nat.mod_lt _ hca.pos
  obtain ⟨m', hm, ⟨g1, g2, g3, g4⟩, g5, g6⟩ := Res.forFold_range (n := s.base.axes.nBins)
    (s := ({ s.base.response with arma := ArmaMat.zeros s.base.response.nRows s.base.response.nCols } : Matrix' α))
    (f := fun (m : Matrix' α) obsBin => do
      let k ← at_ s1.distTrans obsBin
      let ps ← at_ ((List.range a.nBins).map (psOf a t)) k
      Res.forFold (s1.fillStep obsBin) m ps)
    (fun i (m' : Matrix' α) => (m'.nRows = (shape as).prod ∧ m'.nCols = (shape as).prod ∧
        m'.arma.rows = (shape as).prod ∧ m'.arma.cols = (shape as).prod) ∧
      (∀ b j, b < i → j < a.nBins →
        m'.arma.entry (moved (shape as) k b j) b = ov a t ((digits (shape as) b).getD k 0) j) ∧
      (∀ b b', (i ≤ b ∨ ∀ j, j < a.nBins → moved (shape as) k b j ≠ b') → m'.arma.entry b' b = 0))
    ⟨⟨by rw [← hN]; exact h.rows, by rw [← hN]; exact h.cols, by rw [← hN]; exact h.rows,
       by rw [← hN]; exact h.cols⟩, by intro b j hb; omega, by intros; rfl⟩ (by
      rintro i m1 hi ⟨⟨g1, g2, g3, g4⟩, g5, g6⟩
      rw [hN] at hi
      have hdk := hdig i
      obtain ⟨m2, f0, f1, f2, f3⟩ := fillCol e3 h.shapeK hpos hi (psOf a t ((digits (shape as) i).getD k 0))
        (by rintro ⟨j, v⟩ hp; exact ((mem_psOf hca hw ht hdk j v).1 hp).1) (psOf_nodup _ _ _) m1 g1 g2 g3 g4
      refine ⟨m2, ?_, f1, ?_, ?_⟩
      · rw [e3.dt]
        have : at_ ((List.range (shape as).prod).map (fun b => (digits (shape as) b).getD k 0)) i
            = .ok ((digits (shape as) i).getD k 0) := by
          rw [at_ok]; simp [hi]
        rw [this]; simp only [Res.ok_bind]
        have : at_ ((List.range a.nBins).map (psOf a t)) ((digits (shape as) i).getD k 0)
            = .ok (psOf a t ((digits (shape as) i).getD k 0)) := by
          rw [at_ok]
          rw [List.getElem?_map, List.getElem?_range hdk]; rfl
        rw [this]; exact f0
      · intro b j hb hj
        by_cases hbi : b = i
        · subst hbi
          by_cases hv : 0 < ov a t ((digits (shape as) b).getD k 0) j
          · exact f2 (j, _) ((mem_psOf hca hw ht hdk j _).2 ⟨hj, rfl, hv⟩)
          · have hz : ov a t ((digits (shape as) b).getD k 0) j = 0 :=
              le_antisymm (not_lt.1 hv) (overlapFrac_nonneg (ht (lowE_lt hca hw hdk)))
            rw [hz, f3 _ _ (Or.inr ?_), g6 _ _ (Or.inl (le_refl _))]
            rintro ⟨j', v⟩ hp heq
            obtain ⟨p1, p2, p3⟩ := (mem_psOf hca hw ht hdk j' v).1 hp
            have := moved_inj hpos h.shapeK p1 hj heq
            subst this
            exact hv (p2 ▸ p3)
        · rw [f3 _ _ (Or.inl hbi)]; exact g5 b j (by omega) hj
      · intro b b' hbb
        by_cases hbi : b = i
        · subst hbi
          rw [f3 _ _ (Or.inr ?_), g6 _ _ (Or.inl (le_refl _))]
          rintro ⟨j', v⟩ hp
          obtain ⟨p1, p2, p3⟩ := (mem_psOf hca hw ht hdk j' v).1 hp
          rcases hbb with hbb | hbb
          · omega
          · exact hbb j' p1
        · rw [f3 _ _ (Or.inl hbi)]
          exact g6 b b' (hbb.imp (by omega) id))
  rw [hm]
  refine ⟨_, rfl, ⟨e3.cached, e3.dt, e3.rows, e3.cols, e3.arows, e3.acols, e3.ent⟩, rfl, rfl, rfl,
    ⟨by rw [g3, g1], by rw [g4, g2]⟩, g1, g2, ?_, ?_⟩
  · intro b j hb hj; exact g5 b j (by rw [hN]; exact hb) hj
  · intro b b' hb hbb; exact g6 b b' (Or.inr hbb)

end AxisSys
end Oxsx
