import Verif.Model.Constraint
import Verif.Props.Lattice
import Mathlib.Algebra.BigOperators.Ring.Finset
/-
Property C39 (interpolated shape constraint).
-/
set_option linter.unusedSectionVars false
set_option linter.unusedSimpArgs false
set_option linter.unusedVariables false
namespace Oxsx
open AxisCollection Histogram ShapeInterp
variable {α : Type} [Field α] [LinearOrder α] [IsStrictOrderedRing α]

/-! ### Multilinear interpolation -/

/-- Weight of corner `k` in `n` dimensions. -/
def weight (t : Nat → α) (k : Nat) : Nat → α
  | 0 => 1
  | d + 1 => weight t k d * (if k.testBit d then t d else 1 - t d)

/-- The interpolated value. -/
def interpVal (n : Nat) (f : Nat → α) (t : Nat → α) : α := ∑ k ∈ Finset.range (2 ^ n), f k * weight t k n

theorem weight_add (t : Nat → α) (n k : Nat) (h : k < 2 ^ n) (d : Nat) (hd : d ≤ n) :
    weight t (k + 2 ^ n) d = weight t k d := by
  induction d with
  | zero => rfl
  | succ d ih =>
    have hbit : (k + 2 ^ n).testBit d = k.testBit d := by
      rw [Nat.add_comm, Nat.testBit_two_pow_add_gt (by omega)]
    simp only [weight, ih (by omega), hbit]

theorem interpVal_succ (n : Nat) (f t : Nat → α) :
    interpVal (n + 1) f t = (1 - t n) * interpVal n f t + t n * interpVal n (fun k => f (k + 2 ^ n)) t := by
  unfold interpVal
  rw [pow_succ, mul_two, Finset.sum_range_add, Finset.mul_sum, Finset.mul_sum]
  congr 1
  · apply Finset.sum_congr rfl
    intro k hk
    have hk' := Finset.mem_range.1 hk
    have : k.testBit n = false := Nat.testBit_lt_two_pow hk'
    simp only [weight, this]
    simp only [Bool.false_eq_true, if_false]; ring
  · apply Finset.sum_congr rfl
    intro k hk
    have hk' := Finset.mem_range.1 hk
    have hb : (k + 2 ^ n).testBit n = true := by
      rw [Nat.add_comm, Nat.testBit_two_pow_add_eq, Nat.testBit_lt_two_pow hk']; rfl
    rw [Nat.add_comm (2 ^ n) k]
    simp only [weight, hb, weight_add t n k hk' n le_rfl, if_true]
    ring

theorem interpVal_zero_dim (f t : Nat → α) : interpVal 0 f t = f 0 := by simp [interpVal, weight]

theorem interpVal_bounds (n : Nat) (f t : Nat → α) (lo hi : α) (ht : ∀ d, d < n → 0 ≤ t d ∧ t d ≤ 1)
    (hf : ∀ k, k < 2 ^ n → lo ≤ f k ∧ f k ≤ hi) : lo ≤ interpVal n f t ∧ interpVal n f t ≤ hi := by
  induction n generalizing f with
  | zero => rw [interpVal_zero_dim]; exact hf 0 (by simp)
  | succ n ih =>
    rw [interpVal_succ]
    have h1 := ih f (fun d hd => ht d (by omega)) (fun k hk => hf k (by rw [pow_succ]; omega))
    have h2 := ih (fun k => f (k + 2 ^ n)) (fun d hd => ht d (by omega)) (fun k hk => hf _ (by rw [pow_succ]; omega))
    have h3 := ht n (by omega)
    constructor <;> nlinarith

theorem interpVal_corner (n : Nat) (f t : Nat → α) (ht : ∀ d, d < n → t d = 0) : interpVal n f t = f 0 := by
  induction n generalizing f with
  | zero => exact interpVal_zero_dim f t
  | succ n ih =>
    rw [interpVal_succ, ih f (fun d hd => ht d (by omega)), ht n (by omega)]
    ring

theorem weight_congr (t u : Nat → α) (k n : Nat) (h : ∀ d, d < n → t d = u d) : weight t k n = weight u k n := by
  induction n with
  | zero => rfl
  | succ n ih => simp only [weight, ih (fun d hd => h d (by omega)), h n (by omega)]

theorem interpVal_congr (n : Nat) (f g t u : Nat → α) (h : ∀ d, d < n → t d = u d) (hf : ∀ k, k < 2 ^ n → f k = g k) :
    interpVal n f t = interpVal n g u := by
  unfold interpVal
  apply Finset.sum_congr rfl
  intro k hk
  rw [weight_congr t u k n h, hf k (Finset.mem_range.1 hk)]

/-- Linear in each coordinate. -/
theorem interpVal_linear (n : Nat) (f t0 t1 t : Nat → α) (d0 : Nat) (s : α)
    (h0 : ∀ d, d < n → d ≠ d0 → t0 d = t d) (h1 : ∀ d, d < n → d ≠ d0 → t1 d = t d)
    (hs : t d0 = (1 - s) * t0 d0 + s * t1 d0) :
    interpVal n f t = (1 - s) * interpVal n f t0 + s * interpVal n f t1 := by
  induction n generalizing f with
  | zero => simp only [interpVal_zero_dim]; ring
  | succ n ih =>
    have g0 : ∀ d, d < n → d ≠ d0 → t0 d = t d := fun d hd => h0 d (by omega)
    have g1 : ∀ d, d < n → d ≠ d0 → t1 d = t d := fun d hd => h1 d (by omega)
    by_cases hd : n = d0
    · subst hd
      have e0 : ∀ f, interpVal n f t0 = interpVal n f t := fun f =>
        interpVal_congr n f f t0 t (fun d hd => g0 d hd (by omega)) (fun _ _ => rfl)
      have e1 : ∀ f, interpVal n f t1 = interpVal n f t := fun f =>
        interpVal_congr n f f t1 t (fun d hd => g1 d hd (by omega)) (fun _ _ => rfl)
      simp only [interpVal_succ, e0, e1, hs]
      ring
    · simp only [interpVal_succ, ih _ g0 g1, h0 n (by omega) hd, h1 n (by omega) hd]
      ring

/-! ### The code computes it -/

theorem factors_ok (coords : List α) (k : Nat) (v : α) (n : Nat) (hn : n ≤ coords.length) (h20 : n ≤ 20) :
    Res.forFold (factor coords k) v (List.range n) = .ok (v * weight (fun d => coords.getD d 0) k n) := by
  obtain ⟨r, hr, h2⟩ := Res.forFold_range (n := n) (s := v) (f := factor coords k)
    (fun i x => x = v * weight (fun d => coords.getD d 0) k i) (by simp [weight]) (by
      rintro i x hi rfl
      have hi' : i < coords.length := by omega
      refine ⟨_, ?_, rfl⟩
      unfold factor
      rw [if_neg (by omega), at_of_lt hi']
      simp only [Res.ok_bind, Res.pure_eq, weight, List.getD_eq_getElem?_getD, List.getElem?_eq_getElem hi',
        Option.getD_some]
      rw [mul_assoc])
  rw [hr, h2]

theorem interpSum_ok (gridVals coords : List α) (n : Nat) (hn : n ≤ coords.length) (h20 : n ≤ 20)
    (hg : gridVals.length = 2 ^ n) :
    interpSum gridVals coords n = .ok (interpVal n (fun k => gridVals.getD k 0) (fun d => coords.getD d 0)) := by
  unfold interpSum
  obtain ⟨r, hr, h2⟩ := Res.forFold_range (n := 2 ^ n) (s := (0:α)) (f := fun acc k => (do
    let v ← at_ gridVals k
    let t ← Res.forFold (factor coords k) v (List.range n)
    pure (acc + t) : Res α))
    (fun i x => x = ∑ k ∈ Finset.range i, gridVals.getD k 0 * weight (fun d => coords.getD d 0) k n) (by simp) (by
      rintro i x hi rfl
      have hi' : i < gridVals.length := by omega
      refine ⟨_, ?_, rfl⟩
      rw [at_of_lt hi']
      simp only [Res.ok_bind]
      rw [factors_ok coords i _ n hn h20]
      simp only [Res.ok_bind, Res.pure_eq, Finset.sum_range_succ]
      rw [List.getD_eq_getElem?_getD, List.getElem?_eq_getElem hi']; rfl)
  rw [hr, h2]; rfl

theorem mapM_some {β : Type} (l : List β) : (l.map some).mapM (m := Option) id = some l := by
  induction l with
  | nil => rfl
  | cons a l ih => simp [ih]

/-- The axes' names are in the dictionary with the values `vs`. -/
def PointIs (as : List (BinAxis α)) (p : ParamDict α) (vs : List α) : Prop :=
  List.Forall₂ (fun (a : BinAxis α) v => SMap.find p a.name = some v) as vs

/-- `l` is the cell of `v` along the axis: the last bin whose centre is at or below `v`, not the last of the axis. -/
def BinAxis.Cell (a : BinAxis α) (v : α) (l : Nat) : Prop :=
  ∃ x y, a.getBinCentre l = .ok x ∧ a.getBinCentre (l + 1) = .ok y ∧ x ≤ v ∧ v < y

theorem centre_succ {a : BinAxis α} (hc : a.Contiguous) {i : Nat} (hi : i + 1 < a.nBins) {x y : α}
    (hx : a.getBinCentre i = .ok x) (hy : a.getBinCentre (i + 1) = .ok y) : x ≤ y := by
  obtain ⟨lo, hh, b1, l1, c1, _⟩ := hc.bins i (by omega)
  obtain ⟨lo', hh', b2, l2, c2, _⟩ := hc.bins (i + 1) hi
  have := hc.contig i hi
  rw [b1.2, b2.1] at this
  cases this
  rw [hx] at c1; rw [hy] at c2
  rw [Res.ok.inj c1, Res.ok.inj c2]
  linarith

theorem centre_mono {a : BinAxis α} (hc : a.Contiguous) {i j : Nat} (hij : i ≤ j) (hj : j < a.nBins) {x y : α}
    (hx : a.getBinCentre i = .ok x) (hy : a.getBinCentre j = .ok y) : x ≤ y := by
  induction j generalizing y with
  | zero =>
    have : i = 0 := by omega
    subst this; rw [hx] at hy; cases hy; exact le_rfl
  | succ j ih =>
    by_cases h : i = j + 1
    · subst h; rw [hx] at hy; cases hy; exact le_rfl
    · obtain ⟨_, _, _, _, c1, _⟩ := hc.bins j (by omega)
      exact le_trans (ih (by omega) (by omega) c1) (centre_succ hc hj c1 hy)

theorem centre_strict {a : BinAxis α} (hc : a.Contiguous) (hw : a.PosWidths) {i j : Nat} (hij : i < j) (hj : j < a.nBins)
    {x y : α} (hx : a.getBinCentre i = .ok x) (hy : a.getBinCentre j = .ok y) : x < y := by
  obtain ⟨lo, hh, b1, _, c1, _⟩ := hc.bins i (by omega)
  obtain ⟨lo', hh', b2, _, c2, _⟩ := hc.bins (i + 1) (by omega)
  have h1 := hw i lo hh b1
  have h2 := hw (i + 1) lo' hh' b2
  have h3 := hc.contig i (by omega)
  rw [b1.2, b2.1] at h3
  cases h3
  have h4 := centre_mono hc (show i + 1 ≤ j by omega) hj c2 hy
  rw [hx] at c1
  rw [Res.ok.inj c1]
  linarith

theorem getBinCentre_lt {a : BinAxis α} (hc : a.Contiguous) {i : Nat} {x : α} (h : a.getBinCentre i = .ok x) :
    i < a.nBins := by
  by_contra hn
  have := (hc.noMore i (by omega)).2.2.1
  rw [h] at this; cases this

theorem cell_unique {a : BinAxis α} (hc : a.Contiguous) {v : α} {l l' : Nat} (h : a.Cell v l) (h' : a.Cell v l') :
    l = l' := by
  obtain ⟨x, y, h1, h2, h3, h4⟩ := h
  obtain ⟨x', y', h1', h2', h3', h4'⟩ := h'
  by_contra hne
  rcases Nat.lt_or_gt_of_ne hne with hlt | hlt
  · have := centre_mono hc (show l + 1 ≤ l' by omega) (getBinCentre_lt hc h1') h2 h1'
    linarith
  · have := centre_mono hc (show l' + 1 ≤ l by omega) (getBinCentre_lt hc h1) h2' h1
    linarith

theorem cell_between {a : BinAxis α} (hc : a.Contiguous) {v : α} {l : Nat} (h : a.Cell v l) : a.BetweenCentres v := by
  obtain ⟨x, y, h1, h2, h3, h4⟩ := h
  have hl := getBinCentre_lt hc h2
  obtain ⟨_, _, _, _, c0, _⟩ := hc.bins 0 hc.pos
  obtain ⟨_, _, _, _, cn, _⟩ := hc.bins (a.nBins - 1) (by omega)
  exact ⟨_, _, c0, cn, le_trans (centre_mono hc (Nat.zero_le _) (by omega) c0 h1) h3,
    lt_of_lt_of_le h4 (centre_mono hc (by omega) (by omega) h2 cn)⟩

/-- Content of corner `k` of the cell `L`. -/
def cornerVal (h : Histogram α) (as : List (BinAxis α)) (L : Nat → Nat) (k : Nat) : α :=
  h.content (rowMajor (shape as) ((List.range as.length).map (fun d => L d + if k.testBit d then 1 else 0)))

/-- Position of `v` between the two centres around it. -/
def coordOf (a : BinAxis α) (l : Nat) (v : α) : α :=
  (v - a.centres.getD l 0) / (a.centres.getD (l + 1) 0 - a.centres.getD l 0)

theorem interp_value (as : List (BinAxis α)) (h : Histogram α) (hv : h.Valid as)
    (hc : ∀ a ∈ as, a.Contiguous) (hdim : as.length ≤ 20) (hsize : h.nBins < 2 ^ 64) (p : ParamDict α) (vs : List α)
    (hp : PointIs as p vs) (L : Nat → Nat)
    (hL : ∀ (d : Nat) (a : BinAxis α) (v : α), as[d]? = some a → vs[d]? = some v → a.Cell v (L d)) (t : Nat → α)
    (ht : ∀ (d : Nat) (a : BinAxis α) (v : α), as[d]? = some a → vs[d]? = some v → t d = coordOf a (L d) v) :
    ShapeInterp.evaluate h p = .ok (some (interpVal as.length (cornerVal h as L) t)) := by
  have hpl : as.length = vs.length := hp.length_eq
  have hget : ∀ (d : Nat) (a : BinAxis α), as[d]? = some a → ∃ v, vs[d]? = some v := by
    intro d a ha
    have := (List.getElem?_eq_some_iff.1 ha).1
    exact ⟨_, List.getElem?_eq_getElem (by omega)⟩
  -- extraction
  have hext : ShapeInterp.extractParams h p = .ok vs := by
    unfold ShapeInterp.extractParams
    rw [hv.axes.names, Res.traverse_map]
    clear hL ht hget hpl hsize hdim hc hv
    unfold PointIs at hp
    induction hp with
    | nil => rfl
    | @cons a v as vs h1 h2 ih => simp only [Res.traverse, h1, ih]
  have hbet : List.Forall₂ BinAxis.BetweenCentres as vs := by
    rw [List.forall₂_iff_get]
    refine ⟨hpl, ?_⟩
    intro d h1 h2
    exact cell_between (hc _ (List.get_mem _ _)) (hL d _ _ (List.getElem?_eq_getElem h1) (List.getElem?_eq_getElem h2))
  obtain ⟨vals, locs, lo, e1, e2, e3, e4, e5⟩ := C12_lattice_interior_partial as h hv hc hdim hsize vs hbet
  have hlo : ∀ d, d < as.length → lo[d]? = some (L d) := by
    intro d hd
    have ha : as[d]? = some as[d] := List.getElem?_eq_getElem hd
    have hvd : vs[d]? = some (vs[d]'(by omega)) := List.getElem?_eq_getElem (by omega)
    obtain ⟨l, x, y, g1, g2, g3, g4, g5⟩ := e4 d _ _ ha hvd
    rw [g1, cell_unique (hc _ (List.getElem_mem hd)) ⟨x, y, g2, g3, g4, g5⟩ (hL d _ _ ha hvd)]
  let ix : Nat → List Nat := fun k => (List.range as.length).map (fun d => L d + if k.testBit d then 1 else 0)
  have hcorner : ∀ k, k < 2 ^ as.length → ∃ loc, vals[k]? = some (cornerVal h as L k) ∧
      locs[k]? = some loc ∧ ∀ (d : Nat) (a : BinAxis α), as[d]? = some a →
        loc[d]? = some (a.centres.getD (L d + if k.testBit d then 1 else 0) 0) := by
    intro k hk
    obtain ⟨is, b, x, loc, f1, f2, f3, f4, f5, f6, f7, f8⟩ := e5 k hk
    have his : is = ix k := by
      apply List.ext_getElem?
      intro d
      by_cases hd : d < as.length
      · rw [f2 d _ (hlo d hd)]
        simp only [ix, List.getElem?_map, List.getElem?_range hd, Option.map_some]
        split <;> rfl
      · rw [List.getElem?_eq_none (by omega), List.getElem?_eq_none (by simp [ix]; omega)]
    subst his
    have hfl := hv.axes.flatten hv.ne (is := ix k) (by simp [ix])
    rw [hfl] at f3
    have hb := Res.ok.inj f3
    have hcg : ∀ a ∈ as, ∀ i, i < a.nBins → a.getBinCentre i = .ok (a.centres.getD i 0) := by
      intro a ha i hi
      obtain ⟨_, _, _, _, h4, _⟩ := (hc a ha).bins i hi
      rw [h4, getD_of_ok h4]
    have hr : InRange (ix k) (shape as) := by
      apply forall2_of_get (by simp [ix, shape])
      intro d i n hi hn
      simp only [shape, List.getElem?_map, Option.map_eq_some_iff] at hn
      obtain ⟨a, ha, rfl⟩ := hn
      have hd := (List.getElem?_eq_some_iff.1 ha).1
      obtain ⟨v, hvd⟩ := hget d a ha
      obtain ⟨_, _, _, c2, _, _⟩ := hL d a v ha hvd
      have := getBinCentre_lt (hc a (List.mem_of_getElem? ha)) c2
      simp only [ix, List.getElem?_map, List.getElem?_range hd, Option.map_some, Option.some.injEq] at hi
      subst hi
      split <;> omega
    refine ⟨loc, ?_, f8, ?_⟩
    · rw [f6]
      congr 1
      unfold cornerVal
      have := content_of_ok f5
      rw [← hb] at this
      exact this.symm
    · intro d a ha
      have hbv := hv.axes.binVec hv.ne (b := b) (by rw [← hv.nb]; exact f4) BinAxis.getBinCentre
        (fun a i => a.centres.getD i 0) hcg (fun a ha => (hc a ha).pos)
      unfold AxisCollection.getBinCentres at f7
      rw [hbv] at f7
      have hloc := Res.ok.inj f7
      rw [← hloc, ← hb, digits_rowMajor hr]
      have hd := (List.getElem?_eq_some_iff.1 ha).1
      simp only [List.getElem?_zipWith, ha, ix, List.getElem?_map, List.getElem?_range hd, Option.map_some]
  unfold ShapeInterp.evaluate
  rw [hext]; simp only [Res.ok_bind]; rw [e1]; simp only [Res.ok_bind]
  unfold ndLinearInterp
  have hcoords : latticeCoords locs vs = .ok (((List.range vs.length).map t).map some) := by
    unfold latticeCoords
    rw [List.map_map]
    apply Res.traverse_ok
    intro d hd
    rw [List.mem_range] at hd
    have hda : d < as.length := by omega
    have ha : as[d]? = some as[d] := List.getElem?_eq_getElem hda
    have hvd : vs[d]? = some vs[d] := List.getElem?_eq_getElem hd
    obtain ⟨loc0, _, g2, g3⟩ := hcorner 0 (by positivity)
    obtain ⟨loc1, _, k2, k3⟩ := hcorner (2 ^ d) (Nat.pow_lt_pow_right (by omega) hda)
    have x0 := g3 d _ ha
    have x1 := k3 d _ ha
    rw [Nat.testBit_two_pow_self] at x1
    simp only [Nat.zero_testBit, Bool.false_eq_true, if_false, if_true, Nat.add_zero] at x0 x1
    rw [at_of_lt hd, (at_ok).2 g2, (at_ok).2 k2]
    simp only [Res.ok_bind]
    rw [(at_ok).2 x0, (at_ok).2 x1]
    simp only [Res.ok_bind, Res.pure_eq, Function.comp]
    obtain ⟨x, y, c1, c2, c3, c4⟩ := hL d _ _ ha hvd
    rw [ht d _ _ ha hvd]
    unfold coordOf Fl.div
    rw [getD_of_ok c1, getD_of_ok c2, if_neg (by intro hx; linarith)]
  rw [hcoords]
  simp only [Res.ok_bind, mapM_some]
  rw [interpSum_ok vals _ vs.length (by simp) (by omega) (by rw [e2, hpl])]
  simp only [Res.ok_bind, Res.pure_eq]
  congr 2
  rw [← hpl]
  apply interpVal_congr
  · intro d hd
    simp [List.getD_eq_getElem?_getD, List.getElem?_map, hd, ← hpl]
  · intro k hk
    obtain ⟨_, g1, _⟩ := hcorner k hk
    simp [List.getD_eq_getElem?_getD, g1]

/-! ### C39 -/

/-- Bin `b` is one of the bins around the point: on each axis its index is the cell of the value or the next one. -/
def Around (h : Histogram α) (as : List (BinAxis α)) (vs : List α) (b : Nat) : Prop :=
  ∃ is, h.axes.flattenIndices is = .ok b ∧ is.length = as.length ∧
    ∀ (d i : Nat) (a : BinAxis α) (v : α), as[d]? = some a → vs[d]? = some v → is[d]? = some i →
      a.Cell v i ∨ ∃ l, a.Cell v l ∧ i = l + 1

theorem cells_of_between {as : List (BinAxis α)} {vs : List α} (hc : ∀ a ∈ as, a.Contiguous)
    (hp : List.Forall₂ BinAxis.BetweenCentres as vs) : ∃ L : Nat → Nat,
      ∀ (d : Nat) (a : BinAxis α) (v : α), as[d]? = some a → vs[d]? = some v → a.Cell v (L d) := by
  refine ⟨fun d => match as[d]?, vs[d]? with
    | some a, some v => loIdx a v
    | _, _ => 0, ?_⟩
  intro d a v ha hv
  simp only [ha, hv]
  obtain ⟨h1, h1'⟩ := List.getElem?_eq_some_iff.1 ha
  obtain ⟨h2, h2'⟩ := List.getElem?_eq_some_iff.1 hv
  have hb := (List.forall₂_iff_get.1 hp).2 d h1 h2
  simp only [List.get_eq_getElem, h1', h2'] at hb
  obtain ⟨_, _, x, y, h3, h4, h5, h6⟩ := loIdx_spec a (hc a (List.mem_of_getElem? ha)) v hb
  exact ⟨x, y, h3, h4, h5, h6⟩

theorem coordOf_unit {a : BinAxis α} {v : α} {l : Nat} (h : a.Cell v l) : 0 ≤ coordOf a l v ∧ coordOf a l v < 1 := by
  obtain ⟨x, y, c1, c2, c3, c4⟩ := h
  unfold coordOf
  rw [getD_of_ok c1, getD_of_ok c2]
  constructor
  · apply div_nonneg <;> linarith
  · rw [div_lt_one (by linarith)]; linarith

/-- C39, the part that holds: for any histogram of penalties with at most 20 axes, and any point which on each axis lies
between the first and the last bin centre, the penalty is finite and between the smallest and the largest content of the
bins around the point; if the point is the centre of a bin (and no bin has zero width), it is that bin's content. Missing: points in the outermost half
bins and the last centres, which the histogram's lookup gets wrong (`C12_lattice_edge_ub`, `C39_edge_wrong`). -/
theorem C39_interp_partial (as : List (BinAxis α)) (h : Histogram α) (hv : h.Valid as)
    (hc : ∀ a ∈ as, a.Contiguous) (hdim : as.length ≤ 20) (hsize : h.nBins < 2 ^ 64) (p : ParamDict α) (vs : List α)
    (hp : PointIs as p vs) (hb : List.Forall₂ BinAxis.BetweenCentres as vs) :
    ∃ r, ShapeInterp.evaluate h p = .ok (some r) ∧
      (∀ m M, (∀ b x, Around h as vs b → h.getBinContent b = .ok x → m ≤ x ∧ x ≤ M) → m ≤ r ∧ r ≤ M) ∧
      ((∀ a ∈ as, a.PosWidths) → ∀ b, b < h.nBins → h.axes.getBinCentres b as.length = .ok vs →
        h.getBinContent b = .ok r) := by
  obtain ⟨L, hL⟩ := cells_of_between hc hb
  have hpl : as.length = vs.length := hp.length_eq
  let t : Nat → α := fun d => match as[d]?, vs[d]? with
    | some a, some v => coordOf a (L d) v
    | _, _ => 0
  have ht : ∀ (d : Nat) (a : BinAxis α) (v : α), as[d]? = some a → vs[d]? = some v → t d = coordOf a (L d) v := by
    intro d a v ha hvd; simp only [t, ha, hvd]
  have hAt : ∀ d, d < as.length → ∃ a v, as[d]? = some a ∧ vs[d]? = some v ∧ a ∈ as ∧ a.Cell v (L d) := by
    intro d hd
    have ha : as[d]? = some as[d] := List.getElem?_eq_getElem hd
    have hvd : vs[d]? = some (vs[d]'(by omega)) := List.getElem?_eq_getElem (by omega)
    exact ⟨_, _, ha, hvd, List.getElem_mem hd, hL d _ _ ha hvd⟩
  let ix : Nat → List Nat := fun k => (List.range as.length).map (fun d => L d + if k.testBit d then 1 else 0)
  have hir : ∀ k, InRange (ix k) (shape as) := by
    intro k
    apply forall2_of_get (by simp [ix, shape])
    intro d i n hi hn
    simp only [shape, List.getElem?_map, Option.map_eq_some_iff] at hn
    obtain ⟨a, ha, rfl⟩ := hn
    have hd := (List.getElem?_eq_some_iff.1 ha).1
    obtain ⟨a', v, ha', _, hm, _, _, _, c2, _⟩ := hAt d hd
    rw [ha] at ha'; cases ha'
    have := getBinCentre_lt (hc a hm) c2
    simp only [ix, List.getElem?_map, List.getElem?_range hd, Option.map_some, Option.some.injEq] at hi
    subst hi
    split <;> omega
  refine ⟨_, interp_value as h hv hc hdim hsize p vs hp L hL t ht, ?_, ?_⟩
  · intro m M hmM
    apply interpVal_bounds
    · intro d hd
      obtain ⟨a, v, ha, hvd, _, hcell⟩ := hAt d hd
      rw [ht d a v ha hvd]
      have := coordOf_unit hcell
      exact ⟨this.1, this.2.le⟩
    · intro k hk
      have hbk : rowMajor (shape as) (ix k) < h.nBins := by rw [hv.nb]; exact rowMajor_lt (hir k)
      refine hmM (rowMajor (shape as) (ix k)) _ ⟨ix k, hv.axes.flatten hv.ne (by simp [ix]), by simp [ix], ?_⟩ (by
        rw [hv.get hbk, ← content_valid hv hbk]; rfl)
      intro d i a v ha hvd hi
      have hd := (List.getElem?_eq_some_iff.1 ha).1
      simp only [ix, List.getElem?_map, List.getElem?_range hd, Option.map_some, Option.some.injEq] at hi
      subst hi
      by_cases hbit : k.testBit d = true
      · right; exact ⟨L d, hL d a v ha hvd, by simp [hbit]⟩
      · left; simp only [hbit, if_false, Bool.false_eq_true, Nat.add_zero]; exact hL d a v ha hvd
  · intro hpw b hbl hcen
    have hcg : ∀ a ∈ as, ∀ i, i < a.nBins → a.getBinCentre i = .ok (a.centres.getD i 0) := by
      intro a ha i hi
      obtain ⟨_, _, _, _, h4, _⟩ := (hc a ha).bins i hi
      rw [h4, getD_of_ok h4]
    have hbN : b < (shape as).prod := by rw [← hv.nb]; exact hbl
    have hbv := hv.axes.binVec hv.ne hbN BinAxis.getBinCentre
        (fun a i => a.centres.getD i 0) hcg (fun a ha => (hc a ha).pos)
    unfold AxisCollection.getBinCentres at hcen
    rw [hbv] at hcen
    have hvs := (Res.ok.inj hcen).symm
    have hdr := digits_inRange (shape_pos hc) b
    -- each value is a centre; the cell's centre equals it
    have hzero : ∀ d, d < as.length → t d = 0 ∧ (digits (shape as) b)[d]? = some (L d) := by
      intro d hd
      obtain ⟨a, v, ha, hvd, hm, hcell⟩ := hAt d hd
      have hdd : d < (digits (shape as) b).length := by rw [digits_length, shape_length]; exact hd
      have hdig : (digits (shape as) b)[d]? = some (digits (shape as) b)[d] := List.getElem?_eq_getElem hdd
      set j := (digits (shape as) b)[d] with hj
      have hjn : j < a.nBins := by
        have h0 := (List.forall₂_iff_get.1 hdr).2 d hdd (by rw [shape_length]; exact hd)
        have h1 : (shape as).get ⟨d, by rw [shape_length]; exact hd⟩ = a.nBins := by
          have h2 : (shape as)[d]? = some a.nBins := by simp [shape, ha]
          exact (List.getElem?_eq_some_iff.1 h2).2
        rw [h1] at h0
        exact h0
      have hvj : v = a.centres.getD j 0 := by
        rw [hvs] at hvd
        simp only [List.getElem?_zipWith, ha, hdig] at hvd
        exact (Option.some.inj hvd).symm
      obtain ⟨x, y, c1, c2, c3, c4⟩ := hcell
      have cj := hcg a hm j hjn
      rw [← hvj] at cj
      have hLj : L d = j := by
        have hln := getBinCentre_lt (hc a hm) c2
        by_contra hne
        rcases Nat.lt_or_gt_of_ne hne with hlt | hlt
        · have := centre_mono (hc a hm) (show L d + 1 ≤ j by omega) hjn c2 cj
          linarith
        · have := centre_strict (hc a hm) (hpw a hm) hlt (by omega) cj c1
          linarith
      refine ⟨?_, by rw [hLj]; exact hdig⟩
      rw [ht d a v ha hvd]
      unfold coordOf
      rw [hLj, ← hvj, sub_self, zero_div]
    rw [interpVal_corner _ _ _ (fun d hd => (hzero d hd).1)]
    have hix : ix 0 = digits (shape as) b := by
      apply List.ext_getElem?
      intro d
      by_cases hd : d < as.length
      · rw [(hzero d hd).2]
        simp [ix, hd]
      · rw [List.getElem?_eq_none (by simp [ix]; omega), List.getElem?_eq_none (by rw [digits_length, shape_length]; omega)]
    unfold cornerVal
    have : ((List.range as.length).map (fun d => L d + if (0:Nat).testBit d then 1 else 0)) = digits (shape as) b := hix
    rw [this, rowMajor_digits hbN, hv.get hbl, content_valid hv hbl]

/-- C39: within a cell the penalty is linear in each parameter: for three points which agree on all axes but one, on which
the values lie in one cell, a value between the other two gets the penalty in between. -/
theorem C39_linear_partial (as : List (BinAxis α)) (h : Histogram α) (hv : h.Valid as)
    (hc : ∀ a ∈ as, a.Contiguous) (hdim : as.length ≤ 20) (hsize : h.nBins < 2 ^ 64) (p0 p1 p : ParamDict α)
    (vs : List α) (d0 : Nat) (x0 x1 s : α) (hs : 0 ≤ s ∧ s ≤ 1)
    (h0 : PointIs as p0 (vs.set d0 x0)) (h1 : PointIs as p1 (vs.set d0 x1))
    (hp : PointIs as p (vs.set d0 ((1 - s) * x0 + s * x1)))
    (hb : List.Forall₂ BinAxis.BetweenCentres as (vs.set d0 x0)) (a0 : BinAxis α) (ha0 : as[d0]? = some a0) (l : Nat)
    (hl0 : a0.Cell x0 l) (hl1 : a0.Cell x1 l) :
    ∃ r0 r1, ShapeInterp.evaluate h p0 = .ok (some r0) ∧ ShapeInterp.evaluate h p1 = .ok (some r1) ∧
      ShapeInterp.evaluate h p = .ok (some ((1 - s) * r0 + s * r1)) := by
  obtain ⟨L, hL⟩ := cells_of_between hc hb
  have hpl : as.length = vs.length := by have := h0.length_eq; simpa using this
  have hd0 : d0 < as.length := (List.getElem?_eq_some_iff.1 ha0).1
  have hset : ∀ x : α, (vs.set d0 x)[d0]? = some x := by intro x; rw [List.getElem?_set_self (by omega)]
  have hLd : L d0 = l := cell_unique (hc a0 (List.mem_of_getElem? ha0)) (hL d0 a0 x0 ha0 (hset x0)) hl0
  have hcx : a0.Cell ((1 - s) * x0 + s * x1) l := by
    obtain ⟨x, y, c1, c2, c3, c4⟩ := hl0
    obtain ⟨x', y', c1', c2', c3', c4'⟩ := hl1
    rw [c1] at c1'; rw [c2] at c2'
    cases c1'; cases c2'
    refine ⟨x, y, c1, c2, ?_, ?_⟩
    · nlinarith
    · rcases eq_or_lt_of_le hs.1 with hs0 | hs0
      · rw [← hs0]; linarith
      · nlinarith
  have hcells : ∀ x, a0.Cell x l → ∀ (d : Nat) (a : BinAxis α) (v : α), as[d]? = some a → (vs.set d0 x)[d]? = some v →
      a.Cell v (L d) := by
    intro x hx d a v ha hvd
    by_cases hd : d = d0
    · subst hd
      rw [hset] at hvd; cases hvd
      rw [ha0] at ha; cases ha
      rw [hLd]; exact hx
    · rw [List.getElem?_set_ne (Ne.symm hd)] at hvd
      exact hL d a v ha (by rw [List.getElem?_set_ne (Ne.symm hd)]; exact hvd)
  let t : α → Nat → α := fun x d => match as[d]?, (vs.set d0 x)[d]? with
    | some a, some v => coordOf a (L d) v
    | _, _ => 0
  have ht : ∀ x, ∀ (d : Nat) (a : BinAxis α) (v : α), as[d]? = some a → (vs.set d0 x)[d]? = some v →
      t x d = coordOf a (L d) v := by
    intro x d a v ha hvd; simp only [t, ha, hvd]
  refine ⟨_, _, interp_value as h hv hc hdim hsize p0 _ h0 L (hcells x0 hl0) (t x0) (ht x0),
    interp_value as h hv hc hdim hsize p1 _ h1 L (hcells x1 hl1) (t x1) (ht x1), ?_⟩
  rw [interp_value as h hv hc hdim hsize p _ hp L (hcells _ hcx) (t _) (ht _)]
  congr 2
  have hoff : ∀ x x' d, d ≠ d0 → t x d = t x' d := by
    intro x x' d hd
    simp only [t]
    rw [List.getElem?_set_ne (Ne.symm hd), List.getElem?_set_ne (Ne.symm hd)]
  apply interpVal_linear as.length _ (t x0) (t x1) _ d0 s (fun d _ hd => hoff _ _ d hd) (fun d _ hd => hoff _ _ d hd)
  rw [ht _ d0 a0 _ ha0 (hset _), ht _ d0 a0 _ ha0 (hset _), ht _ d0 a0 _ ha0 (hset _)]
  unfold coordOf
  rw [hLd]
  ring

/-- Non-vacuity: a point of the 2×3×2 histogram whose bin `b` has content `b`, halfway between centres in x and y. -/
example : ShapeInterp.evaluate exHist [("x", 1), ("y", 2), ("z", 1)] = .ok (some (13/2)) ∧
    PointIs exAxes [("x", 1), ("y", 2), ("z", 1)] [(1:ℚ), 2, 1] := by
  refine ⟨by decide +kernel, ?_⟩
  exact List.Forall₂.cons (by decide) (List.Forall₂.cons (by decide) (List.Forall₂.cons (by decide) List.Forall₂.nil))

/-- C39: a parameter missing from the dictionary is `NotFoundError`. -/
theorem C39_missing (h : Histogram α) (p : ParamDict α) (n : String) (hn : n ∈ h.axes.axisNames)
    (hp : SMap.find p n = none) : ShapeInterp.evaluate h p = .throw .notFound := by
  unfold ShapeInterp.evaluate
  have : ShapeInterp.extractParams h p = .throw .notFound := by
    unfold ShapeInterp.extractParams
    generalize h.axes.axisNames = l at *
    induction l with
    | nil => cases hn
    | cons a l ih =>
      cases hf : SMap.find p a with
      | none => simp only [Res.traverse, hf]
      | some v =>
        rcases List.mem_cons.1 hn with rfl | hn
        · rw [hf] at hp; cases hp
        · simp only [Res.traverse, hf, ih hn]
  rw [this]; rfl

/-- C39 is false in the outermost half bins, inside the histogram's range: beyond the last centre the lookup reads past the
end, before the first it throws (one dimension), or silently takes a bin of another row (several). -/
theorem C39_edge_wrong : ShapeInterp.evaluate exHist1 [("y", 14/5)] = .ub ∧
    ShapeInterp.evaluate exHist1 [("y", 1/5)] = .throw .notFound ∧
    ShapeInterp.evaluate exHist1 [("y", 5/2)] = .ub := by decide +kernel

end Oxsx
