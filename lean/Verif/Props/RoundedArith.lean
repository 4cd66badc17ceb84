import Verif.Props.RoundedError
import Verif.Props.ShapeInterp
/-
C103, continued: scaling and adding histograms, the constraints, and the likelihood with its constraints.
-/
set_option linter.unusedVariables false
set_option linter.unusedSectionVars false
set_option linter.unusedSimpArgs false
namespace Oxsx
open AxisCollection Histogram
variable {σ α : Type} [Field α] [LinearOrder α] [IsStrictOrderedRing α]

/-- C103, `Scale`: every bin is the exact one up to one relative error, for contents and factors of any sign; the axes stay. -/
theorem C103_scale (R : Arith α) (h : Histogram α) (s : α) :
    (h.scaleR R.toRounding s).axes = h.axes ∧ (h.scaleR R.toRounding s).nBins = h.nBins ∧
    (h.scaleR R.toRounding s).contents.length = h.contents.length ∧
    ∀ (b : Nat) (x : α), h.contents[b]? = some x → ∃ x', (h.scaleR R.toRounding s).contents[b]? = some x' ∧ |x' - x * s| ≤ R.u * |x * s| := by
  refine ⟨rfl, rfl, by simp [Histogram.scaleR], ?_⟩
  intro b x hx
  exact ⟨R.rnd (x * s), by simp [Histogram.scaleR, hx], R.rel _⟩

example : ∃ (b : Nat) (x : ℝ), (exRealPdf "d" 4 5).hist.contents[b]? = some x ∧ x ≠ 0 := ⟨0, 4, rfl, by norm_num⟩

/-- C103, `Add`: for histograms of any contents and any weight on the same binning the call succeeds, and every bin is the exact sum up
to two relative errors of the sizes of the two terms. -/
theorem C103_add (R : Arith α) (fma : Bool) {h other : Histogram α} {as bs : List (BinAxis α)} (hv : h.Valid as) (ho : other.Valid bs)
    (hs : SameBinning as bs) (hshape : shape as = shape bs) (w : α) :
    ∃ g, h.addR R.toRounding fma other w = .ok g ∧ g.axes = h.axes ∧ g.nBins = h.nBins ∧ g.contents.length = h.contents.length ∧
      ∀ (b : Nat) (x y : α), h.contents[b]? = some x → other.contents[b]? = some y →
        ∃ z, g.contents[b]? = some z ∧ |z - (x + y * w)| ≤ (1 / (1 - R.u) ^ 2 - 1) * (|x| + |y * w|) := by
  refine ⟨_, Histogram.combine_ok hv ho hs hshape _, rfl, rfl, ?_, ?_⟩
  · have l1 := hv.len
    have l2 := ho.len
    rw [← hshape] at l2
    simp only [List.length_zipWith]
    omega
  · intro b x y hx hy
    refine ⟨BinAxis.mulAdd R.toRounding fma x y w, by simp [hx, hy, List.getElem?_zipWith], ?_⟩
    exact (Close.mulAdd R fma (le_refl _) (Close.refl R.u_nonneg R.u_lt 1 x) (Close.refl R.u_nonneg R.u_lt 0 (y * w))).2

/-! ### Interpolated constraints -/

/-- The place of the point between the two lattice points along an axis, in units of their distance. -/
def latticePlace (locs : List (List α)) (con : List α) (d : Nat) : α :=
  (con.getD d 0 - (locs.getD 0 []).getD d 0) / ((locs.getD (2 ^ d) []).getD d 0 - (locs.getD 0 []).getD d 0)

/-- The sizes of the terms of the interpolation. -/
def interpSize (vals : List α) (t : Nat → α) (n : Nat) : α :=
  ((List.range (2 ^ n)).map (fun k => |vals.getD k 0| *
    ((List.range n).map (fun d => if Nat.testBit k d then |t d| else 1 + |t d|)).prod)).sum

/-- The lattice points surround the point along every axis. -/
structure LatticeOk (vals : List α) (locs : List (List α)) (con : List α) : Prop where
  dims : con.length ≤ 20
  vals : vals.length = 2 ^ con.length
  first : ∃ l0, locs[0]? = some l0 ∧ con.length ≤ l0.length
  along : ∀ d, d < con.length → ∃ l1, locs[2 ^ d]? = some l1 ∧ con.length ≤ l1.length
  apart : ∀ d, d < con.length → (locs.getD 0 []).getD d 0 < (locs.getD (2 ^ d) []).getD d 0

theorem at_getD {l : List α} {i : Nat} (h : i < l.length) : at_ l i = .ok (l.getD i 0) := by
  rw [at_of_lt h]; simp [List.getD, h]

theorem close_factors (R : Arith α) {t : Nat → α} {cs cs' : List α} {n : Nat} (hl : cs.length = n) (hl' : cs'.length = n) (hn : n ≤ 20)
    (hc : ∀ d, d < n → ∃ x x', cs[d]? = some x ∧ cs'[d]? = some x' ∧ Close R.u 3 |t d| x x') (k : Nat) (v : α) :
    ∃ r r', Res.forFold (ShapeInterp.factor cs k) v (List.range n) = .ok r ∧
      Res.forFold (ShapeInterp.factorR R.toRounding cs' k) v (List.range n) = .ok r' ∧
      Close R.u (5 * n) (|v| * ((List.range n).map (fun d => if Nat.testBit k d then |t d| else 1 + |t d|)).prod) r r' := by
  have h0 := R.u_nonneg
  have h1 := R.u_lt
  have loop : ∀ m, m ≤ n → ∃ r r', Res.forFold (ShapeInterp.factor cs k) v (List.range m) = .ok r ∧
      Res.forFold (ShapeInterp.factorR R.toRounding cs' k) v (List.range m) = .ok r' ∧
      Close R.u (5 * m) (|v| * ((List.range m).map (fun d => if Nat.testBit k d then |t d| else 1 + |t d|)).prod) r r' := by
    intro m
    induction m with
    | zero =>
      intro _
      refine ⟨v, v, rfl, rfl, ?_⟩
      simpa using Close.refl h0 h1 0 v
    | succ m ih =>
      intro hm
      obtain ⟨r, r', e1, e2, e3⟩ := ih (by omega)
      obtain ⟨x, x', g1, g2, g3⟩ := hc m (by omega)
      have a1 : at_ cs m = .ok x := by rw [at_of_lt (by omega)]; rw [List.getElem?_eq_getElem (by omega)] at g1; rw [Option.some.inj g1]
      have a2 : at_ cs' m = .ok x' := by rw [at_of_lt (by omega)]; rw [List.getElem?_eq_getElem (by omega)] at g2; rw [Option.some.inj g2]
      have hf : Close R.u 4 (if Nat.testBit k m then |t m| else 1 + |t m|) (if Nat.testBit k m then x else 1 - x)
          (if Nat.testBit k m then x' else R.rnd (1 - x')) := by
        split
        · exact g3.mono h0 h1 (by omega)
        · have := ((Close.refl h0 h1 3 (1 : α)).sub h0 h1 g3).rounded R
          rwa [abs_one] at this
      refine ⟨r * (if Nat.testBit k m then x else 1 - x), R.rnd (r' * (if Nat.testBit k m then x' else R.rnd (1 - x'))), ?_, ?_, ?_⟩
      · rw [List.range_succ, Res.forFold_append, e1]
        simp only [Res.bind, Res.forFold, ShapeInterp.factor]
        rw [if_neg (by omega), a1]
        rfl
      · rw [List.range_succ, Res.forFold_append, e2]
        simp only [Res.bind, Res.forFold, ShapeInterp.factorR]
        rw [if_neg (by omega), a2]
        rfl
      · have := (e3.mul h0 h1 hf).rounded R
        rw [List.range_succ, List.map_append, List.prod_append, List.map_singleton, List.prod_singleton, ← mul_assoc]
        rw [show 5 * (m + 1) = 5 * m + 4 + 1 by ring]
        exact this
  exact loop n le_rfl

theorem close_lattice (R : Arith α) {vals : List α} {locs : List (List α)} {con : List α} (h : LatticeOk vals locs con) :
    CloseTo R.u (5 * con.length + 2 ^ con.length) (interpSize vals (latticePlace locs con) con.length)
      (ShapeInterp.ndLinearInterp vals locs con) (ShapeInterp.ndLinearInterpR R.toRounding vals locs con) := by
  have h0 := R.u_nonneg
  have h1 := R.u_lt
  set n := con.length with hn
  set t := latticePlace locs con with ht
  obtain ⟨l0, f1, f2⟩ := h.first
  have g0 : at_ locs 0 = .ok l0 := by
    have := (List.getElem?_eq_some_iff.1 f1)
    obtain ⟨hlt, e⟩ := this
    rw [at_of_lt hlt, e]
  -- the coordinates
  have hco : ∀ d, d < n → ∃ x', (do
      let v ← at_ con d
      let l0 ← at_ locs 0
      let x0 ← at_ l0 d
      let l1 ← at_ locs (2 ^ d)
      let x1 ← at_ l1 d
      pure (Fl.div (v - x0) (x1 - x0)) : Res (Fl α)) = .ok (some (t d)) ∧ (do
      let v ← at_ con d
      let l0 ← at_ locs 0
      let x0 ← at_ l0 d
      let l1 ← at_ locs (2 ^ d)
      let x1 ← at_ l1 d
      pure (Fl.divR R.toRounding (R.rnd (v - x0)) (R.rnd (x1 - x0))) : Res (Fl α)) = .ok (some x') ∧ Close R.u 3 |t d| (t d) x' := by
    intro d hd
    obtain ⟨l1, e1, e2⟩ := h.along d hd
    have g1 : at_ locs (2 ^ d) = .ok l1 := by
      obtain ⟨hlt, e⟩ := List.getElem?_eq_some_iff.1 e1
      rw [at_of_lt hlt, e]
    have hap := h.apart d hd
    have d0 : locs.getD 0 [] = l0 := by simp [List.getD, f1]
    have d1 : locs.getD (2 ^ d) [] = l1 := by simp [List.getD, e1]
    rw [d0, d1] at hap
    have hz : 0 < l1.getD d 0 - l0.getD d 0 := by linarith
    obtain ⟨x', c1, c2, c3⟩ := Fl.close_div R (Close.of_rel R (con.getD d 0 - l0.getD d 0)) (Near.rnd R hz.le) hz
    have htd : t d = (con.getD d 0 - l0.getD d 0) / (l1.getD d 0 - l0.getD d 0) := by
      rw [ht]; unfold latticePlace; rw [d0, d1]
    refine ⟨x', ?_, ?_, ?_⟩
    · rw [at_getD (show d < con.length by omega), g0, g1]
      simp only [Res.ok_bind]
      rw [at_getD (show d < l0.length by omega), at_getD (show d < l1.length by omega)]
      simp only [Res.ok_bind, Res.pure_eq]
      rw [c1, htd]
    · rw [at_getD (show d < con.length by omega), g0, g1]
      simp only [Res.ok_bind]
      rw [at_getD (show d < l0.length by omega), at_getD (show d < l1.length by omega)]
      simp only [Res.ok_bind, Res.pure_eq]
      rw [c2]
    · rw [htd]
      rw [show |con.getD d 0 - l0.getD d 0| / (l1.getD d 0 - l0.getD d 0) = |(con.getD d 0 - l0.getD d 0) / (l1.getD d 0 - l0.getD d 0)| by
        rw [abs_div, abs_of_pos hz]] at c3
      exact c3
  haveI : Inhabited α := ⟨0⟩
  choose! x' hx' using hco
  have c1 : ShapeInterp.latticeCoords locs con = .ok (((List.range n).map t).map some) := by
    unfold ShapeInterp.latticeCoords
    rw [List.map_map]
    exact Res.traverse_ok (fun d hd => (hx' d (List.mem_range.1 hd)).1)
  have c2 : ShapeInterp.latticeCoordsR R.toRounding locs con = .ok (((List.range n).map x').map some) := by
    unfold ShapeInterp.latticeCoordsR
    rw [List.map_map]
    exact Res.traverse_ok (fun d hd => (hx' d (List.mem_range.1 hd)).2.1)
  have hc : ∀ d, d < n → ∃ y y', ((List.range n).map t)[d]? = some y ∧ ((List.range n).map x')[d]? = some y' ∧ Close R.u 3 |t d| y y' :=
    fun d hd => ⟨t d, x' d, by simp [hd], by simp [hd], (hx' d hd).2.2⟩
  have hfac := fun k v => close_factors R (t := t) (n := n) (cs := (List.range n).map t) (cs' := (List.range n).map x') (by simp) (by simp) h.dims hc k v
  choose q q' hq using fun k => hfac k (vals.getD k 0)
  obtain ⟨r, s1, s2, s3⟩ := close_forFold (u := R.u) (N := 2 ^ n) (f := fun acc k => do
      let v ← at_ vals k
      let t ← Res.forFold (ShapeInterp.factor ((List.range n).map t) k) v (List.range n)
      pure (acc + t)) (f' := fun acc k => do
      let v ← at_ vals k
      let t ← Res.forFold (ShapeInterp.factorR R.toRounding ((List.range n).map x') k) v (List.range n)
      pure (R.rnd (acc + t))) (q := q) (t := fun k => |vals.getD k 0| *
        ((List.range n).map (fun d => if Nat.testBit k d then |t d| else 1 + |t d|)).prod) (k0 := 5 * n) (by
      intro k hk a
      rw [at_getD (show k < vals.length by rw [h.vals]; exact hk)]
      simp only [Res.ok_bind]
      rw [(hq k).1]
      rfl) (by
      have := Close.refl h0 h1 (5 * n) (0 : α)
      rwa [abs_zero] at this) (by
      intro k hk j hj s a a' ha
      refine ⟨R.rnd (a' + q' k), ?_, ?_⟩
      · rw [at_getD (show k < vals.length by rw [h.vals]; exact hk)]
        simp only [Res.ok_bind]
        rw [(hq k).2.1]
        rfl
      · exact (ha.add h0 h1 ((hq k).2.2.mono h0 h1 hj)).rounded R)
  refine ⟨_, r, ?_, ?_, s3⟩
  · unfold ShapeInterp.ndLinearInterp
    rw [c1]
    simp only [Res.ok_bind, mapM_some]
    unfold ShapeInterp.interpSum
    rw [s1]
    rfl
  · unfold ShapeInterp.ndLinearInterpR
    rw [c2]
    simp only [Res.ok_bind, mapM_some]
    unfold ShapeInterp.interpSumR
    rw [s2]
    rfl

/-- C103 (degenerate lattice): where the cell of the lattice around a point has no extent along some direction, the interpolated value is not finite, with or
without rounding. -/
theorem C103_degenerate (R : Arith α) (vals : List α) (locs : List (List α)) (con : List α) (hlen : locs.length = 2 ^ con.length)
    (hlocs : ∀ l ∈ locs, l.length = con.length) (d : Nat) (hd : d < con.length)
    (hflat : (locs.getD 0 []).getD d 0 = (locs.getD (2 ^ d) []).getD d 0) :
    ShapeInterp.ndLinearInterp vals locs con = .ok none ∧ ShapeInterp.ndLinearInterpR R.toRounding vals locs con = .ok none := by
  have hpow : ∀ e, e < con.length → 2 ^ e < locs.length := fun e he => by rw [hlen]; exact Nat.pow_lt_pow_right (by norm_num) he
  have hpos : 0 < locs.length := by rw [hlen]; positivity
  have hll : ∀ i, i < locs.length → (locs.getD i []).length = con.length := by
    intro i hi
    refine hlocs _ ?_
    rw [List.getD_eq_getElem?_getD, List.getElem?_eq_getElem hi]
    exact List.getElem_mem hi
  have hat : ∀ i, i < locs.length → at_ locs i = .ok (locs.getD i []) := by
    intro i hi
    rw [at_of_lt hi, List.getD_eq_getElem?_getD, List.getElem?_eq_getElem hi]
    rfl
  have hz : R.rnd (0 : α) = 0 := by have := R.exact 0 (Nat.zero_le _); simpa using this
  have hnone : ∀ (cs : List (Fl α)), none ∈ cs → cs.mapM (m := Option) id = none := by
    intro cs
    induction cs with
    | nil => intro h; cases h
    | cons c cs ih =>
      intro h
      rw [List.mapM_cons]
      rcases List.mem_cons.1 h with h | h
      · rw [← h]; rfl
      · rw [ih h]; cases c <;> rfl
  constructor
  · have hc : ShapeInterp.latticeCoords locs con = .ok ((List.range con.length).map (fun e =>
        Fl.div (con.getD e 0 - (locs.getD 0 []).getD e 0) ((locs.getD (2 ^ e) []).getD e 0 - (locs.getD 0 []).getD e 0))) := by
      unfold ShapeInterp.latticeCoords
      refine Res.traverse_ok (fun e he => ?_)
      have he := List.mem_range.1 he
      rw [at_getD he, hat 0 hpos, hat _ (hpow e he)]
      simp only [Res.ok_bind]
      rw [at_getD (by rw [hll 0 hpos]; exact he), at_getD (by rw [hll _ (hpow e he)]; exact he)]
      rfl
    unfold ShapeInterp.ndLinearInterp
    rw [hc]
    simp only [Res.ok_bind]
    rw [hnone _ (List.mem_map.2 ⟨d, List.mem_range.2 hd, by rw [hflat, sub_self]; simp [Fl.div]⟩)]
    rfl
  · have hc : ShapeInterp.latticeCoordsR R.toRounding locs con = .ok ((List.range con.length).map (fun e =>
        Fl.divR R.toRounding (R.rnd (con.getD e 0 - (locs.getD 0 []).getD e 0)) (R.rnd ((locs.getD (2 ^ e) []).getD e 0 - (locs.getD 0 []).getD e 0)))) := by
      unfold ShapeInterp.latticeCoordsR
      refine Res.traverse_ok (fun e he => ?_)
      have he := List.mem_range.1 he
      rw [at_getD he, hat 0 hpos, hat _ (hpow e he)]
      simp only [Res.ok_bind]
      rw [at_getD (by rw [hll 0 hpos]; exact he), at_getD (by rw [hll _ (hpow e he)]; exact he)]
      rfl
    unfold ShapeInterp.ndLinearInterpR
    rw [hc]
    simp only [Res.ok_bind]
    rw [hnone _ (List.mem_map.2 ⟨d, List.mem_range.2 hd, by rw [hflat, sub_self, hz]; simp [Fl.divR]⟩)]
    rfl

-- the second of two directions is flat
example (R : Arith ℚ) : ShapeInterp.ndLinearInterpR R.toRounding [1, 2, 3, 4] [[0, 5], [1, 5], [0, 5], [1, 5]] [1 / 2, 5] = .ok none :=
  (C103_degenerate R [1, 2, 3, 4] [[0, 5], [1, 5], [0, 5], [1, 5]] [1 / 2, 5] rfl (by decide) 1 (by decide) (by decide)).2

/-! ### All constraints together -/

/-- The value of a parameter at a point. -/
def valueAt (p : ParamDict α) (n : String) : α := (SMap.find p n).getD 0

/-- The size of the terms a manager sums, against which rounding errors are measured. A quadratic and a shape constraint count with their value,
a ratio, a fractional and a bivariate one with what their value would be if nothing cancelled, and an interpolated one (its lattice given by
`lat`) with the sum of the sizes of its terms. -/
def ConstraintManager.size (m : ConstraintManager α) (p : ParamDict α) (lat : Histogram α → List α × List (List α) × List α) : α :=
  (m.ind.map (fun e => (e.2.evaluate (valueAt p e.1)).getD 0)).sum +
  (m.pair.map (fun e => e.2.size (valueAt p e.1.1) (valueAt p e.1.2))).sum +
  (m.ratio.map (fun e => (|valueAt p e.1.1 / valueAt p e.1.2| + |e.2.mean|) * (|valueAt p e.1.1 / valueAt p e.1.2| + |e.2.mean|) /
    (2 * e.2.sigma * e.2.sigma))).sum +
  (m.frac.map (fun e => (|(valueAt p e.1.1 - valueAt p e.1.2) / (valueAt p e.1.1 + valueAt p e.1.2)| + |e.2.mean|) *
    (|(valueAt p e.1.1 - valueAt p e.1.2) / (valueAt p e.1.1 + valueAt p e.1.2)| + |e.2.mean|) / (2 * e.2.sigma * e.2.sigma))).sum +
  (m.interp.map (fun e => interpSize (lat e.2).1 (latticePlace (lat e.2).2.1 (lat e.2).2.2) (lat e.2).2.2.length)).sum +
  (m.shape.map (fun e => (e.2.evaluate p).getD 0)).sum

/-- How many constraints a manager holds. -/
def ConstraintManager.count (m : ConstraintManager α) : Nat :=
  m.ind.length + m.pair.length + m.ratio.length + m.frac.length + m.interp.length + m.shape.length

/-- Every constrained parameter has a value, the widths are positive, correlations are at most 1/√2 in size, denominators of ratios are not tiny,
sums in fractional constraints are positive, and the points of interpolated constraints lie inside their lattices, of few enough dimensions
for the `K` errors allowed for. -/
structure ConstraintManager.Regular (K : Nat) (m : ConstraintManager α) (p : ParamDict α)
    (lat : Histogram α → List α × List (List α) × List α) : Prop where
  ind : ∀ e ∈ m.ind, (SMap.find p e.1).isSome ∧ 0 < e.2.width ∧ (e.2.isAsym → 0 < e.2.widthLo)
  pair : ∀ e ∈ m.pair, (SMap.find p e.1.1).isSome ∧ (SMap.find p e.1.2).isSome ∧ 0 < e.2.sigma1 ∧ 0 < e.2.sigma2 ∧ e.2.corr * e.2.corr ≤ 1 / 2
  ratio : ∀ e ∈ m.ratio, (SMap.find p e.1.1).isSome ∧ (SMap.find p e.1.2).isSome ∧ 0 < e.2.sigma ∧ 2 / 10 ^ 8 ≤ valueAt p e.1.2
  frac : ∀ e ∈ m.frac, (SMap.find p e.1.1).isSome ∧ (SMap.find p e.1.2).isSome ∧ 0 < e.2.sigma ∧ 0 < valueAt p e.1.1 + valueAt p e.1.2
  interp : ∀ e ∈ m.interp, ShapeInterp.extractParams e.2 p = .ok (lat e.2).2.2 ∧
    e.2.getLatticePointValues (lat e.2).2.2 = .ok ((lat e.2).1, (lat e.2).2.1) ∧ LatticeOk (lat e.2).1 (lat e.2).2.1 (lat e.2).2.2 ∧
    5 * (lat e.2).2.2.length + 2 ^ (lat e.2).2.2.length ≤ K
  shape : ∀ e ∈ m.shape, 0 < e.2.sigma

theorem dictAt_value {p : ParamDict α} {n : String} (h : (SMap.find p n).isSome) : ConstraintManager.dictAt p n = .ok (valueAt p n) := by
  obtain ⟨v, hv⟩ := Option.isSome_iff_exists.1 h
  unfold ConstraintManager.dictAt valueAt
  rw [hv]; rfl

theorem evalPair_value {β : Type} {f : β → α → α → Fl α} {p : ParamDict α} {k : String × String} {c : β} {q : α}
    (h1 : (SMap.find p k.1).isSome) (h2 : (SMap.find p k.2).isSome) (hf : f c (valueAt p k.1) (valueAt p k.2) = some q) :
    ConstraintManager.evalPair f p k c = .ok (some q) := by
  unfold ConstraintManager.evalPair
  rw [dictAt_value h1, dictAt_value h2]
  simp only [Res.ok_bind, Res.pure_eq]
  rw [hf]

/-- C103 (partial), constraints: whatever constraints a manager holds, evaluating them succeeds in machine arithmetic where it does exactly, and the value
is the exact one up to 12 relative errors and one per constraint of the size of the terms; with interpolated constraints in `n` dimensions
`5 n + 2 ^ n` instead of 12 if that is more. Missing: correlations above 1/√2, where `1 - corr * corr` cancels. -/
theorem C103_constraints_partial (R : Arith α) (fma : Bool) {K : Nat} (hK : 12 ≤ K) {m : ConstraintManager α} {p : ParamDict α}
    {lat : Histogram α → List α × List (List α) × List α} (h : m.Regular K p lat) :
    CloseTo R.u (K + m.count) (m.size p lat) (m.evaluate p) (m.evaluateR R.toRounding fma p) := by
  have h0 := R.u_nonneg
  have h1 := R.u_lt
  obtain ⟨a1, b1, e1, f1, g1⟩ := ConstraintManager.close_sumOver R (K := K) (fun n (c : QuadraticConstraint α) => do
    let v ← ConstraintManager.dictAt p n
    pure (c.evaluate v)) (fun n (c : QuadraticConstraint α) => do
    let v ← ConstraintManager.dictAt p n
    pure (c.evaluateR R.toRounding v)) (fun e => (e.2.evaluate (valueAt p e.1)).getD 0) m.ind (by
      intro e he
      obtain ⟨s, w, l⟩ := h.ind e he
      obtain ⟨q, q', x1, x2, x3⟩ := e.2.close R (valueAt p e.1) w l
      refine ⟨q, q', ?_, ?_, ?_⟩
      · rw [dictAt_value s]; simp only [Res.ok_bind, Res.pure_eq]; rw [x1]
      · rw [dictAt_value s]; simp only [Res.ok_bind, Res.pure_eq]; rw [x2]
      · rw [x1]; exact x3.mono h0 h1 (by omega)) (le_refl K) (t := 0) (a := 0) (a' := 0) (by
      have := Close.refl h0 h1 K (0 : α)
      rwa [abs_zero] at this)
  obtain ⟨a2, b2, e2, f2, g2⟩ := ConstraintManager.close_sumOver R (K := K) (ConstraintManager.evalPair BivariateConstraint.evaluate p)
    (ConstraintManager.evalPair (BivariateConstraint.evaluateR R.toRounding fma) p)
    (fun e => e.2.size (valueAt p e.1.1) (valueAt p e.1.2)) m.pair (by
      intro e he
      obtain ⟨s1, s2, w1, w2, hc⟩ := h.pair e he
      obtain ⟨q, q', x1, x2, x3⟩ := e.2.close R fma (valueAt p e.1.1) (valueAt p e.1.2) w1 w2 hc
      exact ⟨q, q', evalPair_value s1 s2 x1, evalPair_value s1 s2 x2, x3.mono h0 h1 (by omega)⟩) (by omega) g1
  obtain ⟨a3, b3, e3, f3, g3⟩ := ConstraintManager.close_sumOver R (K := K) (ConstraintManager.evalPair RatioConstraint.evaluate p)
    (ConstraintManager.evalPair (RatioConstraint.evaluateR R.toRounding) p)
    (fun e => (|valueAt p e.1.1 / valueAt p e.1.2| + |e.2.mean|) * (|valueAt p e.1.1 / valueAt p e.1.2| + |e.2.mean|) /
      (2 * e.2.sigma * e.2.sigma)) m.ratio (by
      intro e he
      obtain ⟨s1, s2, w1, hv⟩ := h.ratio e he
      have hp : (0 : α) < RatioConstraint.epsilon := by unfold RatioConstraint.epsilon; positivity
      have h2 : 2 * RatioConstraint.epsilon ≤ valueAt p e.1.2 := by unfold RatioConstraint.epsilon; linarith
      have hr := R.rel RatioConstraint.epsilon
      rw [abs_of_pos hp, abs_le] at hr
      obtain ⟨q, q', x1, x2, x3⟩ := e.2.close R (v1 := valueAt p e.1.1) w1 (show RatioConstraint.epsilon ≤ valueAt p e.1.2 by linarith)
        (by nlinarith [hr.2])
      exact ⟨q, q', evalPair_value s1 s2 x1, evalPair_value s1 s2 x2, x3.mono h0 h1 (by omega)⟩) (by omega) g2
  obtain ⟨a4, b4, e4, f4, g4⟩ := ConstraintManager.close_sumOver R (K := K) (ConstraintManager.evalPair FractionalConstraint.evaluate p)
    (ConstraintManager.evalPair (FractionalConstraint.evaluateR R.toRounding) p)
    (fun e => (|(valueAt p e.1.1 - valueAt p e.1.2) / (valueAt p e.1.1 + valueAt p e.1.2)| + |e.2.mean|) *
    (|(valueAt p e.1.1 - valueAt p e.1.2) / (valueAt p e.1.1 + valueAt p e.1.2)| + |e.2.mean|) / (2 * e.2.sigma * e.2.sigma)) m.frac (by
      intro e he
      obtain ⟨s1, s2, w1, hv⟩ := h.frac e he
      obtain ⟨q, q', x1, x2, x3⟩ := e.2.close R w1 hv
      exact ⟨q, q', evalPair_value s1 s2 x1, evalPair_value s1 s2 x2, x3.mono h0 h1 (by omega)⟩) (by omega) g3
  obtain ⟨a5, b5, e5, f5, g5⟩ := ConstraintManager.close_sumOver R (K := K) (fun (_ : String) hh => ShapeInterp.evaluate hh p)
    (fun (_ : String) hh => ShapeInterp.evaluateR R.toRounding hh p)
    (fun e => interpSize (lat e.2).1 (latticePlace (lat e.2).2.1 (lat e.2).2.2) (lat e.2).2.2.length) m.interp (by
      intro e he
      obtain ⟨y1, y2, y3, y4⟩ := h.interp e he
      obtain ⟨q, q', x1, x2, x3⟩ := close_lattice R y3
      refine ⟨q, q', ?_, ?_, x3.mono h0 h1 y4⟩
      · unfold ShapeInterp.evaluate
        rw [y1]; simp only [Res.ok_bind]; rw [y2]; exact x1
      · unfold ShapeInterp.evaluateR
        rw [y1]; simp only [Res.ok_bind]; rw [y2]; exact x2) (by omega) g4
  obtain ⟨a6, b6, e6, f6, g6⟩ := ConstraintManager.close_sumOver R (K := K) (fun (_ : ParamDict α) (c : ShapeConstraint α) => pure (c.evaluate p))
    (fun (_ : ParamDict α) (c : ShapeConstraint α) => pure (c.evaluateR R.toRounding p)) (fun e => (e.2.evaluate p).getD 0) m.shape (by
      intro e he
      obtain ⟨q, q', x1, x2, x3⟩ := e.2.close R p (h.shape e he)
      refine ⟨q, q', ?_, ?_, ?_⟩
      · rw [x1]; rfl
      · rw [x2]; rfl
      · rw [x1]; exact x3.mono h0 h1 (by omega)) (by omega) g5
  refine ⟨a6, b6, ?_, ?_, ?_⟩
  · unfold ConstraintManager.evaluate
    rw [e1]; simp only [Res.ok_bind]
    rw [e2]; simp only [Res.ok_bind]
    rw [e3]; simp only [Res.ok_bind]
    rw [e4]; simp only [Res.ok_bind]
    rw [e5]; simp only [Res.ok_bind]
    rw [e6]
  · unfold ConstraintManager.evaluateR
    rw [f1]; simp only [Res.ok_bind]
    rw [f2]; simp only [Res.ok_bind]
    rw [f3]; simp only [Res.ok_bind]
    rw [f4]; simp only [Res.ok_bind]
    rw [f5]; simp only [Res.ok_bind]
    rw [f6]
  · unfold ConstraintManager.size ConstraintManager.count
    rw [zero_add] at g6
    rw [show K + (m.ind.length + m.pair.length + m.ratio.length + m.frac.length + m.interp.length + m.shape.length) =
      K + m.ind.length + m.pair.length + m.ratio.length + m.frac.length + m.interp.length + m.shape.length by ring]
    exact g6

/-- C103 (partial), a whole fit in machine arithmetic: as `C103_likelihood_partial`, with the constraints evaluated by the machine too. With `T`
distributions, `N` bins and `M` constraints, all but interpolated ones of more than one dimension: `max (T + 2 N + 3) (12 + M) + 1` relative errors.
Missing: Barlow-Beeston, correlations above 1/√2. -/
theorem C103_fit_partial (R : Arith ℝ) (fma : Bool) (lg : ℝ → ℝ) (hlg : ∀ x, 0 < x → |lg x - Real.log x| ≤ R.u * |Real.log x|)
    {name : Nat → String} {C : FitSys σ ℝ} {objs : Nat → σ} {log : List (BinnedED ℝ × NormStatus)} {cons : ConstraintManager ℝ}
    {d : BinnedED ℝ} {ps : ParamDict ℝ} {c : ℝ} (h : CanFit log d) (hp : FitPoint log cons d ps c) {K : Nat} (hK : 12 ≤ K)
    {lat : Histogram ℝ → List ℝ × List (List ℝ) × List ℝ} (hreg : cons.Regular K (ps.filter (fun p => p.1 ∈ PdfLog.fitted log)) lat)
    (hnn : ∀ n ∈ PdfLog.fitted log, ∀ v, SMap.find ps n = some v → 0 ≤ v) (hg : ∀ p ∈ log, ∀ x ∈ p.1.hist.contents, 0 ≤ x)
    (hdn : ∀ x ∈ d.hist.contents, 0 ≤ x) :
    ∃ L v' L', NLLH.configured name C objs log cons ps d = .ok L ∧ L.evaluateR R.toRounding fma lg C = .ok (some v', L') ∧
      |v' - (nllAt log d ps + c)| ≤ (1 / (1 - R.u) ^ (max (log.length + 2 * d.hist.nBins + 3) (K + cons.count) + 1) - 1) *
        (sumScale d.hist.nBins (countIn d) (rateAt log ps) + cons.size (ps.filter (fun p => p.1 ∈ PdfLog.fitted log)) lat) :=
  C103_likelihood_partial R fma lg hlg h hp (C103_constraints_partial R fma hK hreg) hnn hg hdn

/-! ### The hypotheses are met -/

/-- One constraint of every kind on three parameters. -/
def exConstraints : ConstraintManager ℚ where
  ind := [("b", QuadraticConstraint.sym 3 (1 / 2)), ("s", QuadraticConstraint.asym 2 (1 / 2) (1 / 4))]
  pair := [(("b", "s"), ⟨3, 1, 2, 1, 1 / 2⟩)]
  useInd := []
  ratio := [(("b", "s"), ⟨1, 1⟩)]
  frac := [(("b", "s"), ⟨0, 1⟩)]
  interp := [("l", exHist1)]
  shape := [([], ⟨fun p => valueAt p "b", 3, 1⟩)]

example : exConstraints.Regular 12 [("b", 7 / 2), ("s", 1), ("y", 7 / 4)]
    (fun _ => match exHist1.getLatticePointValues [7 / 4] with
      | .ok q => (q.1, q.2, [7 / 4])
      | _ => ([], [], [])) where
  ind := by decide +kernel
  pair := by decide +kernel
  ratio := by decide +kernel
  frac := by decide +kernel
  interp := by
    intro e he
    rw [List.mem_singleton.1 he]
    refine ⟨by decide +kernel, by decide +kernel, ⟨by decide +kernel, by decide +kernel, ?_, ?_, by decide +kernel⟩, by decide +kernel⟩
    · exact ⟨[3 / 2], by decide +kernel, by decide +kernel⟩
    · intro d hd
      have : d = 0 := by
        have : d < 1 := lt_of_lt_of_eq hd (by decide +kernel)
        omega
      subst this
      exact ⟨[5 / 2], by decide +kernel, by decide +kernel⟩
  shape := by decide +kernel

-- and its exact value exists
example : (exConstraints.evaluate [("b", 7 / 2), ("s", 1), ("y", 7 / 4)]).isOk = true := by decide +kernel

-- a fit with a constraint
example (C : FitSys σ ℝ) (objs : Nat → σ) (cs : ConstraintManager ℝ)
    (hcs : cs = { ConstraintManager.empty with ind := [("b", QuadraticConstraint.sym 1 (1 / 10))] }) :
    cs.Regular 12 [("b", 3), ("s", 2)] (fun _ => ([], [], [])) ∧ cs.count = 1 := by
  subst hcs
  refine ⟨⟨?_, ?_, ?_, ?_, ?_, ?_⟩, rfl⟩
  · intro e he
    rw [List.mem_singleton.1 he]
    exact ⟨by simp [SMap.find], by norm_num [QuadraticConstraint.sym], by simp [QuadraticConstraint.sym]⟩
  all_goals intro e he; exact absurd he (by simp [ConstraintManager.empty])

end Oxsx
