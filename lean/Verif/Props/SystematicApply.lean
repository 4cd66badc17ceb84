import Verif.Props.Systematic
import Verif.Props.Histogram
import Verif.Props.Marginal
/-
Properties C21 (applying a systematic) and C22 (re-targeting to new axes).
-/
set_option linter.unusedSectionVars false
set_option linter.unusedSimpArgs false
set_option linter.unusedVariables false
namespace Oxsx
open AxisCollection AxisSys Histogram
variable {α : Type} [Field α] [LinearOrder α] [IsStrictOrderedRing α]

/-! ### C21 -/

/-- The matrix-vector product the property speaks of: bin `i` of the response applied to the contents of `h`. -/
def responseTimes (m : Matrix' α) (h : Histogram α) (i : Nat) : α :=
  ((List.range h.nBins).map (fun j => m.comp i j * h.content j)).sum

/-- C21 (part). A systematic whose response is an `n`×`n` matrix, applied to a distribution with `n` bins: with a norm
pointer, bin `i` of the result is the response applied to the contents and the number written through the pointer is
the sum of those; without, every bin is divided by that sum, so that the integral is one when the sum is not zero. Name,
observables and axes are unchanged. If the number of bins is not `n`, `DimensionError` (a systematic which was never
given axes has `n = 0`).
Missing from the property: between `SetAxes` and `Construct` the response is the zero matrix and `operator()` does not
throw, see `C21_unconstructed_silent_wrong`. -/
theorem C21_apply_partial (s : SysBase α) (as : List (BinAxis α)) (pdf : BinnedED α) (hv : pdf.hist.Valid as)
    (hs : s.response.Sized) (hsq : s.response.nRows = s.response.nCols) :
    (pdf.hist.nBins ≠ s.response.nCols → ∀ w, s.apply pdf w = .throw .dimension) ∧
    (pdf.hist.nBins = s.response.nCols →
      let total := ((List.range pdf.hist.nBins).map (responseTimes s.response pdf.hist)).sum
      (∃ p, s.apply pdf true = .ok (p, some total) ∧ p.name = pdf.name ∧ p.obs = pdf.obs ∧
        p.hist.axes = pdf.hist.axes ∧ p.hist.Valid as ∧ p.hist.integral = total ∧
        ∀ i, i < pdf.hist.nBins → p.hist.getBinContent i = .ok (responseTimes s.response pdf.hist i)) ∧
      (∃ p, s.apply pdf false = .ok (p, none) ∧ p.name = pdf.name ∧ p.obs = pdf.obs ∧
        p.hist.axes = pdf.hist.axes ∧ p.hist.Valid as ∧ (total ≠ 0 → p.hist.integral = 1) ∧
        ∀ i, i < pdf.hist.nBins → p.hist.getBinContent i =
          .ok (responseTimes s.response pdf.hist i / total))) := by
  have hlen : pdf.hist.contents.length = pdf.hist.nBins := by rw [hv.len, hv.nb]
  obtain ⟨a1, a2⟩ := C18_apply s.response hs pdf.hist.contents
  constructor
  · intro hne w
    unfold SysBase.apply
    rw [a1 (by rw [hlen]; exact hne)]; rfl
  · intro heq
    obtain ⟨v, e1, e2, e3⟩ := a2 (by rw [hlen]; exact heq)
    have hvl : v.length = pdf.hist.nBins := by rw [e2, hsq, heq]
    have hve : ∀ i, i < pdf.hist.nBins → v[i]? = some (responseTimes s.response pdf.hist i) := by
      intro i hi
      rw [e3 i (by omega), ← heq]
      congr 1
      unfold responseTimes
      apply Matrix'.sum_range_congr
      intro j hj
      rw [content_valid hv hj]
    have hvm : v = (List.range pdf.hist.nBins).map (responseTimes s.response pdf.hist) := by
      apply List.ext_getElem?
      intro i
      by_cases hi : i < pdf.hist.nBins
      · rw [hve i hi, List.getElem?_map, List.getElem?_range hi]; rfl
      · rw [List.getElem?_eq_none (by omega), List.getElem?_eq_none (by simp; omega)]
    have hset : pdf.hist.setBinContents v = .ok { pdf.hist with contents := v } := by
      unfold Histogram.setBinContents; rw [if_neg (by omega)]; rw [hvl]
    have hv' : ({ pdf.hist with contents := v } : Histogram α).Valid as :=
      hv.withContents (by rw [hvl, hlen])
    have hint : ({ pdf.hist with contents := v } : Histogram α).integral = 
        ((List.range pdf.hist.nBins).map (responseTimes s.response pdf.hist)).sum := by
      rw [hv'.integral, hvm]
    have hcon : ∀ i, i < pdf.hist.nBins → ({ pdf.hist with contents := v } : Histogram α).getBinContent i =
        .ok (responseTimes s.response pdf.hist i) := by
      intro i hi
      rw [hv'.get (by exact hi)]
      simp [List.getD_eq_getElem?_getD, hve i hi]
    refine ⟨⟨{ pdf with hist := { pdf.hist with contents := v } }, ?_, rfl, rfl, rfl, hv', hint, hcon⟩,
      ⟨{ pdf with hist := ({ pdf.hist with contents := v } : Histogram α).normalise }, ?_, rfl, rfl, rfl, ?_, ?_, ?_⟩⟩
    · unfold SysBase.apply
      rw [e1]; simp only [Res.ok_bind]; rw [hset]
      simp only [Res.ok_bind, if_pos, Res.pure_eq, hint]
    · unfold SysBase.apply
      rw [e1]; simp only [Res.ok_bind]; rw [hset]
      simp only [Res.ok_bind, Bool.false_eq_true, if_false, Res.pure_eq]
    · exact hv'.withContents (by simp)
    · intro ht
      exact (C08_normalise as _ hv' (by rw [hint]; exact ht)).1
    · intro i hi
      have hx := hcon i hi
      rw [getBinContent_ok_iff] at hx ⊢
      refine ⟨hx.1, ?_⟩
      simp only [Histogram.normalise, List.getElem?_map, hx.2, Option.map_some, hint]

/-- The part of C21 that is false: pointing a fresh systematic at the distribution's axes and applying it without
constructing it throws nothing and returns a distribution with every bin zero. -/
theorem C21_unconstructed_silent_wrong (as : List (BinAxis α)) (pdf : BinnedED α) (hv : pdf.hist.Valid as) :
    ∃ p, ((SysBase.new : SysBase α).setAxes pdf.hist.axes).apply pdf true = .ok (p, some 0) ∧
      ∀ i, i < pdf.hist.nBins → p.hist.getBinContent i = .ok 0 := by
  have hn : pdf.hist.axes.nBins = pdf.hist.nBins := by rw [hv.axes.total_ne hv.ne, hv.nb]
  have hs : ((SysBase.new : SysBase α).setAxes pdf.hist.axes).response.Sized := ⟨rfl, rfl⟩
  have hz : ∀ i, responseTimes ((SysBase.new : SysBase α).setAxes pdf.hist.axes).response pdf.hist i = 0 := by
    intro i
    unfold responseTimes
    apply List.sum_eq_zero
    intro x hx
    obtain ⟨j, hj, rfl⟩ := List.mem_map.1 hx
    rw [List.mem_range] at hj
    have : ((SysBase.new : SysBase α).setAxes pdf.hist.axes).response.comp i j = 0 := by
      unfold Matrix'.comp Matrix'.getComponent ArmaMat.get
      split_ifs <;> simp_all [SysBase.setAxes, Matrix'.mk', ArmaMat.zeros]
    rw [this, zero_mul]
  obtain ⟨p, h1, _, _, _, _, _, h2⟩ := ((C21_apply_partial _ as pdf hv hs rfl).2 hn.symm).1
  refine ⟨p, ?_, ?_⟩
  · rw [h1]
    congr 3
    apply List.sum_eq_zero
    intro x hx
    obtain ⟨j, _, rfl⟩ := List.mem_map.1 hx
    exact hz j
  · intro i hi; rw [h2 i hi, hz]

/-- Never given axes: `DimensionError`. -/
theorem C21_no_axes (as : List (BinAxis α)) (pdf : BinnedED α) (hv : pdf.hist.Valid as)
    (hpos : ∀ a ∈ as, 0 < a.nBins) (w : Bool) : (SysBase.new : SysBase α).apply pdf w = .throw .dimension := by
  refine (C21_apply_partial SysBase.new as pdf hv ⟨rfl, rfl⟩ rfl).1 ?_ w
  rw [hv.nb]
  have : 0 < (shape as).prod := prod_pos_of (by
    intro n hn; simp only [shape, List.mem_map] at hn
    obtain ⟨a, ha, rfl⟩ := hn; exact hpos a ha)
  exact this.ne'

/-- A 12-bin distribution over `exAxes`, all in bin 0. -/
def exPdf : BinnedED ℚ :=
  ⟨"pdf", ⟨exColl, 4 :: List.replicate 11 0, 12, 3⟩, ObsSet.ofNames ["e", "r", "t"]⟩

theorem exPdf_valid : exPdf.hist.Valid exAxes := by
  refine ⟨holds_of_addAxes exColl_built, by decide, ?_, ?_, ?_⟩ <;> decide +kernel

/-- Non-vacuity of C21: scale by 11/10 applied to that distribution. -/
example : ((freshAxisSys "r" ["e", "r", "t"] exColl).constructScale (11/10) >>= fun s =>
      s.base.apply exPdf true).isOk = true ∧
    (((freshAxisSys "r" ["e", "r", "t"] exColl).constructScale (11/10) >>= fun s =>
      s.base.apply exPdf true) >>= fun p => p.1.hist.getBinContent 2) = .ok (4/11) ∧
    (((freshAxisSys "r" ["e", "r", "t"] exColl).constructScale (11/10) >>= fun s =>
      s.base.apply exPdf true) >>= fun p => pure p.2) = .ok (some 4) := by decide +kernel

/-! ### C22 -/

/-- A history of calls on a systematic: `SetAxes` and `Construct` (with the value of the scale factor, shift or
function at that time), in any order. -/
inductive SysCall (α : Type) where
  | setAxes (c : AxisCollection α)
  | construct (t : α → α)

/-- Run a history. -/
def runCalls (s : AxisSys α) : List (SysCall α) → Res (AxisSys α)
  | [] => .ok s
  | .setAxes c :: l => runCalls (s.setAxes c) l
  | .construct t :: l => (s.constructWith t).bind (fun s' => runCalls s' l)

/-- Every axes given in the history have the grid shape `ns` (and are legal axes), every map is strictly increasing. -/
def LegalCalls (ns : List Nat) (l : List (SysCall α)) : Prop :=
  ∀ x ∈ l, match x with
    | .setAxes c => ∃ as : List (BinAxis α), (empty : AxisCollection α).addAxes as = .ok c ∧ shape as = ns ∧
        (∀ a ∈ as, a.Contiguous ∧ a.PosWidths)
    | .construct t => StrictMono t

theorem run_inv {ns : List Nat} {k : Nat} (hk : k < ns.length) {tn : String} {dn : List String} (hd : dn.Nodup)
    (htn : dn[k]? = some tn) (l : List (SysCall α)) (hl : LegalCalls ns l) (s : AxisSys α)
    (h0 : ∃ (as : List (BinAxis α)) (a : BinAxis α), Setting s as k a ∧ shape as = ns ∧ (∀ a ∈ as, a.PosWidths) ∧
      (s.cached = false ∨ CacheFor ns k a.nBins s))
    (ho : s.base.transObs = ObsSet.ofNames [tn] ∧ s.base.distObs = ObsSet.ofNames dn) :
    ∃ s', runCalls s l = .ok s' ∧
    (∃ (as : List (BinAxis α)) (a : BinAxis α), Setting s' as k a ∧ shape as = ns ∧ (∀ a ∈ as, a.PosWidths) ∧
      (s'.cached = false ∨ CacheFor ns k a.nBins s')) ∧
    (s'.base.transObs = ObsSet.ofNames [tn] ∧ s'.base.distObs = ObsSet.ofNames dn) := by
  induction l generalizing s with
  | nil => exact ⟨s, rfl, h0, ho⟩
  | cons x l ih =>
    have hl' : LegalCalls ns l := fun y hy => hl y (List.mem_cons_of_mem _ hy)
    have hx := hl x List.mem_cons_self
    obtain ⟨as, a, g1, g2, g3, g4⟩ := h0
    cases x with
    | setAxes c =>
      obtain ⟨bs, b1, b2, b3⟩ := hx
      have hkb : k < bs.length := by rw [← b2] at hk; simpa using hk
      have hget : bs[k]? = some bs[k] := List.getElem?_eq_getElem hkb
      have hnb : (bs[k]).nBins = a.nBins := by
        have e1 : (shape bs)[k]? = some (bs[k]).nBins := by simp [shape, hget]
        have e2 := g1.shapeK
        rw [b2] at e1; rw [g2] at e2
        exact Option.some.inj (e1.symm.trans e2)
      apply ih hl' (s.setAxes c) _ ho
      refine ⟨bs, bs[k], ⟨holds_of_addAxes b1, hget, fun a ha => (b3 a ha).1, ⟨tn, dn, ho.1, ho.2, hd, htn⟩, rfl, rfl⟩,
        b2, fun a ha => (b3 a ha).2, ?_⟩
      rcases g4 with g4 | g4
      · exact Or.inl g4
      · rw [hnb]; exact Or.inr ⟨g4.cached, g4.dt, g4.rows, g4.cols, g4.arows, g4.acols, g4.ent⟩
    | construct t =>
      obtain ⟨s', e1, e2, e3, e4, e5, e6, e7, e8, _⟩ := construct_ok g1 (g3 a (List.mem_of_getElem? g1.ax))
        (by rw [g2]; exact g4) hx
      have hN := g1.holds.total_ne g1.ne
      obtain ⟨s'', f1, f2, f3⟩ := ih hl' s' ⟨as, a, ⟨by rw [e3]; exact g1.holds, g1.ax, g1.cont,
          ⟨tn, dn, by rw [e4, ho.1], by rw [e5, ho.2], hd, htn⟩, by rw [e7, e3, hN], by rw [e8, e3, hN]⟩, g2, g3,
        Or.inr (g2 ▸ e2)⟩ ⟨by rw [e4, ho.1], by rw [e5, ho.2]⟩
      refine ⟨s'', ?_, f2, f3⟩
      unfold runCalls
      rw [e1]; exact f1

/-- C22 (part): whatever was called before (any sequence of `SetAxes` to axes with the same numbers of bins and of
`Construct`), after `SetAxes(c)` the next `Construct` gives the response of a freshly made systematic given `c`, entry by
entry, and does not fail. Missing: axes with a different number of bins, for which the property is false
(`C22_other_shape_wrong`). -/
theorem C22_retarget_partial (as : List (BinAxis α)) (c : AxisCollection α)
    (hbuild : (empty : AxisCollection α).addAxes as = .ok c) (hc : ∀ a ∈ as, a.Contiguous ∧ a.PosWidths)
    (k : Nat) (hk : k < as.length) (tn : String) (dn : List String) (hd : dn.Nodup) (htn : dn[k]? = some tn)
    (c0 : AxisCollection α) (as0 : List (BinAxis α)) (hb0 : (empty : AxisCollection α).addAxes as0 = .ok c0)
    (hc0 : ∀ a ∈ as0, a.Contiguous ∧ a.PosWidths) (hsh : shape as0 = shape as)
    (calls : List (SysCall α)) (hl : LegalCalls (shape as) calls) (t : α → α) (ht : StrictMono t) :
    ∃ s1 s2 s', runCalls (freshAxisSys tn dn c0) calls = .ok s1 ∧ (s1.setAxes c).constructWith t = .ok s2 ∧
      (freshAxisSys tn dn c).constructWith t = .ok s' ∧
      ∀ i j, i < c.nBins → j < c.nBins →
        s2.base.response.getComponent i j = s'.base.response.getComponent i j := by
  have hk0 : k < as0.length := by
    have := congrArg List.length hsh; simp at this; omega
  have hget : as[k]? = some as[k] := List.getElem?_eq_getElem hk
  have hget0 : as0[k]? = some as0[k] := List.getElem?_eq_getElem hk0
  obtain ⟨s1, h1, h2, h3⟩ := run_inv (ns := shape as) (by simpa using hk) hd htn
    (calls ++ [.setAxes c]) (by
      intro x hx
      rcases List.mem_append.1 hx with hx | hx
      · exact hl x hx
      · simp at hx; subst hx; exact ⟨as, hbuild, rfl, hc⟩) (freshAxisSys tn dn c0)
    ⟨as0, as0[k], fresh_setting hb0 (fun a ha => (hc0 a ha).1) hget0 hd htn, hsh, fun a ha => (hc0 a ha).2, Or.inl rfl⟩
    ⟨rfl, rfl⟩
  obtain ⟨s0, g0, g1, _⟩ := run_inv (ns := shape as) (by simpa using hk) hd htn
    calls hl (freshAxisSys tn dn c0)
    ⟨as0, as0[k], fresh_setting hb0 (fun a ha => (hc0 a ha).1) hget0 hd htn, hsh, fun a ha => (hc0 a ha).2, Or.inl rfl⟩
    ⟨rfl, rfl⟩
  have hrun : ∀ (l : List (SysCall α)) (s s0 : AxisSys α), runCalls s l = .ok s0 →
      runCalls s (l ++ [.setAxes c]) = .ok (s0.setAxes c) := by
    intro l
    induction l with
    | nil => intro s s0 h; cases h; rfl
    | cons x l ih =>
      intro s s0 h
      cases x with
      | setAxes d => exact ih _ _ h
      | construct u =>
        simp only [List.cons_append, runCalls] at h ⊢
        cases hcu : s.constructWith u with
        | ok s' => rw [hcu] at h; exact ih _ _ h
        | throw e => rw [hcu] at h; cases h
        | ub => rw [hcu] at h; cases h
  rw [hrun calls _ _ g0] at h1
  have h1' := Res.ok.inj h1
  subst h1'
  obtain ⟨bs, b, e1, e2, e3, e4⟩ := h2
  have hbs : bs = as := e1.holds.axes.symm.trans (holds_of_addAxes hbuild).axes
  subst hbs
  have hb : b = bs[k] := Option.some.inj (e1.ax.symm.trans hget)
  subst hb
  have hw := e3 _ (List.getElem_mem hk)
  obtain ⟨s2, p1, p2, p3, p4, p5, p6, p7, p8, p9, p10⟩ := construct_ok e1 hw e4 ht
  obtain ⟨s', q1, q2, q3, q4, q5, q6, q7, q8, q9, q10⟩ := construct_ok
    (fresh_setting hbuild (fun a ha => (hc a ha).1) hget hd htn) hw (Or.inl rfl) ht
  refine ⟨s0, s2, s', g0, p1, q1, ?_⟩
  have hN := (holds_of_addAxes hbuild).total_ne e1.ne
  intro i j hi hj
  rw [Matrix'.get_ok p6 (by omega) (by omega), Matrix'.get_ok q6 (by omega) (by omega)]
  rw [hN] at hj
  congr 1
  by_cases hex : ∃ d, d < (bs[k]).nBins ∧ moved (shape bs) k j d = i
  · obtain ⟨d, hd', rfl⟩ := hex
    rw [p9 j d hj hd', q9 j d hj hd']
  · push Not at hex
    rw [p10 j i hj hex, q10 j i hj hex]

/-- An axis of `n` unit bins, for the examples. -/
def unitAxis (name : String) (n : Nat) : BinAxis ℚ :=
  ⟨name, name, n, 0, n, (List.range n).map (fun i => (i : ℚ)), (List.range n).map (fun i => (i : ℚ) + 1),
   (List.range n).map (fun i => (i : ℚ) + 1/2), List.replicate n 1⟩

def collOf (l : List (BinAxis ℚ)) : AxisCollection ℚ :=
  match (empty : AxisCollection ℚ).addAxes l with
  | .ok c => c
  | _ => .empty

/-- The counterexamples to C22. First: after a `Construct` on a 2-bin axis, `SetAxes` to a 3-bin axis makes the next
`Construct` throw `std::out_of_range`. Second: from a 2×2×3 grid to a 3×2×2 grid (the transformed observable is the
second and keeps its two bins) it does not throw, but when the observable is halved bin 2 (indices (0,1,0)), which must
go to bin 0 (indices (0,0,0)), stays where it is; a fresh systematic gets it right. -/
theorem C22_other_shape_wrong :
    (((freshAxisSys "e" ["e"] (collOf [unitAxis "x" 2])).constructScale 1 >>= fun s =>
      (s.setAxes (collOf [unitAxis "x" 3])).constructScale 1) >>= fun s => s.base.response.getComponent 0 0)
        = .throw .outOfRange ∧
    (((freshAxisSys "r" ["e", "r", "t"] (collOf [unitAxis "x" 2, unitAxis "y" 2, unitAxis "z" 3])).constructScale (1/2)
      >>= fun s => (s.setAxes (collOf [unitAxis "x" 3, unitAxis "y" 2, unitAxis "z" 2])).constructScale (1/2))
      >>= fun s => do
        let p ← s.base.response.getComponent 0 2
        let q ← s.base.response.getComponent 2 2
        pure (p, q)) = .ok (0, 1) ∧
    ((freshAxisSys "r" ["e", "r", "t"] (collOf [unitAxis "x" 3, unitAxis "y" 2, unitAxis "z" 2])).constructScale (1/2)
      >>= fun s => do
        let p ← s.base.response.getComponent 0 2
        let q ← s.base.response.getComponent 2 2
        pure (p, q)) = .ok (1, 0) := by decide +kernel

end Oxsx
