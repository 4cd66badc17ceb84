import Verif.Lemmas.SubGrid
import Verif.Props.SystematicApply
/-
Property C23 (shape systematic), and the parts of C16 about systematics which manage their own parameters.
-/
set_option linter.unusedSectionVars false
set_option linter.unusedSimpArgs false
set_option linter.unusedVariables false
namespace Oxsx
open AxisCollection Histogram
variable {α : Type} [Field α] [LinearOrder α] [IsStrictOrderedRing α]

/-! ### C23 -/

/-- The point at which the shape function is evaluated for bin `b`: the bin's centre on each transformed observable, in
the order in which those observables were listed. -/
def centresAlong (c : AxisCollection α) (dn tns : List String) (b : Nat) : Res (List α) :=
  Res.traverse (fun n => do
    let k ← (ObsSet.ofNames dn).getIndex n
    c.getBinCentre b k) tns

/-- A shape systematic just given its function, observables and axes. -/
def freshShape (f : ParamDict α → List α → α) (pnames tns dn : List String) (c : AxisCollection α) : Shape α :=
  ((Shape.new.setShapeFunction f pnames).setObs (ObsSet.ofNames tns) (ObsSet.ofNames dn)).setAxes c

/-- Successive parameter settings, each followed by `Construct`. -/
def runShape (s : Shape α) : List (ParamDict α) → Res (Shape α)
  | [] => .ok s
  | pd :: l => (({ s with params := pd } : Shape α).construct).bind (fun s' => runShape s' l)

/-- Working invariant. -/
structure ShapeInv (s : Shape α) (f : ParamDict α → List α → α) (as : List (BinAxis α)) (ks : List Nat)
    (tns dn : List String) : Prop where
  fn : s.func = some f
  holds : Holds s.base.axes as
  trans : s.base.transObs = ObsSet.ofNames tns
  dist : s.base.distObs = ObsSet.ofNames dn
  sized : s.base.response.Sized
  rows : s.base.response.nRows = (shape as).prod
  cols : s.base.response.nCols = (shape as).prod
  off : ∀ i j, i ≠ j → s.base.response.arma.entry i j = 0
  cache : s.cached = false ∨ (Holds s.transAxes (subAxes as ks) ∧ s.distTrans =
    (List.range (shape as).prod).map (fun b => rowMajor (subShape (shape as) ks) (pick (shape as) ks b)))

theorem shape_cache {s : Shape α} {f : ParamDict α → List α → α} {as : List (BinAxis α)} {ks : List Nat}
    {tns dn : List String} (h : ShapeInv s f as ks tns dn) (hne : as ≠ []) (hk : ∀ k ∈ ks, k < as.length)
    (hkne : ks ≠ []) (hnd : ks.Nodup)
    (hrel : (ObsSet.ofNames tns).getRelativeIndices (ObsSet.ofNames dn) = .ok ks) :
    ∃ s', (if s.cached then pure s else s.cacheBinMapping) = Res.ok s' ∧ s'.base = s.base ∧ s'.func = s.func ∧
      s'.params = s.params ∧ (Holds s'.transAxes (subAxes as ks) ∧ s'.distTrans =
    (List.range (shape as).prod).map (fun b => rowMajor (subShape (shape as) ks) (pick (shape as) ks b))) := by
  cases hcv : s.cached with
  | true =>
    rcases h.cache with hc | hc
    · rw [hc] at hcv; cases hcv
    · exact ⟨s, rfl, rfl, rfl, rfl, hc⟩
  | false =>
    simp only [Bool.false_eq_true, if_false]
    unfold Shape.cacheBinMapping
    rw [h.trans, h.dist, hrel]
    simp only [Res.ok_bind]
    rw [addByIndex h.holds hk]
    obtain ⟨d, hd⟩ := addAxes_ok_of_nodup (subAxes_nodup h.holds.nodup hk hnd)
    rw [hd]
    simp only [Res.ok_bind]
    have hdh := holds_of_addAxes hd
    have hN := h.holds.total_ne hne
    rw [Res.traverse_ok (g := fun b => rowMajor (subShape (shape as) ks) (pick (shape as) ks b))]
    · refine ⟨_, rfl, rfl, rfl, rfl, hdh, ?_⟩
      simp only [hN]
    · intro b hb
      rw [List.mem_range, hN] at hb
      rw [traverse_pick h.holds hne hk hb]
      simp only [Res.ok_bind]
      rw [hdh.flatten (subAxes_ne hk hkne), subAxes_shape hk]
      rw [← (subAxes_eq hk).length_eq]; simp [pick]

theorem forall₂_mem_left {β γ : Type} {R : β → γ → Prop} {l : List β} {m : List γ} (h : List.Forall₂ R l m) {x : β}
    (hx : x ∈ l) : ∃ y, y ∈ m ∧ R x y := by
  induction h with
  | nil => cases hx
  | @cons a b l m h1 h2 ih =>
    rcases List.mem_cons.1 hx with rfl | hx
    · exact ⟨b, List.mem_cons_self, h1⟩
    · obtain ⟨y, h3, h4⟩ := ih hx; exact ⟨y, List.mem_cons_of_mem _ h3, h4⟩

theorem rel_ok {tns dn : List String} (hdn : dn.Nodup) (htn : tns.Nodup) (hsub : ∀ n ∈ tns, n ∈ dn) :
    ∃ ks, (ObsSet.ofNames tns).getRelativeIndices (ObsSet.ofNames dn) = .ok ks ∧ ks.Nodup ∧
      List.Forall₂ (fun k n => (ObsSet.ofNames dn).getIndex n = .ok k) ks tns ∧ (∀ k ∈ ks, k < dn.length) ∧
      List.Forall₂ (fun k n => dn[k]? = some n) ks tns := by
  have h2 := (C42_relative tns dn hdn).2.1
  have hlen : tns.length ≤ dn.length := (List.subperm_of_subset htn hsub).length_le
  obtain ⟨ks, h3, h4⟩ := h2 hlen hsub
  refine ⟨ks, h3, ?_, h4.imp (fun k n h => ((C42_index dn hdn n).1 k).2 h), ?_, h4⟩
  · clear h3 hlen h2 hsub
    induction h4 with
    | nil => exact List.nodup_nil
    | @cons k n ks tns g1 g2 ih =>
      rw [List.nodup_cons] at htn ⊢
      refine ⟨?_, ih htn.2⟩
      intro hmem
      clear ih
      have : n ∈ tns := by
        induction g2 with
        | nil => cases hmem
        | @cons k2 n2 ks2 tns2 e1 e2 ih2 =>
          rcases List.mem_cons.1 hmem with rfl | hm
          · rw [g1] at e1; cases e1; exact List.mem_cons_self
          · exact List.mem_cons_of_mem _ (ih2 ⟨fun hc => htn.1 (List.mem_cons_of_mem _ hc),
              (List.nodup_cons.1 htn.2).2⟩ hm)
      exact htn.1 this
  · intro k hk
    obtain ⟨n, _, hm⟩ := forall₂_mem_left h4 hk
    exact (List.getElem?_eq_some_iff.1 hm).1

theorem centresAlong_eq {c : AxisCollection α} {dn tns : List String} {ks : List Nat} (b : Nat)
    (h : List.Forall₂ (fun k n => (ObsSet.ofNames dn).getIndex n = .ok k) ks tns) :
    centresAlong c dn tns b = Res.traverse (fun k => c.getBinCentre b k) ks := by
  unfold centresAlong
  induction h with
  | nil => rfl
  | @cons k n ks tns h1 h2 ih => simp only [Res.traverse, h1, Res.ok_bind, ih]

/-- One `Construct`. -/
theorem shape_construct {s : Shape α} {f : ParamDict α → List α → α} {as : List (BinAxis α)} {ks : List Nat}
    {tns dn : List String} (h : ShapeInv s f as ks tns dn) (hne : as ≠ []) (hc : ∀ a ∈ as, a.Contiguous)
    (hk : ∀ k ∈ ks, k < as.length) (hkne : ks ≠ []) (hnd : ks.Nodup)
    (hrel : (ObsSet.ofNames tns).getRelativeIndices (ObsSet.ofNames dn) = .ok ks) :
    (∀ b xs, b < (shape as).prod → Res.traverse (fun k => s.base.axes.getBinCentre b k) ks = .ok xs →
      f s.params xs < 0 → s.construct = .throw .value) ∧
    ((∀ b xs, b < (shape as).prod → Res.traverse (fun k => s.base.axes.getBinCentre b k) ks = .ok xs →
        0 ≤ f s.params xs) →
      ∃ s', s.construct = .ok s' ∧ ShapeInv s' f as ks tns dn ∧ s'.base.axes = s.base.axes ∧
      ∀ b xs, b < (shape as).prod → Res.traverse (fun k => s.base.axes.getBinCentre b k) ks = .ok xs →
        s'.base.response.arma.entry b b = f s.params xs) := by
  have hN := h.holds.total_ne hne
  have hpos := shape_pos hc
  have hNpos : 0 < (shape as).prod := prod_pos_of hpos
  have hk' : ∀ k ∈ ks, k < (shape as).length := by intro k hkk; rw [shape_length]; exact hk k hkk
  obtain ⟨s1, e1, e2, e3, e4, e5, e6⟩ := shape_cache h hne hk hkne hnd hrel
  have hsubN : s1.transAxes.nBins = (subShape (shape as) ks).prod := by
    rw [e5.total_ne (subAxes_ne hk hkne), subAxes_shape hk]
  -- value of the shape function for each sub bin
  have hval : ∀ b, b < (shape as).prod → ∃ xs, Res.traverse (fun k => s.base.axes.getBinCentre b k) ks = .ok xs ∧
      s1.shapeVal f (rowMajor (subShape (shape as) ks) (pick (shape as) ks b)) =
        if f s.params xs < 0 then .throw .value else .ok (f s.params xs) := by
    intro b hb
    obtain ⟨xs, x1, x2⟩ := sub_binVec h.holds hne (fun a ha => (hc a ha).pos) hk hkne e5 BinAxis.getBinCentre
      (fun a i => a.centres.getD i 0) (fun a ha i hi => centre_ok (hc a ha) hi) hb
    refine ⟨xs, x2, ?_⟩
    unfold Shape.shapeVal AxisCollection.getBinCentres
    rw [x1]
    simp only [Res.ok_bind, e4, Res.pure_eq]
  have hsurj : ∀ q, q < (subShape (shape as) ks).prod → ∃ b, b < (shape as).prod ∧
      rowMajor (subShape (shape as) ks) (pick (shape as) ks b) = q := by
    intro q hq
    obtain ⟨b, h1, h2⟩ := pick_surj hpos hk' hnd (digits_inRange (subShape_pos hpos hk') q)
    exact ⟨b, h1, by rw [h2, rowMajor_digits hq]⟩
  have hstart : s.construct = (do
      let vals ← Res.traverse (s1.shapeVal f) (List.range s1.transAxes.nBins)
      let m ← Res.forFold (fun (m : Matrix' α) b => do
        let k ← at_ s1.distTrans b
        let v ← at_ vals k
        m.setComponent b b v) s1.base.response (List.range s1.base.axes.nBins)
      pure { s1 with base := { s1.base with response := m } }) := by
    unfold Shape.construct
    rw [h.fn]
    simp only
    rw [Res.throwIf_false_of (by omega)]
    simp only [Res.ok_bind]
    rw [e1]; rfl
  constructor
  · intro b xs hb hxs hneg
    rw [hstart]
    obtain ⟨xs', y1, y2⟩ := hval b hb
    rw [hxs] at y1; cases y1
    rw [if_pos hneg] at y2
    have hq := rowMajor_lt (pick_inRange_sub hpos hk' b)
    -- every sub bin gives a value or the exception
    have hall : ∀ q, q < (subShape (shape as) ks).prod → (∃ v, s1.shapeVal f q = .ok v) ∨ s1.shapeVal f q = .throw .value := by
      intro q hq
      obtain ⟨b', g1, rfl⟩ := hsurj q hq
      obtain ⟨zs, _, z2⟩ := hval b' g1
      rw [z2]
      split
      · exact Or.inr rfl
      · exact Or.inl ⟨_, rfl⟩
    have hthrow : ∀ (l : List Nat) (q : Nat), (∀ q ∈ l, q < (subShape (shape as) ks).prod) → q ∈ l →
        s1.shapeVal f q = .throw .value → Res.traverse (s1.shapeVal f) l = .throw .value := by
      intro l
      induction l with
      | nil => intro q _ hm; cases hm
      | cons x l ih =>
        intro q hl hm hqv
        rcases hall x (hl x List.mem_cons_self) with ⟨v, hv⟩ | hv
        · have hm' : q ∈ l := by
            rcases List.mem_cons.1 hm with rfl | hm
            · rw [hqv] at hv; cases hv
            · exact hm
          simp only [Res.traverse, hv, ih q (fun q hq => hl q (List.mem_cons_of_mem _ hq)) hm' hqv]
        · simp only [Res.traverse, hv]
    rw [hthrow _ _ (by intro q hq; rw [List.mem_range, hsubN] at hq; exact hq)
      (List.mem_range.2 (by rw [hsubN]; exact hq)) y2]
    rfl
  · intro hpos'
    rw [hstart]
    -- all values
    let gv : Nat → α := fun q => match s1.shapeVal f q with
      | .ok v => v
      | _ => 0
    have hgv : ∀ q, q < (subShape (shape as) ks).prod → s1.shapeVal f q = .ok (gv q) := by
      intro q hq
      obtain ⟨b', g1, rfl⟩ := hsurj q hq
      obtain ⟨zs, z1, z2⟩ := hval b' g1
      rw [if_neg (not_lt.2 (hpos' b' zs g1 z1))] at z2
      simp only [gv, z2]
    rw [hsubN, Res.traverse_ok (g := gv) (by intro q hq; exact hgv q (List.mem_range.1 hq))]
    simp only [Res.ok_bind]
    obtain ⟨m', hm, ⟨g1, g2, g3, g4⟩, g5, g6⟩ := Res.forFold_range (n := s1.base.axes.nBins) (s := s1.base.response)
      (f := fun (m : Matrix' α) b => do
        let k ← at_ s1.distTrans b
        let v ← at_ ((List.range (subShape (shape as) ks).prod).map gv) k
        m.setComponent b b v)
      (fun i (m' : Matrix' α) => (m'.nRows = (shape as).prod ∧ m'.nCols = (shape as).prod ∧
        m'.arma.rows = (shape as).prod ∧ m'.arma.cols = (shape as).prod) ∧
        (∀ p q, p ≠ q → m'.arma.entry p q = 0) ∧
        (∀ b, b < i → m'.arma.entry b b = gv (rowMajor (subShape (shape as) ks) (pick (shape as) ks b))))
      ⟨⟨by rw [e2]; exact h.rows, by rw [e2]; exact h.cols, by rw [e2, h.sized.1]; exact h.rows,
        by rw [e2, h.sized.2]; exact h.cols⟩, by rw [e2]; exact h.off, by intro b hb; omega⟩ (by
        rintro i m1 hi ⟨⟨g1, g2, g3, g4⟩, g5, g6⟩
        rw [e2, hN] at hi
        have hq := rowMajor_lt (pick_inRange_sub hpos hk' i)
        have a1 : at_ s1.distTrans i = .ok (rowMajor (subShape (shape as) ks) (pick (shape as) ks i)) := by
          rw [e6, at_ok, List.getElem?_map, List.getElem?_range hi]; rfl
        have a2 : at_ ((List.range (subShape (shape as) ks).prod).map gv)
            (rowMajor (subShape (shape as) ks) (pick (shape as) ks i)) =
            .ok (gv (rowMajor (subShape (shape as) ks) (pick (shape as) ks i))) := by
          rw [at_ok, List.getElem?_map, List.getElem?_range hq]; rfl
        rw [a1]; simp only [Res.ok_bind]; rw [a2]; simp only [Res.ok_bind]
        rw [Matrix'.setComponent_ok _ (by omega) (by omega) (by omega) (by omega)]
        refine ⟨_, rfl, ⟨g1, g2, g3, g4⟩, ?_, ?_⟩
        · intro p q hpq
          simp only
          rw [if_neg (by rintro ⟨rfl, rfl⟩; exact hpq rfl)]
          exact g5 p q hpq
        · intro b hb
          simp only
          by_cases hbi : b = i
          · subst hbi; simp
          · rw [if_neg (by tauto)]; exact g6 b (by omega))
    rw [hm]
    refine ⟨_, rfl, ⟨by simp [e3, h.fn], by simp [e2, h.holds], by simp [e2, h.trans], by simp [e2, h.dist],
      ⟨by rw [g3, g1], by rw [g4, g2]⟩, g1, g2, g5, Or.inr ⟨e5, e6⟩⟩, by simp [e2], ?_⟩
    intro b xs hb hxs
    simp only
    rw [g6 b (by rw [e2, hN]; exact hb)]
    obtain ⟨zs, z1, z2⟩ := hval b hb
    rw [hxs] at z1; cases z1
    rw [if_neg (not_lt.2 (hpos' b xs hb hxs))] at z2
    simp only [gv, z2]

theorem runShape_inv {f : ParamDict α → List α → α} {as : List (BinAxis α)} {ks : List Nat}
    {tns dn : List String} (hne : as ≠ []) (hc : ∀ a ∈ as, a.Contiguous)
    (hk : ∀ k ∈ ks, k < as.length) (hkne : ks ≠ []) (hnd : ks.Nodup)
    (hrel : (ObsSet.ofNames tns).getRelativeIndices (ObsSet.ofNames dn) = .ok ks) (l : List (ParamDict α))
    (s s' : Shape α) (h : ShapeInv s f as ks tns dn) (hr : runShape s l = .ok s') :
    ShapeInv s' f as ks tns dn ∧ s'.base.axes = s.base.axes := by
  induction l generalizing s with
  | nil => cases hr; exact ⟨h, rfl⟩
  | cons pd l ih =>
    have h' : ShapeInv ({ s with params := pd } : Shape α) f as ks tns dn :=
      ⟨h.fn, h.holds, h.trans, h.dist, h.sized, h.rows, h.cols, h.off, h.cache⟩
    obtain ⟨c1, c2⟩ := shape_construct h' hne hc hk hkne hnd hrel
    unfold runShape at hr
    by_cases hneg : ∃ b xs, b < (shape as).prod ∧
        Res.traverse (fun k => s.base.axes.getBinCentre b k) ks = .ok xs ∧ f pd xs < 0
    · obtain ⟨b, xs, x1, x2, x3⟩ := hneg
      rw [c1 b xs x1 x2 x3] at hr; cases hr
    · push Not at hneg
      obtain ⟨s1, y1, y2, y3, _⟩ := c2 (fun b xs x1 x2 => hneg b xs x1 x2)
      rw [y1] at hr
      obtain ⟨z1, z2⟩ := ih s1 y2 hr
      exact ⟨z1, by rw [z2, y3]⟩

/-- C23. A shape systematic acting on the observables `tns` (distinct, among the distribution's `dn`), on any axes, after
any number of earlier `Construct`s with other parameter values: `Construct` with parameters `pd` throws `ValueError` if
the function is negative at the centre of some bin; otherwise it succeeds and the response is diagonal, entry `(b, b)`
being the function at the centre of bin `b` (on the observables listed, in their order), so that applying it to a
distribution over the same axes multiplies bin `b` by that value. -/
theorem C23_shape (as : List (BinAxis α)) (c : AxisCollection α)
    (hbuild : (empty : AxisCollection α).addAxes as = .ok c) (hne : as ≠ []) (hc : ∀ a ∈ as, a.Contiguous)
    (f : ParamDict α → List α → α) (pnames tns dn : List String) (hdn : dn.Nodup) (hlen : dn.length = as.length)
    (htn : tns.Nodup) (htne : tns ≠ []) (hsub : ∀ n ∈ tns, n ∈ dn)
    (hist : List (ParamDict α)) (s : Shape α) (hrun : runShape (freshShape f pnames tns dn c) hist = .ok s)
    (pd : ParamDict α) :
    (∀ b, b < c.nBins → ∃ xs, centresAlong c dn tns b = .ok xs) ∧
    ((∃ b xs, b < c.nBins ∧ centresAlong c dn tns b = .ok xs ∧ f pd xs < 0) →
      ({ s with params := pd } : Shape α).construct = .throw .value) ∧
    ((∀ b xs, b < c.nBins → centresAlong c dn tns b = .ok xs → 0 ≤ f pd xs) →
      ∃ s', ({ s with params := pd } : Shape α).construct = .ok s' ∧
        (∀ b b' xs, b < c.nBins → b' < c.nBins → centresAlong c dn tns b = .ok xs →
          s'.base.response.getComponent b' b = .ok (if b' = b then f pd xs else 0)) ∧
        ∀ pdf : BinnedED α, pdf.hist.Valid as → ∃ p norm, s'.base.apply pdf true = .ok (p, some norm) ∧
          ∀ b x xs, pdf.hist.getBinContent b = .ok x → centresAlong c dn tns b = .ok xs → b < c.nBins →
            p.hist.getBinContent b = .ok (f pd xs * x)) := by
  have hh := holds_of_addAxes hbuild
  have hN := hh.total_ne hne
  obtain ⟨ks, hrel, hnd, hidx, hklt, _⟩ := rel_ok hdn htn hsub
  have hk : ∀ k ∈ ks, k < as.length := fun k hkk => by rw [← hlen]; exact hklt k hkk
  have hkne : ks ≠ [] := by
    rintro rfl
    cases hidx; exact htne rfl
  have h0 : ShapeInv (freshShape f pnames tns dn c) f as ks tns dn :=
    ⟨rfl, hh, rfl, rfl, ⟨rfl, rfl⟩, hN, hN, by intros; rfl, Or.inl rfl⟩
  obtain ⟨hinv, hax⟩ := runShape_inv hne hc hk hkne hnd hrel hist _ s h0 hrun
  have hax' : s.base.axes = c := hax
  have hcen : ∀ b, centresAlong c dn tns b = Res.traverse (fun k => s.base.axes.getBinCentre b k) ks := by
    intro b; rw [hax']; exact centresAlong_eq b hidx
  have h' : ShapeInv ({ s with params := pd } : Shape α) f as ks tns dn :=
    ⟨hinv.fn, hinv.holds, hinv.trans, hinv.dist, hinv.sized, hinv.rows, hinv.cols, hinv.off, hinv.cache⟩
  obtain ⟨c1, c2⟩ := shape_construct h' hne hc hk hkne hnd hrel
  have hex : ∀ b, b < c.nBins → ∃ xs, centresAlong c dn tns b = .ok xs := by
    intro b hb
    rw [hN] at hb
    obtain ⟨d, hd⟩ := addAxes_ok_of_nodup (subAxes_nodup hh.nodup hk hnd)
    obtain ⟨xs, _, x2⟩ := sub_binVec hh hne (fun a ha => (hc a ha).pos) hk hkne (holds_of_addAxes hd) BinAxis.getBinCentre
      (fun a i => a.centres.getD i 0) (fun a ha i hi => centre_ok (hc a ha) hi) hb
    exact ⟨xs, by rw [hcen, hax']; exact x2⟩
  refine ⟨hex, ?_, ?_⟩
  · rintro ⟨b, xs, hb, hxs, hneg⟩
    exact c1 b xs (by rw [← hN]; exact hb) (by rw [← hcen]; exact hxs) hneg
  · intro hp
    obtain ⟨s', y1, y2, y3, y4⟩ := c2 (fun b xs hb hxs => hp b xs (by rw [hN]; exact hb) (by rw [hcen]; exact hxs))
    have hcomp : ∀ b b' xs, b < c.nBins → b' < c.nBins → centresAlong c dn tns b = .ok xs →
          s'.base.response.getComponent b' b = .ok (if b' = b then f pd xs else 0) := by
      intro b b' xs hb hb' hxs
      rw [Matrix'.get_ok y2.sized (by rw [y2.rows, ← hN]; exact hb') (by rw [y2.cols, ← hN]; exact hb)]
      by_cases hbb : b' = b
      · subst hbb
        rw [y4 b' xs (by rw [← hN]; exact hb) (by rw [← hcen]; exact hxs)]; simp
      · rw [y2.off b' b hbb, if_neg hbb]
    refine ⟨s', y1, hcomp, ?_⟩
    intro pdf hv
    have hnb : pdf.hist.nBins = c.nBins := by rw [hv.nb, hN]
    obtain ⟨p, z1, _, _, _, _, _, z2⟩ := ((C21_apply_partial s'.base as pdf hv y2.sized (by rw [y2.rows, y2.cols])).2
      (by rw [y2.cols, hv.nb])).1
    refine ⟨p, _, z1, ?_⟩
    intro b x xs hx hxs hb
    rw [z2 b (by rw [hnb]; exact hb)]
    congr 1
    unfold responseTimes
    rw [list_sum_range, hnb, Finset.sum_eq_single b]
    · rw [content_of_ok hx]
      unfold Matrix'.comp
      rw [hcomp b b xs hb hb hxs]; simp
    · intro j hj hjb
      obtain ⟨zs, hzs⟩ := hex j (Finset.mem_range.1 hj)
      unfold Matrix'.comp
      rw [hcomp j b zs (Finset.mem_range.1 hj) hb hzs, if_neg (Ne.symm hjb)]
      simp
    · intro h; exact absurd (Finset.mem_range.2 hb) h

/-- Non-vacuity: a shape linear in the last observable on the 2×3×2 grid; bin 1 has centre 3/2 there. -/
def exShapeF : ParamDict ℚ → List ℚ → ℚ := fun pd xs => (SMap.find pd "slope").getD 0 * xs.headD 0

example : (runShape (freshShape exShapeF ["slope"] ["t"] ["e", "r", "t"] exColl) [[("slope", 1)], [("slope", 2)]] >>=
      fun s => s.base.response.getComponent 1 1) = .ok 3 ∧
    (runShape (freshShape exShapeF ["slope"] ["t"] ["e", "r", "t"] exColl) [[("slope", -1)]] >>=
      fun s => s.base.response.getComponent 1 1) = .throw .value ∧
    centresAlong exColl ["e", "r", "t"] ["t"] 1 = .ok [3/2] := by decide +kernel

/-- C23: without a function or without axes, `LogicError`. -/
theorem C23_unset (s : Shape α) : (s.func = none → s.construct = .throw .logic) ∧
    (s.base.axes.nBins = 0 → s.construct = .throw .logic) := by
  unfold Shape.construct
  constructor
  · intro h; rw [h]
  · intro h
    cases s.func with
    | none => rfl
    | some f => simp only; rw [Res.throwIf_true_of h]; rfl

end Oxsx
