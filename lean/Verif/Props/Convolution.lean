import Verif.Model.Convolution
import Verif.Props.Shape
/-
Property C24 (convolution).
-/
set_option linter.unusedSectionVars false
set_option linter.unusedSimpArgs false
set_option linter.unusedVariables false
namespace Oxsx
open AxisCollection Convolution
variable {α : Type} [Field α] [LinearOrder α] [IsStrictOrderedRing α]

/-! ### Combinatorics of the block numbering -/

/-- Axes not in `ks`. -/
def others (n : Nat) (ks : List Nat) : List Nat := (List.range n).filter (fun d => decide (d ∉ ks))

theorem others_lt {n : Nat} {ks : List Nat} : ∀ k ∈ others n ks, k < n := by
  intro k hk; simp only [others, List.mem_filter, List.mem_range] at hk; exact hk.1

theorem others_nodup (n : Nat) (ks : List Nat) : (others n ks).Nodup := List.nodup_range.filter _

theorem ks_others_perm {n : Nat} {ks : List Nat} (hk : ∀ k ∈ ks, k < n) (hnd : ks.Nodup) :
    (ks ++ others n ks).Perm (List.range n) := by
  rw [List.perm_ext_iff_of_nodup]
  · intro d
    simp only [List.mem_append, others, List.mem_filter, List.mem_range, decide_eq_true_eq]
    constructor
    · rintro (h | h)
      · exact hk d h
      · exact h.1
    · intro h
      by_cases hd : d ∈ ks
      · exact Or.inl hd
      · exact Or.inr ⟨h, hd⟩
  · rw [List.nodup_append]
    refine ⟨hnd, others_nodup n ks, ?_⟩
    rintro a ha b hb rfl
    simp only [others, List.mem_filter, decide_eq_true_eq] at hb
    exact hb.2 ha
  · exact List.nodup_range

theorem subShape_range (ns : List Nat) : subShape ns (List.range ns.length) = ns := by
  unfold subShape
  apply List.ext_getElem?
  intro i
  by_cases hi : i < ns.length
  · rw [List.getElem?_map, List.getElem?_range hi]; simp [List.getD_eq_getElem?_getD, hi]
  · rw [List.getElem?_eq_none (by simp; omega), List.getElem?_eq_none (by omega)]

theorem prod_split {ns ks : List Nat} (hk : ∀ k ∈ ks, k < ns.length) (hnd : ks.Nodup) :
    (subShape ns ks).prod * (subShape ns (others ns.length ks)).prod = ns.prod := by
  rw [← List.prod_append]
  have h1 : subShape ns ks ++ subShape ns (others ns.length ks) = subShape ns (ks ++ others ns.length ks) := by
    simp [subShape]
  rw [h1]
  have h2 : (subShape ns (ks ++ others ns.length ks)).Perm (subShape ns (List.range ns.length)) :=
    (ks_others_perm hk hnd).map _
  rw [h2.prod_eq, subShape_range]

/-- The number of cell `b` when the axes `ks` vary fastest. -/
def block (ns ks : List Nat) (b : Nat) : Nat :=
  rowMajor (subShape ns ks) (pick ns ks b) +
    rowMajor (subShape ns (others ns.length ks)) (pick ns (others ns.length ks) b) * (subShape ns ks).prod

section
variable {ns ks : List Nat}

theorem block_div (hpos : ∀ n ∈ ns, 0 < n) (hk : ∀ k ∈ ks, k < ns.length) (b : Nat) :
    block ns ks b % (subShape ns ks).prod = rowMajor (subShape ns ks) (pick ns ks b) ∧
    block ns ks b / (subShape ns ks).prod =
      rowMajor (subShape ns (others ns.length ks)) (pick ns (others ns.length ks) b) := by
  have h1 := rowMajor_lt (pick_inRange_sub hpos hk b)
  unfold block
  rw [Nat.add_mul_mod_self_right, Nat.mod_eq_of_lt h1, Nat.add_mul_div_right _ _ (by omega), Nat.div_eq_of_lt h1]
  simp

theorem block_lt (hpos : ∀ n ∈ ns, 0 < n) (hk : ∀ k ∈ ks, k < ns.length) (hnd : ks.Nodup) (b : Nat) :
    block ns ks b < ns.prod := by
  have h1 := rowMajor_lt (pick_inRange_sub hpos hk b)
  have h2 := rowMajor_lt (pick_inRange_sub hpos (others_lt (ks := ks)) b)
  rw [← prod_split hk hnd]
  unfold block
  nlinarith

theorem pick_eq_of_rowMajor (hpos : ∀ n ∈ ns, 0 < n) (hk : ∀ k ∈ ks, k < ns.length) {b b' : Nat}
    (h : rowMajor (subShape ns ks) (pick ns ks b) = rowMajor (subShape ns ks) (pick ns ks b')) :
    pick ns ks b = pick ns ks b' :=
  rowMajor_inj (pick_inRange_sub hpos hk b) (pick_inRange_sub hpos hk b') h

theorem block_inj (hpos : ∀ n ∈ ns, 0 < n) (hk : ∀ k ∈ ks, k < ns.length) {b b' : Nat} (hb : b < ns.prod)
    (hb' : b' < ns.prod) (h : block ns ks b = block ns ks b') : b = b' := by
  obtain ⟨e1, e2⟩ := block_div hpos hk b
  obtain ⟨f1, f2⟩ := block_div hpos hk b'
  rw [h] at e1 e2
  have g1 := pick_eq_of_rowMajor hpos hk (e1.symm.trans f1)
  have g2 := pick_eq_of_rowMajor hpos (others_lt (ks := ks)) (e2.symm.trans f2)
  refine pick_ext (ks := ks) (ls := others ns.length ks) ?_ hb hb' g1 g2
  intro d hd
  by_cases h : d ∈ ks
  · exact Or.inl h
  · exact Or.inr (by simp [others, hd, h])

theorem block_surj (hpos : ∀ n ∈ ns, 0 < n) (hk : ∀ k ∈ ks, k < ns.length) (hnd : ks.Nodup) {q : Nat}
    (hq : q < ns.prod) : ∃ b, b < ns.prod ∧ block ns ks b = q := by
  -- an injective map of a finite set to itself
  have hinj : Function.Injective (fun b : Fin ns.prod => (⟨block ns ks b.1, block_lt hpos hk hnd b.1⟩ : Fin ns.prod)) := by
    intro x y h
    exact Fin.ext (block_inj hpos hk x.2 y.2 (Fin.mk.inj_iff.1 h))
  obtain ⟨b, hb⟩ := (Finite.injective_iff_surjective.1 hinj) ⟨q, hq⟩
  exact ⟨b.1, b.2, (Fin.mk.inj_iff.1 hb)⟩

theorem increasing_filter (hk : ∀ k ∈ ks, k < ns.length) (hs : ks.Pairwise (· < ·)) :
    (List.range ns.length).filter (fun d => decide (d ∈ ks)) = ks := by
  have hp : ((List.range ns.length).filter (fun d => decide (d ∈ ks))).Perm ks := by
    rw [List.perm_ext_iff_of_nodup (List.nodup_range.filter _) (hs.imp (fun h => ne_of_lt h))]
    intro d
    simp only [List.mem_filter, List.mem_range, decide_eq_true_eq]
    exact ⟨fun h => h.2, fun h => ⟨hk d h, h⟩⟩
  exact hp.eq_of_pairwise (fun a b _ _ h1 h2 => absurd (lt_trans h1 h2) (lt_irrefl _))
    ((List.pairwise_lt_range).filter _) hs

/-- All axes, in order: nothing to permute. -/
theorem block_all (hpos : ∀ n ∈ ns, 0 < n) (hk : ∀ k ∈ ks, k < ns.length) (hs : ks.Pairwise (· < ·))
    (hl : ks.length = ns.length) {b : Nat} (hb : b < ns.prod) : block ns ks b = b := by
  have hr : ks = List.range ns.length := by
    rw [← increasing_filter hk hs]
    apply List.Sublist.eq_of_length List.filter_sublist
    rw [increasing_filter hk hs, hl, List.length_range]
  have ho : others ns.length ks = [] := by
    rw [hr]; unfold others
    rw [List.filter_eq_nil_iff]
    intro a ha; simp [List.mem_range.1 ha]
  unfold block
  rw [ho, hr, subShape_range]
  have : pick ns (List.range ns.length) b = digits ns b := by
    unfold pick
    apply List.ext_getElem?
    intro i
    by_cases hi : i < ns.length
    · rw [List.getElem?_map, List.getElem?_range hi, List.getElem?_eq_getElem (by rw [digits_length]; exact hi)]
      simp [List.getD_eq_getElem?_getD, hi]
    · rw [List.getElem?_eq_none (by simp; omega), List.getElem?_eq_none (by rw [digits_length]; omega)]
  rw [this, rowMajor_digits hb]
  simp [subShape, pick, rowMajor]
end

/-! ### The cached permutation -/

/-- Working invariant: the cache is right for these axes. -/
structure ConvCache (s : Convolution α) (as : List (BinAxis α)) (ks : List Nat) : Prop where
  sub : Holds s.subAxes (subAxes as ks)
  len : s.perms.length = (shape as).prod
  perm : ∀ b, b < (shape as).prod → s.perms[block (shape as) ks b]? = some b

structure ConvInv (s : Convolution α) (k : List α → List α → List α → α) (as : List (BinAxis α)) (ks : List Nat)
    (tns dn : List String) : Prop where
  kern : s.kernel = some k
  holds : Holds s.base.axes as
  trans : s.base.transObs = ObsSet.ofNames tns
  dist : s.base.distObs = ObsSet.ofNames dn
  cache : (s.cached = false) ∨ ConvCache s as ks

theorem subCollection_ok {c : AxisCollection α} {as : List (BinAxis α)} (h : Holds c as) {ks : List Nat}
    (hk : ∀ k ∈ ks, k < as.length) (hnd : ks.Nodup) : ∃ d, subCollection c ks = .ok d ∧ Holds d (subAxes as ks) := by
  unfold subCollection
  rw [addByIndex h hk]
  obtain ⟨d, hd⟩ := addAxes_ok_of_nodup (subAxes_nodup h.nodup hk hnd)
  exact ⟨d, hd, holds_of_addAxes hd⟩

theorem traverse_at_pick {ns ks : List Nat} (hk : ∀ k ∈ ks, k < ns.length) (b : Nat) :
    Res.traverse (at_ (digits ns b)) ks = .ok (pick ns ks b) := by
  unfold pick
  apply Res.traverse_ok
  intro k hkk
  have : k < (digits ns b).length := by rw [digits_length]; exact hk k hkk
  rw [at_ok, List.getD_eq_getElem?_getD, List.getElem?_eq_getElem this]; rfl

theorem blockedIndex_ok {c sub notSub : AxisCollection α} {as : List (BinAxis α)} {ks : List Nat} (h : Holds c as)
    (hne : as ≠ []) (hpos : ∀ n ∈ shape as, 0 < n) (hk : ∀ k ∈ ks, k < as.length) (hs : ks.Pairwise (· < ·))
    (hkne : ks ≠ []) (hsub : Holds sub (subAxes as ks)) (hnot : Holds notSub (subAxes as (others as.length ks)))
    {b : Nat} (hb : b < (shape as).prod) : blockedIndex c sub notSub ks b = .ok (block (shape as) ks b) := by
  have hk' : ∀ k ∈ ks, k < (shape as).length := by intro k hkk; rw [shape_length]; exact hk k hkk
  unfold blockedIndex
  by_cases hl : ks.length = c.nDims
  · rw [if_pos hl, block_all hpos hk' hs (by rw [hl, h.dims, shape_length]) hb]
  · rw [if_neg hl, h.unpack hne hb]
    simp only [Res.ok_bind]
    have e1 := increasing_filter (ns := shape as) hk' hs
    rw [shape_length] at e1
    rw [h.dims, e1]
    have e2 : (List.range as.length).filter (fun d => decide (d ∉ ks)) = others as.length ks := rfl
    rw [e2, traverse_at_pick hk']
    simp only [Res.ok_bind]
    have hol : ∀ k ∈ others as.length ks, k < as.length := others_lt
    have hol' : ∀ k ∈ others as.length ks, k < (shape as).length := by
      intro k hkk; rw [shape_length]; exact hol k hkk
    rw [traverse_at_pick hol']
    simp only [Res.ok_bind]
    have hone : others as.length ks ≠ [] := by
      intro hc
      apply hl
      have hp := (ks_others_perm hk (hs.imp (fun h => ne_of_lt h))).length_eq
      rw [hc] at hp
      rw [h.dims]; simpa using hp
    rw [hsub.flatten (subAxes_ne hk hkne) (by rw [← (subAxes_eq hk).length_eq]; simp [pick]), subAxes_shape hk]
    simp only [Res.ok_bind]
    rw [hnot.flatten (subAxes_ne hol hone) (by rw [← (subAxes_eq hol).length_eq]; simp [pick]), subAxes_shape hol]
    simp only [Res.ok_bind, Res.pure_eq]
    rw [hsub.total_ne (subAxes_ne hk hkne), subAxes_shape hk]
    unfold block
    rw [shape_length]

theorem conv_cache {s : Convolution α} {k : List α → List α → List α → α} {as : List (BinAxis α)} {ks : List Nat}
    {tns dn : List String} (h : ConvInv s k as ks tns dn) (hne : as ≠ []) (hpos : ∀ n ∈ shape as, 0 < n)
    (hk : ∀ k ∈ ks, k < as.length) (hkne : ks ≠ []) (hs : ks.Pairwise (· < ·)) (hdl : dn.length = as.length)
    (hrel : (ObsSet.ofNames tns).getRelativeIndices (ObsSet.ofNames dn) = .ok ks) :
    ∃ s', (if s.cached then pure s else s.cacheIndexPermutations) = Res.ok s' ∧ s'.base = s.base ∧
      s'.kernel = s.kernel ∧ ConvCache s' as ks := by
  have hnd : ks.Nodup := hs.imp (fun h => ne_of_lt h)
  have hk' : ∀ k ∈ ks, k < (shape as).length := by intro k hkk; rw [shape_length]; exact hk k hkk
  cases hcv : s.cached with
  | true =>
    rcases h.cache with hc | hc
    · rw [hc] at hcv; cases hcv
    · exact ⟨s, rfl, rfl, rfl, hc⟩
  | false =>
    simp only [Bool.false_eq_true, if_false]
    unfold cacheIndexPermutations
    rw [h.trans, h.dist, hrel]
    simp only [Res.ok_bind]
    obtain ⟨d, hd1, hd2⟩ := subCollection_ok h.holds hk hnd
    rw [hd1]
    simp only [Res.ok_bind]
    have e2 : (List.range (ObsSet.ofNames dn).names.length).filter (fun d => decide (d ∉ ks)) = others as.length ks := by
      unfold others; rw [← hdl]; rfl
    rw [e2]
    obtain ⟨d', hd1', hd2'⟩ := subCollection_ok h.holds (ks := others as.length ks) others_lt (others_nodup _ _)
    rw [hd1']
    simp only [Res.ok_bind]
    have hN := h.holds.total_ne hne
    obtain ⟨p, hp, g1, g2⟩ := Res.forFold_range (n := s.base.axes.nBins) (s := resize s.perms s.base.axes.nBins 0)
      (f := permStep s.base.axes d d' ks)
      (fun i (p : List Nat) => p.length = (shape as).prod ∧ ∀ b, b < i → p[block (shape as) ks b]? = some b)
      ⟨by rw [resize_length, hN], by intro b hb; omega⟩ (by
        rintro i p hi ⟨g1, g2⟩
        rw [hN] at hi
        have hbl := block_lt hpos hk' hnd i
        refine ⟨p.set (block (shape as) ks i) i, ?_, by simpa using g1, ?_⟩
        · unfold permStep
          rw [blockedIndex_ok h.holds hne hpos hk hs hkne hd2 hd2' hi]
          simp only [Res.ok_bind]
          rw [if_pos (by omega)]; rfl
        · intro b hb
          by_cases hbi : b = i
          · subst hbi; rw [List.getElem?_set_self (by omega)]
          · rw [List.getElem?_set_ne]
            · exact g2 b (by omega)
            · intro hc
              exact hbi (block_inj hpos hk' (by omega) (by omega) hc.symm))
    rw [hp]
    exact ⟨_, rfl, rfl, rfl, ⟨hd2, g1, fun b hb => g2 b (by rw [hN]; exact hb)⟩⟩

theorem mem_of_nodup_lookup {β γ : Type} [DecidableEq β] [BEq β] [LawfulBEq β] (l : List (β × γ)) (hnd : (l.map (·.1)).Nodup)
    (x : β) (v : γ) : l.lookup x = some v ↔ (x, v) ∈ l := by
  induction l with
  | nil => simp
  | cons p l ih =>
    obtain ⟨y, w⟩ := p
    simp only [List.map_cons, List.nodup_cons] at hnd
    simp only [List.lookup_cons]
    by_cases h : x = y
    · subst h
      simp only [BEq.rfl, Option.some.injEq, List.mem_cons, Prod.mk.injEq, true_and]
      constructor
      · rintro rfl; exact Or.inl rfl
      · rintro (rfl | hm)
        · rfl
        · exact absurd (List.mem_map.2 ⟨(x, v), hm, rfl⟩) hnd.1
    · have : (x == y) = false := by simpa using h
      simp only [this, ih hnd.2, List.mem_cons, Prod.mk.injEq, h, false_and, false_or]

theorem lookup_none_of {β γ : Type} [DecidableEq β] [BEq β] [LawfulBEq β] (l : List (β × γ)) (x : β)
    (h : ∀ v, (x, v) ∉ l) : l.lookup x = none := by
  rw [List.lookup_eq_none_iff]
  intro p hp
  by_contra hc
  have : x = p.1 := by simpa using hc
  exact h p.2 (this ▸ hp)

/-- The full matrix. -/
theorem makeFull_ok {s : Convolution α} {as : List (BinAxis α)} {ks : List Nat} (hN : s.base.axes.nBins = (shape as).prod)
    (hpos : ∀ n ∈ shape as, 0 < n) (hk : ∀ k ∈ ks, k < as.length) (hkne : ks ≠ []) (hnd : ks.Nodup)
    (hc : ConvCache s as ks) (tri : List (Nat × Nat × α)) (K : Nat → Nat → α)
    (htri : ∀ o d v, (o, d, v) ∈ tri ↔ o < (subShape (shape as) ks).prod ∧ d < (subShape (shape as) ks).prod ∧
      v = K d o ∧ 0 < v) (htn : (tri.map (fun t => (t.1, t.2.1))).Nodup) :
    ∃ m, s.makeFull tri = .ok m ∧ m.nRows = (shape as).prod ∧ m.nCols = (shape as).prod ∧ m.Sized ∧
      ∀ i j, i < (shape as).prod → j < (shape as).prod → m.arma.entry i j =
        if pick (shape as) (others as.length ks) i = pick (shape as) (others as.length ks) j then
          max 0 (K (rowMajor (subShape (shape as) ks) (pick (shape as) ks i))
            (rowMajor (subShape (shape as) ks) (pick (shape as) ks j))) else 0 := by
  have hk' : ∀ k ∈ ks, k < (shape as).length := by intro k hkk; rw [shape_length]; exact hk k hkk
  have hS : s.subAxes.nBins = (subShape (shape as) ks).prod := by
    rw [hc.sub.total_ne (subAxes_ne hk hkne), subAxes_shape hk]
  have hSpos : 0 < (subShape (shape as) ks).prod := prod_pos_of (subShape_pos hpos hk')
  have hsplit := prod_split hk' hnd
  set S := (subShape (shape as) ks).prod with hSdef
  set M := (subShape (shape as) (others (shape as).length ks)).prod with hMdef
  have hblocks : s.base.axes.nBins / s.subAxes.nBins = M := by
    rw [hN, hS, ← hsplit, Nat.mul_div_cancel_left _ hSpos]
  -- inverse of the block numbering
  let inv : Nat → Nat := fun q => s.perms.getD q 0
  have hinv : ∀ b, b < (shape as).prod → inv (block (shape as) ks b) = b := by
    intro b hb; simp only [inv, List.getD_eq_getElem?_getD, hc.perm b hb, Option.getD_some]
  have hbi : ∀ q, q < (shape as).prod → inv q < (shape as).prod ∧ block (shape as) ks (inv q) = q := by
    intro q hq
    obtain ⟨b, h1, h2⟩ := block_surj hpos hk' hnd hq
    rw [← h2, hinv b h1]; exact ⟨h1, rfl⟩
  have hbound : ∀ x blk, x < S → blk < M → x + blk * S < (shape as).prod := by
    intro x blk hx hb; rw [← hsplit]; nlinarith
  unfold makeFull
  rw [if_neg (by omega)]
  let es : Nat → List (Nat × Nat × α) := fun blk => tri.map (fun t => (inv (t.2.1 + blk * S), inv (t.1 + blk * S), t.2.2))
  have hes : Res.traverse (fun blk => Res.traverse (fun (t : Nat × Nat × α) => do
      let col ← at_ s.perms (t.1 + blk * s.subAxes.nBins)
      let row ← at_ s.perms (t.2.1 + blk * s.subAxes.nBins)
      pure (row, col, t.2.2)) tri) (List.range (s.base.axes.nBins / s.subAxes.nBins)) = .ok ((List.range M).map es) := by
    rw [hblocks, hS]
    apply Res.traverse_ok
    intro blk hblk
    rw [List.mem_range] at hblk
    apply Res.traverse_ok
    rintro ⟨o, d, v⟩ ht
    obtain ⟨t1, t2, t3, t4⟩ := (htri o d v).1 ht
    have l1 := hbound o blk t1 hblk
    have l2 := hbound d blk t2 hblk
    rw [← hc.len] at l1 l2
    simp only
    rw [at_of_lt l1, at_of_lt l2]
    simp only [Res.ok_bind, Res.pure_eq, inv, List.getD_eq_getElem?_getD, List.getElem?_eq_getElem l1,
      List.getElem?_eq_getElem l2, Option.getD_some]
  rw [hes]
  simp only [Res.ok_bind]
  set E := ((List.range M).map es).flatten with hE
  have hmemE : ∀ r c v, (r, c, v) ∈ E ↔ ∃ blk o d, blk < M ∧ (o, d, v) ∈ tri ∧ r = inv (d + blk * S) ∧
      c = inv (o + blk * S) := by
    intro r c v
    simp only [hE, List.mem_flatten, List.mem_map, List.mem_range, es]
    constructor
    · rintro ⟨l, ⟨blk, hb, rfl⟩, hm⟩
      obtain ⟨⟨o, d, w⟩, ht, he⟩ := List.mem_map.1 hm
      simp only [Prod.mk.injEq] at he
      obtain ⟨rfl, rfl, rfl⟩ := he
      exact ⟨blk, o, d, hb, ht, rfl, rfl⟩
    · rintro ⟨blk, o, d, hb, ht, rfl, rfl⟩
      exact ⟨_, ⟨blk, hb, rfl⟩, List.mem_map.2 ⟨(o, d, v), ht, rfl⟩⟩
  have hzip : (E.map (·.1)).zip (E.map (·.2.1)) = E.map (fun t => (t.1, t.2.1)) := by
    rw [List.zip_map', ]
  have hinvinj : ∀ p q, p < (shape as).prod → q < (shape as).prod → inv p = inv q → p = q := by
    intro p q hp hq h
    rw [← (hbi p hp).2, ← (hbi q hq).2, h]
  have hdm : ∀ x y b b', x < S → y < S → x + b * S = y + b' * S → x = y ∧ b = b' := by
    intro x y b b' hx hy h
    have h1 := congrArg (· % S) h
    have h2 := congrArg (· / S) h
    simp only [Nat.add_mul_mod_self_right, Nat.mod_eq_of_lt hx, Nat.mod_eq_of_lt hy] at h1
    simp only [Nat.add_mul_div_right _ _ hSpos, Nat.div_eq_of_lt hx, Nat.div_eq_of_lt hy, Nat.zero_add] at h2
    exact ⟨h1, h2⟩
  have hnodup : (E.map (fun t => (t.1, t.2.1))).Nodup := by
    rw [hE, List.map_flatten, List.nodup_flatten]
    constructor
    · intro l hl
      simp only [List.mem_map, List.mem_range] at hl
      obtain ⟨l', ⟨blk, hb, rfl⟩, rfl⟩ := hl
      simp only [es, List.map_map]
      have : (List.map ((fun t : Nat × Nat × α => (t.1, t.2.1)) ∘ fun t => (inv (t.2.1 + blk * S), inv (t.1 + blk * S), t.2.2)) tri)
          = (tri.map (fun t => (t.1, t.2.1))).map (fun p => (inv (p.2 + blk * S), inv (p.1 + blk * S))) := by
        rw [List.map_map]; rfl
      rw [this]
      apply List.Nodup.map_on _ htn
      rintro ⟨o, d⟩ h1 ⟨o', d'⟩ h2 he
      obtain ⟨⟨o1, d1, v⟩, m1, e1⟩ := List.mem_map.1 h1
      obtain ⟨⟨o2, d2, v'⟩, m2, e2⟩ := List.mem_map.1 h2
      simp only [Prod.mk.injEq] at e1 e2
      obtain ⟨rfl, rfl⟩ := e1
      obtain ⟨rfl, rfl⟩ := e2
      obtain ⟨t1, t2, _⟩ := (htri _ _ _).1 m1
      obtain ⟨u1, u2, _⟩ := (htri _ _ _).1 m2
      simp only [Prod.mk.injEq] at he
      have f1 := hinvinj _ _ (hbound d1 blk t2 hb) (hbound d2 blk u2 hb) he.1
      have f2 := hinvinj _ _ (hbound o1 blk t1 hb) (hbound o2 blk u1 hb) he.2
      have g1 := (hdm _ _ _ _ t2 u2 f1).1
      have g2 := (hdm _ _ _ _ t1 u1 f2).1
      rw [g1, g2]
    · rw [List.pairwise_map, List.pairwise_map]
      apply List.Pairwise.imp_of_mem _ (List.nodup_range (n := M))
      intro blk blk' hb hb' hne
      rw [List.mem_range] at hb hb'
      rw [List.disjoint_left]
      rintro ⟨r, c⟩ h1 h2
      simp only [es, List.mem_map] at h1 h2
      obtain ⟨_, ⟨⟨o, d, v⟩, m1, rfl⟩, e1⟩ := h1
      obtain ⟨_, ⟨⟨o', d', v'⟩, m2, rfl⟩, e2⟩ := h2
      obtain ⟨t1, t2, _⟩ := (htri _ _ _).1 m1
      obtain ⟨u1, u2, _⟩ := (htri _ _ _).1 m2
      simp only [Prod.mk.injEq] at e1 e2
      have f1 := hinvinj _ _ (hbound d blk t2 hb) (hbound d' blk' u2 hb') (e1.1.trans e2.1.symm)
      exact hne (hdm _ _ _ _ t2 u2 f1).2
  refine ⟨⟨(shape as).prod, (shape as).prod, ⟨(shape as).prod, (shape as).prod, fun i j =>
    match (((E.map (·.1)).zip (E.map (·.2.1))).zip (E.map (·.2.2))).lookup (i, j) with
    | some v => v
    | none => 0⟩⟩, ?_, rfl, rfl, ⟨rfl, rfl⟩, ?_⟩
  · unfold Matrix'.setComponents
    rw [if_neg (by simp), if_neg (by rw [hzip]; simpa using hnodup)]
    simp only [Matrix'.mk', hN]
    rfl
  · intro i j hi hj
    simp only
    rw [hzip]
    have hz2 : (E.map (fun t => (t.1, t.2.1))).zip (E.map (·.2.2)) = E.map (fun t => ((t.1, t.2.1), t.2.2)) := by
      rw [List.zip_map']
    rw [hz2]
    have hkeys : ((E.map (fun t => ((t.1, t.2.1), t.2.2))).map (·.1)).Nodup := by
      rw [List.map_map]; exact hnodup
    have hmem2 : ∀ v, ((i, j), v) ∈ E.map (fun t => ((t.1, t.2.1), t.2.2)) ↔ (i, j, v) ∈ E := by
      intro v
      simp only [List.mem_map, Prod.mk.injEq]
      constructor
      · rintro ⟨⟨a, b, w⟩, hm, ⟨rfl, rfl⟩, rfl⟩; exact hm
      · intro hm; exact ⟨_, hm, ⟨rfl, rfl⟩, rfl⟩
    obtain ⟨bi1, bi2⟩ := block_div hpos hk' i
    obtain ⟨bj1, bj2⟩ := block_div hpos hk' j
    rw [← hSdef] at bi1 bi2 bj1 bj2
    set ri := rowMajor (subShape (shape as) ks) (pick (shape as) ks i) with hri
    set rj := rowMajor (subShape (shape as) ks) (pick (shape as) ks j) with hrj
    have hri' : ri < S := rowMajor_lt (pick_inRange_sub hpos hk' i)
    have hrj' : rj < S := rowMajor_lt (pick_inRange_sub hpos hk' j)
    have hsl : (shape as).length = as.length := shape_length
    have hol' : ∀ k ∈ others as.length ks, k < (shape as).length := by
      intro k hkk; rw [shape_length]; exact others_lt k hkk
    -- membership
    have hchar : ∀ v, (i, j, v) ∈ E ↔ pick (shape as) (others as.length ks) i = pick (shape as) (others as.length ks) j ∧
        v = K ri rj ∧ 0 < v := by
      intro v
      rw [hmemE]
      constructor
      · rintro ⟨blk, o, d, hb, ht, h1, h2⟩
        obtain ⟨t1, t2, t3, t4⟩ := (htri _ _ _).1 ht
        have f1 : block (shape as) ks i = d + blk * S := by rw [h1, (hbi _ (hbound d blk t2 hb)).2]
        have f2 : block (shape as) ks j = o + blk * S := by rw [h2, (hbi _ (hbound o blk t1 hb)).2]
        rw [f1] at bi1 bi2; rw [f2] at bj1 bj2
        rw [Nat.add_mul_mod_self_right, Nat.mod_eq_of_lt t2] at bi1
        rw [Nat.add_mul_mod_self_right, Nat.mod_eq_of_lt t1] at bj1
        rw [Nat.add_mul_div_right _ _ hSpos, Nat.div_eq_of_lt t2, Nat.zero_add] at bi2
        rw [Nat.add_mul_div_right _ _ hSpos, Nat.div_eq_of_lt t1, Nat.zero_add] at bj2
        refine ⟨?_, by rw [t3, bi1, bj1], t4⟩
        rw [← hsl]
        exact pick_eq_of_rowMajor hpos (fun k hkk => others_lt k hkk) (bi2.symm.trans bj2)
      · rintro ⟨h1, h2, h3⟩
        have hbl : ∀ b, block (shape as) ks b = rowMajor (subShape (shape as) ks) (pick (shape as) ks b) +
          rowMajor (subShape (shape as) (others (shape as).length ks)) (pick (shape as) (others (shape as).length ks) b)
            * S := fun b => rfl
        have hM : rowMajor (subShape (shape as) (others (shape as).length ks))
            (pick (shape as) (others (shape as).length ks) i) < M :=
          rowMajor_lt (pick_inRange_sub hpos (fun k hkk => others_lt k hkk) i)
        refine ⟨_, rj, ri, hM, (htri _ _ _).2 ⟨hrj', hri', h2, h3⟩, ?_, ?_⟩
        · rw [← hbl i, hinv i hi]
        · have : rowMajor (subShape (shape as) (others (shape as).length ks))
              (pick (shape as) (others (shape as).length ks) i) =
              rowMajor (subShape (shape as) (others (shape as).length ks))
              (pick (shape as) (others (shape as).length ks) j) := by
            rw [hsl, h1]
          rw [this, ← hbl j, hinv j hj]
    by_cases hag : pick (shape as) (others as.length ks) i = pick (shape as) (others as.length ks) j
    · rw [if_pos hag]
      by_cases hK : 0 < K ri rj
      · rw [(mem_of_nodup_lookup _ hkeys (i, j) (K ri rj)).2 ((hmem2 _).2 ((hchar _).2 ⟨hag, rfl, hK⟩))]
        rw [max_eq_right hK.le]
      · rw [lookup_none_of _ (i, j) (fun v hv => hK (by
          obtain ⟨_, h2, h3⟩ := (hchar v).1 ((hmem2 v).1 hv); rw [← h2]; exact h3))]
        rw [max_eq_left (not_lt.1 hK)]
    · rw [if_neg hag, lookup_none_of _ (i, j) (fun v hv => hag ((hchar v).1 ((hmem2 v).1 hv)).1)]

/-! ### The sub-matrix -/

theorem submatrix_ok {sub : AxisCollection α} {k : List α → List α → List α → α} (K : Nat → Nat → α)
    (hK : ∀ o d, o < sub.nBins → d < sub.nBins → subEntry sub k o d = .ok (K d o)) :
    ∃ tri, submatrix sub k = .ok tri ∧
      (∀ o d v, (o, d, v) ∈ tri ↔ o < sub.nBins ∧ d < sub.nBins ∧ v = K d o ∧ 0 < v) ∧
      (tri.map (fun t => (t.1, t.2.1))).Nodup := by
  let all : List (Nat × Nat × α) :=
    ((List.range sub.nBins).map (fun o => (List.range sub.nBins).map (fun d => (o, d, K d o)))).flatten
  have hall : (all.map (fun t => (t.1, t.2.1))).Nodup := by
    simp only [all, List.map_flatten, List.map_map]
    rw [List.nodup_flatten]
    constructor
    · intro l hl
      simp only [List.mem_map, List.mem_range] at hl
      obtain ⟨o, ho, rfl⟩ := hl
      simp only [Function.comp, List.map_map]
      exact List.nodup_range.map (fun a b h => (Prod.mk.inj h).2)
    · rw [List.pairwise_map]
      apply List.Pairwise.imp_of_mem _ (List.nodup_range (n := sub.nBins))
      intro a b _ _ hne
      rw [List.disjoint_left]
      rintro ⟨r, c⟩ h1 h2
      simp only [Function.comp, List.map_map, List.mem_map, Prod.mk.injEq] at h1 h2
      obtain ⟨_, _, rfl, _⟩ := h1
      obtain ⟨_, _, h, _⟩ := h2
      exact hne h.symm
  refine ⟨all.filter (fun t => decide (t.2.2 > 0)), ?_, ?_, ?_⟩
  · unfold submatrix
    rw [Res.traverse_ok (g := fun o => (List.range sub.nBins).map (fun d => (o, d, K d o)))]
    · rfl
    · intro o ho
      apply Res.traverse_ok
      intro d hd
      rw [hK o d (List.mem_range.1 ho) (List.mem_range.1 hd)]; rfl
  · intro o d v
    simp only [all, List.mem_filter, List.mem_flatten, List.mem_map, List.mem_range, decide_eq_true_eq, gt_iff_lt]
    constructor
    · rintro ⟨⟨l, ⟨o', ho, rfl⟩, hm⟩, hv⟩
      obtain ⟨d', hd, he⟩ := List.mem_map.1 hm
      simp only [Prod.mk.injEq] at he
      obtain ⟨rfl, rfl, rfl⟩ := he
      exact ⟨ho, List.mem_range.1 hd, rfl, hv⟩
    · rintro ⟨ho, hd, rfl, hv⟩
      exact ⟨⟨_, ⟨o, ho, rfl⟩, List.mem_map.2 ⟨d, List.mem_range.2 hd, rfl⟩⟩, hv⟩
  · exact hall.sublist (List.filter_sublist.map _)

theorem low_ok {a : BinAxis α} (h : a.Contiguous) {i : Nat} (hi : i < a.nBins) :
    a.getBinLowEdge i = .ok (a.lowEdges.getD i 0) := by
  obtain ⟨lo, hh, ⟨h3, _⟩, _⟩ := h.bins i hi
  rw [h3]
  unfold BinAxis.getBinLowEdge at h3
  rw [at_ok] at h3
  rw [List.getD_eq_getElem?_getD, h3]; rfl

theorem high_ok {a : BinAxis α} (h : a.Contiguous) {i : Nat} (hi : i < a.nBins) :
    a.getBinHighEdge i = .ok (a.highEdges.getD i 0) := by
  obtain ⟨lo, hh, ⟨_, h3⟩, _⟩ := h.bins i hi
  rw [h3]
  unfold BinAxis.getBinHighEdge at h3
  rw [at_ok] at h3
  rw [List.getD_eq_getElem?_getD, h3]; rfl

/-- Positions of a sublist are increasing. -/
theorem sublist_positions {tns dn : List String} (hsub : tns.Sublist dn) (hdn : dn.Nodup) {ks : List Nat}
    (h : List.Forall₂ (fun (k : Nat) n => dn[k]? = some n) ks tns) : ks.Pairwise (· < ·) := by
  obtain ⟨f, hf⟩ := List.sublist_iff_exists_orderEmbedding_getElem?_eq.1 hsub
  rw [List.pairwise_iff_getElem]
  intro i j hi hj hij
  have hl := h.length_eq
  have key : ∀ (m : Nat) (hm : m < ks.length), ks[m] = f m := by
    intro m hm
    have hm' : m < tns.length := by omega
    have h1 : dn[ks[m]]? = some tns[m] := h.get hm hm'
    have h2 := hf m
    rw [List.getElem?_eq_getElem hm'] at h2
    obtain ⟨l1, e1⟩ := List.getElem?_eq_some_iff.1 h1
    obtain ⟨l2, e2⟩ := List.getElem?_eq_some_iff.1 h2.symm
    exact (List.Nodup.getElem_inj_iff hdn).1 (e1.trans e2.symm)
  rw [key i hi, key j hj]
  exact f.lt_iff_lt.2 hij

theorem mem_ks_iff {tns dn : List String} (hdn : dn.Nodup) {ks : List Nat}
    (h : List.Forall₂ (fun (k : Nat) n => dn[k]? = some n) ks tns) {d : Nat} {n : String} (hd : dn[d]? = some n) :
    d ∈ ks ↔ n ∈ tns := by
  induction h with
  | nil => simp
  | @cons k m ks tns h1 h2 ih =>
    simp only [List.mem_cons, ih]
    constructor
    · rintro (rfl | h)
      · rw [hd] at h1; exact Or.inl (Option.some.inj h1)
      · exact Or.inr h
    · rintro (rfl | h)
      · obtain ⟨l1, e1⟩ := List.getElem?_eq_some_iff.1 h1
        obtain ⟨l2, e2⟩ := List.getElem?_eq_some_iff.1 hd
        exact Or.inl ((List.Nodup.getElem_inj_iff hdn).1 (e2.trans e1.symm))
      · exact Or.inr h

/-! ### C24 -/

/-- A coordinate of bin `b` on each of the observables listed: `f` is the centre, lower or upper edge. -/
def coordsAlong (f : AxisCollection α → Nat → Nat → Res α) (c : AxisCollection α) (dn tns : List String) (b : Nat) :
    Res (List α) :=
  Res.traverse (fun n => do
    let k ← (ObsSet.ofNames dn).getIndex n
    f c b k) tns

theorem coordsAlong_eq {f : AxisCollection α → Nat → Nat → Res α} {c : AxisCollection α} {dn tns : List String}
    {ks : List Nat} (b : Nat) (h : List.Forall₂ (fun k n => (ObsSet.ofNames dn).getIndex n = .ok k) ks tns) :
    coordsAlong f c dn tns b = Res.traverse (fun k => f c b k) ks := by
  unfold coordsAlong
  induction h with
  | nil => rfl
  | @cons k n ks tns h1 h2 ih => simp only [Res.traverse, h1, Res.ok_bind, ih]

/-- A convolution just given its kernel, observables and axes. -/
def freshConv (k : List α → List α → List α → α) (tns dn : List String) (c : AxisCollection α) : Convolution α :=
  ((Convolution.new.setKernel k).setObs (ObsSet.ofNames tns) (ObsSet.ofNames dn)).setAxes c

/-- Successive kernels (the kernel's parameters changing), each followed by `Construct`. -/
def runConv (s : Convolution α) : List (List α → List α → List α → α) → Res (Convolution α)
  | [] => .ok s
  | k :: l => ((s.setKernel k).construct).bind (fun s' => runConv s' l)

/-- Bins `b` and `b'` have the same index on every axis whose observable is not listed. -/
def AgreeOutside (c : AxisCollection α) (dn tns : List String) (b b' : Nat) : Prop :=
  ∀ (d : Nat) (n : String), dn[d]? = some n → n ∉ tns → c.unflattenIndex b d = c.unflattenIndex b' d

theorem agree_iff {c : AxisCollection α} {as : List (BinAxis α)} (h : Holds c as) (hne : as ≠ [])
    {tns dn : List String} (hdn : dn.Nodup) (hlen : dn.length = as.length) {ks : List Nat}
    (hks : List.Forall₂ (fun (k : Nat) n => dn[k]? = some n) ks tns) {b b' : Nat} (hb : b < (shape as).prod)
    (hb' : b' < (shape as).prod) : AgreeOutside c dn tns b b' ↔
      pick (shape as) (others as.length ks) b = pick (shape as) (others as.length ks) b' := by
  have hdig : ∀ d, d < as.length → (c.unflattenIndex b d = c.unflattenIndex b' d ↔
      (digits (shape as) b).getD d 0 = (digits (shape as) b').getD d 0) := by
    intro d hd
    obtain ⟨x, h1, h2⟩ := h.unflatten hne hb hd
    obtain ⟨y, h3, h4⟩ := h.unflatten hne hb' hd
    rw [h1, h3, List.getD_eq_getElem?_getD, List.getD_eq_getElem?_getD, h2, h4]
    simp
  unfold pick AgreeOutside
  rw [List.map_inj_left]
  constructor
  · intro hA d hd
    have hd' := hd
    simp only [others, List.mem_filter, List.mem_range, decide_eq_true_eq] at hd'
    have hdl : d < dn.length := by omega
    have hget := List.getElem?_eq_getElem hdl
    exact (hdig d hd'.1).1 (hA d _ hget (fun hc => hd'.2 ((mem_ks_iff hdn hks hget).2 hc)))
  · intro hA d n hn hnt
    have hdl := (List.getElem?_eq_some_iff.1 hn).1
    refine (hdig d (by omega)).2 (hA d ?_)
    simp only [others, List.mem_filter, List.mem_range, decide_eq_true_eq]
    exact ⟨by omega, fun hc => hnt ((mem_ks_iff hdn hks hn).1 hc)⟩

theorem conv_construct {s : Convolution α} {k : List α → List α → List α → α} {as : List (BinAxis α)} {ks : List Nat}
    {tns dn : List String} (h : ConvInv s k as ks tns dn) (hne : as ≠ []) (hc : ∀ a ∈ as, a.Contiguous)
    (hk : ∀ k ∈ ks, k < as.length) (hkne : ks ≠ []) (hs : ks.Pairwise (· < ·)) (hdl : dn.length = as.length)
    (hrel : (ObsSet.ofNames tns).getRelativeIndices (ObsSet.ofNames dn) = .ok ks) :
    ∃ s', s.construct = .ok s' ∧ ConvInv s' k as ks tns dn ∧ s'.base.axes = s.base.axes ∧
      s'.base.response.Sized ∧ s'.base.response.nRows = (shape as).prod ∧ s'.base.response.nCols = (shape as).prod ∧
      ∀ i j, i < (shape as).prod → j < (shape as).prod → ∃ lo hi xs,
        Res.traverse (fun k => s.base.axes.getBinLowEdge i k) ks = .ok lo ∧
        Res.traverse (fun k => s.base.axes.getBinHighEdge i k) ks = .ok hi ∧
        Res.traverse (fun k => s.base.axes.getBinCentre j k) ks = .ok xs ∧
        s'.base.response.arma.entry i j =
          if pick (shape as) (others as.length ks) i = pick (shape as) (others as.length ks) j then max 0 (k lo hi xs)
          else 0 := by
  have hN := h.holds.total_ne hne
  have hpos := shape_pos hc
  have hNpos : 0 < (shape as).prod := prod_pos_of hpos
  have hk' : ∀ k ∈ ks, k < (shape as).length := by intro k hkk; rw [shape_length]; exact hk k hkk
  have hnd : ks.Nodup := hs.imp (fun h => ne_of_lt h)
  obtain ⟨s1, e1, e2, e3, e4⟩ := conv_cache h hne hpos hk hkne hs hdl hrel
  have hsubN : s1.subAxes.nBins = (subShape (shape as) ks).prod := by
    rw [e4.sub.total_ne (subAxes_ne hk hkne), subAxes_shape hk]
  have hap : ∀ a ∈ as, 0 < a.nBins := fun a ha => (hc a ha).pos
  let rk : Nat → Nat := fun b => rowMajor (subShape (shape as) ks) (pick (shape as) ks b)
  have hcen : ∀ b, b < (shape as).prod → ∃ xs, s1.subAxes.getBinCentres (rk b) s1.subAxes.nDims = .ok xs ∧
      Res.traverse (fun k => s.base.axes.getBinCentre b k) ks = .ok xs := fun b hb =>
    sub_binVec h.holds hne hap hk hkne e4.sub BinAxis.getBinCentre _ (fun a ha i hi => centre_ok (hc a ha) hi) hb
  have hlow : ∀ b, b < (shape as).prod → ∃ xs, s1.subAxes.getBinLowEdges (rk b) s1.subAxes.nDims = .ok xs ∧
      Res.traverse (fun k => s.base.axes.getBinLowEdge b k) ks = .ok xs := fun b hb =>
    sub_binVec h.holds hne hap hk hkne e4.sub BinAxis.getBinLowEdge _ (fun a ha i hi => low_ok (hc a ha) hi) hb
  have hhigh : ∀ b, b < (shape as).prod → ∃ xs, s1.subAxes.getBinHighEdges (rk b) s1.subAxes.nDims = .ok xs ∧
      Res.traverse (fun k => s.base.axes.getBinHighEdge b k) ks = .ok xs := fun b hb =>
    sub_binVec h.holds hne hap hk hkne e4.sub BinAxis.getBinHighEdge _ (fun a ha i hi => high_ok (hc a ha) hi) hb
  have hsurj : ∀ q, q < (subShape (shape as) ks).prod → ∃ b, b < (shape as).prod ∧ rk b = q := by
    intro q hq
    obtain ⟨b, h1, h2⟩ := pick_surj hpos hk' hnd (digits_inRange (subShape_pos hpos hk') q)
    exact ⟨b, h1, by simp only [rk]; rw [h2, rowMajor_digits hq]⟩
  let K : Nat → Nat → α := fun d o => match subEntry s1.subAxes k o d with
    | .ok v => v
    | _ => 0
  have hKb : ∀ i j, i < (shape as).prod → j < (shape as).prod → ∃ lo hi xs,
      Res.traverse (fun k => s.base.axes.getBinLowEdge i k) ks = .ok lo ∧
      Res.traverse (fun k => s.base.axes.getBinHighEdge i k) ks = .ok hi ∧
      Res.traverse (fun k => s.base.axes.getBinCentre j k) ks = .ok xs ∧
      subEntry s1.subAxes k (rk j) (rk i) = .ok (k lo hi xs) := by
    intro i j hi hj
    obtain ⟨lo, l1, l2⟩ := hlow i hi
    obtain ⟨hh, u1, u2⟩ := hhigh i hi
    obtain ⟨xs, c1, c2⟩ := hcen j hj
    refine ⟨lo, hh, xs, l2, u2, c2, ?_⟩
    unfold subEntry
    rw [c1]; simp only [Res.ok_bind]; rw [l1]; simp only [Res.ok_bind]; rw [u1]; rfl
  obtain ⟨tri, t1, t2, t3⟩ := submatrix_ok (sub := s1.subAxes) (k := k) K (by
    intro o d ho hd
    rw [hsubN] at ho hd
    obtain ⟨j, j1, rfl⟩ := hsurj o ho
    obtain ⟨i, i1, rfl⟩ := hsurj d hd
    obtain ⟨lo, hh, xs, _, _, _, g⟩ := hKb i j i1 j1
    simp only [K, g])
  rw [hsubN] at t2
  obtain ⟨m, m1, m2, m3, m4, m5⟩ := makeFull_ok (s := s1) (by rw [e2]; exact hN) hpos hk hkne hnd e4 tri K t2 t3
  have hrun : s.construct = .ok { s1 with base := { s1.base with response := m } } := by
    unfold construct
    rw [h.kern]
    simp only
    rw [Res.throwIf_false_of (by omega)]
    simp only [Res.ok_bind]
    rw [e1]; simp only [Res.ok_bind]; rw [t1]; simp only [Res.ok_bind]; rw [m1]; rfl
  refine ⟨_, hrun, ⟨by simp [e3, h.kern], by simp [e2, h.holds], by simp [e2, h.trans], by simp [e2, h.dist],
    Or.inr ⟨e4.sub, e4.len, e4.perm⟩⟩, by simp [e2], m4, m2, m3, ?_⟩
  intro i j hi hj
  obtain ⟨lo, hh, xs, g1, g2, g3, g4⟩ := hKb i j hi hj
  refine ⟨lo, hh, xs, g1, g2, g3, ?_⟩
  simp only
  rw [m5 i j hi hj]
  have : K (rowMajor (subShape (shape as) ks) (pick (shape as) ks i)) (rowMajor (subShape (shape as) ks)
      (pick (shape as) ks j)) = k lo hh xs := by
    simp only [rk] at g4
    simp only [K, g4]
  rw [this]

theorem runConv_inv {as : List (BinAxis α)} {ks : List Nat}
    {tns dn : List String} (hne : as ≠ []) (hc : ∀ a ∈ as, a.Contiguous)
    (hk : ∀ k ∈ ks, k < as.length) (hkne : ks ≠ []) (hs : ks.Pairwise (· < ·)) (hdl : dn.length = as.length)
    (hrel : (ObsSet.ofNames tns).getRelativeIndices (ObsSet.ofNames dn) = .ok ks)
    (l : List (List α → List α → List α → α)) (s s' : Convolution α) (k0 : List α → List α → List α → α)
    (h : ConvInv s k0 as ks tns dn) (hr : runConv s l = .ok s') :
    (∃ k1, ConvInv s' k1 as ks tns dn) ∧ s'.base.axes = s.base.axes := by
  induction l generalizing s k0 with
  | nil => cases hr; exact ⟨⟨k0, h⟩, rfl⟩
  | cons k l ih =>
    have h' : ConvInv (s.setKernel k) k as ks tns dn := ⟨rfl, h.holds, h.trans, h.dist,
      h.cache.imp id (fun g => ⟨g.sub, g.len, g.perm⟩)⟩
    obtain ⟨s1, c1, c2, c3, _⟩ := conv_construct h' hne hc hk hkne hs hdl hrel
    unfold runConv at hr
    rw [c1] at hr
    obtain ⟨z1, z2⟩ := ih s1 k c2 hr
    exact ⟨z1, by rw [z2, c3]; rfl⟩

open Classical in
/-- C24, the part that holds: observables listed in the order of the distribution's own. For any axes, any kernel, after
any number of earlier `Construct`s with other kernels: `Construct` succeeds, and the response from bin `b` to bin `b'` is
the kernel integrated over bin `b'`, given the centre of bin `b`, both on the transformed observables, when the two bins
agree on every other axis, and 0 when they do not (a negative integral counts as 0). Missing: observables listed in
another order, for which the statement fails (`C24_order_wrong`). -/
theorem C24_response_partial (as : List (BinAxis α)) (c : AxisCollection α)
    (hbuild : (empty : AxisCollection α).addAxes as = .ok c) (hne : as ≠ []) (hc : ∀ a ∈ as, a.Contiguous)
    (tns dn : List String) (hdn : dn.Nodup) (hlen : dn.length = as.length)
    (htne : tns ≠ []) (hsub : tns.Sublist dn) (k0 : List α → List α → List α → α)
    (hist : List (List α → List α → List α → α)) (s : Convolution α) (hrun : runConv (freshConv k0 tns dn c) hist = .ok s)
    (k : List α → List α → List α → α) :
    ∃ s', (s.setKernel k).construct = .ok s' ∧ ∀ b b', b < c.nBins → b' < c.nBins →
      ∃ lo hi xs, coordsAlong getBinLowEdge c dn tns b' = .ok lo ∧ coordsAlong getBinHighEdge c dn tns b' = .ok hi ∧
        coordsAlong getBinCentre c dn tns b = .ok xs ∧
        s'.base.response.getComponent b' b = .ok (if AgreeOutside c dn tns b' b then max 0 (k lo hi xs) else 0) := by
  have hh := holds_of_addAxes hbuild
  have hN := hh.total_ne hne
  obtain ⟨ks, hrel, hnd, hidx, hklt, hpos'⟩ := rel_ok hdn (hdn.sublist hsub) (fun n hn => hsub.subset hn)
  have hk : ∀ k ∈ ks, k < as.length := fun k hkk => by rw [← hlen]; exact hklt k hkk
  have hkne : ks ≠ [] := by
    rintro rfl
    cases hidx; exact htne rfl
  have hs := sublist_positions hsub hdn hpos'
  have h0 : ConvInv (freshConv k0 tns dn c) k0 as ks tns dn := ⟨rfl, hh, rfl, rfl, Or.inl rfl⟩
  obtain ⟨⟨k1, hinv⟩, hax⟩ := runConv_inv hne hc hk hkne hs hlen hrel hist _ s k0 h0 hrun
  have hax' : s.base.axes = c := hax
  have h' : ConvInv (s.setKernel k) k as ks tns dn := ⟨rfl, hinv.holds, hinv.trans, hinv.dist,
      hinv.cache.imp id (fun g => ⟨g.sub, g.len, g.perm⟩)⟩
  obtain ⟨s', c1, c2, c3, c4, c5, c6, c7⟩ := conv_construct h' hne hc hk hkne hs hlen hrel
  refine ⟨s', c1, ?_⟩
  intro b b' hb hb'
  rw [hN] at hb hb'
  obtain ⟨lo, hi, xs, g1, g2, g3, g4⟩ := c7 b' b hb' hb
  have hsx : (s.setKernel k).base.axes = c := hax'
  rw [hsx] at g1 g2 g3
  refine ⟨lo, hi, xs, by rw [coordsAlong_eq b' hidx]; exact g1, by rw [coordsAlong_eq b' hidx]; exact g2,
    by rw [coordsAlong_eq b hidx]; exact g3, ?_⟩
  rw [Matrix'.get_ok c4 (by omega) (by omega), g4]
  have := agree_iff hh hne hdn hlen hpos' hb' hb
  by_cases hp : pick (shape as) (others as.length ks) b' = pick (shape as) (others as.length ks) b
  · rw [if_pos hp, if_pos (this.2 hp)]
  · rw [if_neg hp, if_neg (fun h => hp (this.1 h))]

/-- Non-vacuity: a kernel on the two outer observables of a 2×3×2 grid, after a `Construct` with another kernel. -/
def exKernel : List ℚ → List ℚ → List ℚ → ℚ := fun lo hi xs =>
  if lo.zip xs |>.all (fun p => p.1 ≤ p.2) then lo.headD 0 + 2 * hi.getLastD 0 + 1 else 0

example : ["e", "t"].Sublist ["e", "r", "t"] ∧
    (runConv (freshConv exKernel ["e", "t"] ["e", "r", "t"] exColl) [fun _ _ _ => 1, exKernel] >>=
      fun s => s.base.response.getComponent 7 7) = .ok 6 := by
  refine ⟨by decide, by decide +kernel⟩

/-- C24: without a kernel, or without axes, `LogicError`. -/
theorem C24_unset (s : Convolution α) : (s.kernel = none → s.construct = .throw .logic) ∧
    (s.base.axes.nBins = 0 → s.construct = .throw .logic) := by
  unfold construct
  constructor
  · intro h; rw [h]
  · intro h
    cases s.kernel with
    | none => rfl
    | some f => simp only; rw [Res.throwIf_true_of h]; rfl

/-- The kernel which leaves everything where it is. -/
def stayKernel : List ℚ → List ℚ → List ℚ → ℚ := fun lo hi xs =>
  if (lo.zip (hi.zip xs)).all (fun p => decide (p.1 ≤ p.2.2) && decide (p.2.2 < p.2.1)) then 1 else 0

/-- C24 fails when the transformed observables are listed in another order than the distribution's: on the 2×3×2 grid,
with `["r", "e"]` instead of `["e", "r"]`, `Construct` with the do-nothing kernel does not even succeed (the block numbering
mixes up the two axes and is no longer a permutation, so that the same element is set twice). -/
theorem C24_order_wrong :
    ((freshConv stayKernel ["e", "r"] ["e", "r", "t"] exColl).construct >>=
      fun s => s.base.response.getComponent 2 2) = .ok 1 ∧
    ¬ ∃ s', (freshConv stayKernel ["r", "e"] ["e", "r", "t"] exColl).construct = .ok s' := by
  refine ⟨by decide +kernel, ?_⟩
  rintro ⟨s', hs⟩
  have : ((freshConv stayKernel ["r", "e"] ["e", "r", "t"] exColl).construct).isOk = false := by decide +kernel
  rw [hs] at this; cases this

/-- C24, same failure, silent when the axes have equal numbers of bins: with `["t", "e"]` and a kernel which accepts only
upper halves of `t`, the response from bin 0 to bin 1 (the same bin but for the upper half of `t`) is 0, and the response
to bin 6 (upper half of `e`) is 1. -/
theorem C24_silent_wrong :
    let k : List ℚ → List ℚ → List ℚ → ℚ := fun lo _ _ => if lo.headD 0 = 1 then 1 else 0
    exColl.unpackIndices 1 = .ok [0, 0, 1] ∧ exColl.unpackIndices 6 = .ok [1, 0, 0] ∧
    coordsAlong getBinLowEdge exColl ["e", "r", "t"] ["t", "e"] 1 = .ok [1, 0] ∧
    ((freshConv k ["t", "e"] ["e", "r", "t"] exColl).construct >>= fun s => s.base.response.getComponent 1 0) = .ok 0 ∧
    ((freshConv k ["t", "e"] ["e", "r", "t"] exColl).construct >>= fun s => s.base.response.getComponent 6 0) = .ok 1 := by
  decide +kernel

/-- C24 fails after the binning is replaced: `SetAxes` keeps the numbering remembered from the first `Construct`. With the do-nothing kernel on three bins, a
response built anew is the identity; after a first `Construct` on two bins, the third bin of the new binning loses its content. -/
theorem C24_axes_wrong :
    ((freshConv stayKernel ["e"] ["e"] (collOf [unitAxis "x" 3])).construct >>= fun s => s.base.response.getComponent 2 2) = .ok 1 ∧
    ((freshConv stayKernel ["e"] ["e"] (collOf [unitAxis "x" 2])).construct >>= fun s =>
      (s.setAxes (collOf [unitAxis "x" 3])).construct >>= fun s => s.base.response.getComponent 2 2) = .ok 0 ∧
    ((freshConv stayKernel ["e"] ["e"] (collOf [unitAxis "x" 2])).construct >>= fun s =>
      (s.setAxes (collOf [unitAxis "x" 3])).construct >>= fun s => s.base.response.getComponent 1 1) = .ok 1 := by
  decide +kernel

/-- C24, the kernel made from a function: the probability of going from `xs` into the box from `lows` to `highs` depends only on the
displacements - moving all three by `ds` changes nothing - and from the origin it is the integral of the function over the box. -/
theorem C24_jump_kernel (f : List α → List α → α) (lows highs xs ds : List α) (h1 : lows.length = xs.length)
    (h2 : highs.length = xs.length) (h3 : ds.length = xs.length) :
    Convolution.jump f (List.zipWith (· + ·) lows ds) (List.zipWith (· + ·) highs ds) (List.zipWith (· + ·) xs ds) =
      Convolution.jump f lows highs xs ∧
    Convolution.jump f lows highs (List.replicate xs.length 0) = f lows highs := by
  have key : ∀ (l x d : List α), l.length = x.length → d.length = x.length →
      List.zipWith (· - ·) (List.zipWith (· + ·) l d) (List.zipWith (· + ·) x d) = List.zipWith (· - ·) l x := by
    intro l
    induction l with
    | nil => intro x d _ _; simp
    | cons a l ih =>
      intro x d hl hd
      match x, d, hl, hd with
      | b :: x, c :: d, hl, hd =>
        simp only [List.zipWith_cons_cons]
        rw [ih x d (by simpa using hl) (by simpa using hd)]
        congr 1
        ring
  have zero : ∀ (l : List α) (n : Nat), l.length = n → List.zipWith (· - ·) l (List.replicate n 0) = l := by
    intro l
    induction l with
    | nil => intro n _; simp
    | cons a l ih =>
      intro n hn
      match n, hn with
      | n + 1, hn =>
        rw [List.replicate_succ, List.zipWith_cons_cons, ih n (by simpa using hn), sub_zero]
  unfold Convolution.jump
  exact ⟨by rw [key lows xs ds h1 h3, key highs xs ds h2 h3], by rw [zero lows _ h1, zero highs _ h2]⟩

example : Convolution.jump (fun lo hi => lo.sum + 10 * hi.sum) [1, 2] [3, 5] [(1 : ℚ) / 2, 1] = 3 / 2 + 10 * (13 / 2) := by decide +kernel

end Oxsx
