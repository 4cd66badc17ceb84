import Verif.Lemmas.AxisCollection
import Verif.Lemmas.Systematic
/- Helper lemmas about projecting the cells of a grid onto some of its axes. -/
set_option linter.unusedSectionVars false
set_option linter.unusedSimpArgs false
set_option linter.unusedVariables false
namespace Oxsx
open AxisCollection

/-- Indices of cell `b` along the axes `ks`. -/
def pick (ns ks : List Nat) (b : Nat) : List Nat := ks.map (fun k => (digits ns b).getD k 0)

/-- Numbers of bins of the axes `ks`. -/
def subShape (ns ks : List Nat) : List Nat := ks.map (fun k => ns.getD k 0)

theorem pick_getElem? (ns ks : List Nat) (b i k : Nat) (h : ks[i]? = some k) :
    (pick ns ks b)[i]? = some ((digits ns b).getD k 0) := by
  simp [pick, h]

theorem digit_lt {ns : List Nat} (hpos : ∀ n ∈ ns, 0 < n) {k : Nat} (hk : k < ns.length) (b : Nat) :
    (digits ns b).getD k 0 < ns.getD k 0 := by
  have h1 : ns[k]? = some ns[k] := List.getElem?_eq_getElem hk
  have := digits_getElem? ns b k _ h1
  rw [List.getD_eq_getElem?_getD, this, List.getD_eq_getElem?_getD, h1]
  exact Nat.mod_lt _ (hpos _ (List.getElem_mem hk))

theorem pick_inRange_sub {ns ks : List Nat} (hpos : ∀ n ∈ ns, 0 < n) (hk : ∀ k ∈ ks, k < ns.length) (b : Nat) :
    InRange (pick ns ks b) (subShape ns ks) := by
  unfold InRange pick subShape
  rw [List.forall₂_map_right_iff, List.forall₂_map_left_iff, List.forall₂_same]
  intro k hkk
  exact digit_lt hpos (hk k hkk) b

theorem subShape_pos {ns ks : List Nat} (hpos : ∀ n ∈ ns, 0 < n) (hk : ∀ k ∈ ks, k < ns.length) :
    ∀ n ∈ subShape ns ks, 0 < n := by
  intro n hn
  obtain ⟨k, hkk, rfl⟩ := List.mem_map.1 hn
  rw [List.getD_eq_getElem?_getD, List.getElem?_eq_getElem (hk k hkk)]
  exact hpos _ (List.getElem_mem _)

/-- Two cells with the same indices on two complementary sets of axes are equal. -/
theorem pick_ext {ns ks ls : List Nat} (hcov : ∀ d, d < ns.length → d ∈ ks ∨ d ∈ ls) {b b' : Nat}
    (hb : b < ns.prod) (hb' : b' < ns.prod) (h1 : pick ns ks b = pick ns ks b') (h2 : pick ns ls b = pick ns ls b') :
    b = b' := by
  have key : ∀ {qs : List Nat} {d : Nat}, pick ns qs b = pick ns qs b' → d ∈ qs →
      (digits ns b).getD d 0 = (digits ns b').getD d 0 := by
    intro qs d h hd
    obtain ⟨i, hi⟩ := List.mem_iff_getElem?.1 hd
    have e1 := pick_getElem? ns qs b i d hi
    have e2 := pick_getElem? ns qs b' i d hi
    rw [h, e2] at e1
    exact (Option.some.inj e1).symm
  have hd : digits ns b = digits ns b' := by
    apply List.ext_getElem?
    intro d
    by_cases hd : d < ns.length
    · have : (digits ns b).getD d 0 = (digits ns b').getD d 0 := by
        rcases hcov d hd with h | h
        · exact key h1 h
        · exact key h2 h
      rw [List.getD_eq_getElem?_getD, List.getD_eq_getElem?_getD] at this
      rw [List.getElem?_eq_getElem (by rw [digits_length]; exact hd),
        List.getElem?_eq_getElem (by rw [digits_length]; exact hd)] at this ⊢
      simpa using this
    · rw [List.getElem?_eq_none (by rw [digits_length]; omega), List.getElem?_eq_none (by rw [digits_length]; omega)]
  rw [← rowMajor_digits hb, ← rowMajor_digits hb', hd]

/-- Any indices on some distinct axes are those of some cell. -/
theorem pick_surj {ns ks js : List Nat} (hpos : ∀ n ∈ ns, 0 < n) (hk : ∀ k ∈ ks, k < ns.length) (hnd : ks.Nodup)
    (hj : InRange js (subShape ns ks)) : ∃ b, b < ns.prod ∧ pick ns ks b = js := by
  have hlen : js.length = ks.length := by have := hj.length; simpa [subShape] using this
  let is := (List.range ns.length).map (fun d => match findPos ks d with
    | some i => js.getD i 0
    | none => 0)
  have hr : InRange is ns := by
    unfold InRange
    rw [List.forall₂_iff_get]
    refine ⟨by simp [is], ?_⟩
    intro d h1 h2
    simp only [is, List.get_eq_getElem, List.getElem_map, List.getElem_range]
    cases hf : findPos ks d with
    | none => exact hpos _ (List.getElem_mem h2)
    | some i =>
      have hki := findPos_some hf
      have hi : i < ks.length := (List.getElem?_eq_some_iff.1 hki).1
      unfold InRange at hj
      rw [List.forall₂_iff_get] at hj
      have := hj.2 i (by omega) (by simpa [subShape] using hi)
      simp only [List.get_eq_getElem, subShape, List.getElem_map] at this
      have hk' : ks[i] = d := by
        have := (List.getElem?_eq_some_iff.1 hki).2; exact this
      rw [hk', List.getD_eq_getElem?_getD, List.getElem?_eq_getElem h2] at this
      simp only [List.getD_eq_getElem?_getD, List.getElem?_eq_getElem (show i < js.length by omega)]
      exact this
  refine ⟨rowMajor ns is, rowMajor_lt hr, ?_⟩
  unfold pick
  rw [digits_rowMajor hr]
  apply List.ext_getElem?
  intro i
  by_cases hi : i < ks.length
  · rw [List.getElem?_map, List.getElem?_eq_getElem hi, List.getElem?_eq_getElem (show i < js.length by omega)]
    simp only [Option.map_some, Option.some.injEq]
    have hki : ks[i]? = some ks[i] := List.getElem?_eq_getElem hi
    have hlt := hk _ (List.getElem_mem hi)
    simp only [is]
    rw [List.getD_eq_getElem?_getD, List.getElem?_map, List.getElem?_range hlt]
    simp only [Option.map_some, Option.getD_some]
    rw [findPos_eq_of_nodup hnd hki]
    simp [List.getElem?_eq_getElem (show i < js.length by omega)]
  · rw [List.getElem?_eq_none (by simp; omega), List.getElem?_eq_none (by omega)]

section
variable {α : Type} [Field α] [LinearOrder α] [IsStrictOrderedRing α]

/-- The axes at positions `ks`. -/
def subAxes (as : List (BinAxis α)) (ks : List Nat) : List (BinAxis α) := ks.filterMap (fun k => as[k]?)

theorem subAxes_eq {as : List (BinAxis α)} {ks : List Nat} (hk : ∀ k ∈ ks, k < as.length) :
    List.Forall₂ (fun k a => as[k]? = some a) ks (subAxes as ks) := by
  induction ks with
  | nil => simp [subAxes]
  | cons k ks ih =>
    have hlt := hk k List.mem_cons_self
    have : subAxes as (k :: ks) = as[k] :: subAxes as ks := by
      simp [subAxes, List.getElem?_eq_getElem hlt]
    rw [this]
    exact List.Forall₂.cons (List.getElem?_eq_getElem hlt) (ih (fun q hq => hk q (List.mem_cons_of_mem _ hq)))

theorem subAxes_shape {as : List (BinAxis α)} {ks : List Nat} (hk : ∀ k ∈ ks, k < as.length) :
    shape (subAxes as ks) = subShape (shape as) ks := by
  have h := subAxes_eq hk
  generalize subAxes as ks = L at h
  unfold shape subShape
  induction h with
  | nil => rfl
  | @cons k a ks l h1 h2 ih =>
    simp only [List.map_cons]
    rw [ih (fun q hq => hk q (List.mem_cons_of_mem _ hq))]
    simp [List.getD_eq_getElem?_getD, h1]

/-- `AddAxis(axes.GetAxis(k))` for each `k`. -/
theorem addByIndex {c : AxisCollection α} {as : List (BinAxis α)} (h : Holds c as) {ks : List Nat}
    (hk : ∀ k ∈ ks, k < as.length) (d : AxisCollection α) :
    Res.forFold (fun (d : AxisCollection α) i => do
      let a ← c.getAxis i
      d.addAxis a) d ks = d.addAxes (subAxes as ks) := by
  unfold AxisCollection.addAxes
  have hs := subAxes_eq hk
  generalize hL : subAxes as ks = L at hs ⊢
  clear hL
  induction hs generalizing d with
  | nil => rfl
  | @cons k a ks l h1 h2 ih =>
    simp only [Res.forFold]
    have : c.getAxis k = .ok a := by unfold getAxis; rw [h.axes, at_ok.2 h1]; rfl
    rw [this]
    simp only [Res.ok_bind]
    cases d.addAxis a with
    | ok d' => exact ih (fun q hq => hk q (List.mem_cons_of_mem _ hq)) d'
    | throw e => rfl
    | ub => rfl

theorem subAxes_nodup {as : List (BinAxis α)} {ks : List Nat} (hn : (as.map (·.name)).Nodup)
    (hk : ∀ k ∈ ks, k < as.length) (hnd : ks.Nodup) : ((subAxes as ks).map (·.name)).Nodup := by
  have hs := subAxes_eq hk
  generalize hL : subAxes as ks = L at hs ⊢
  clear hL
  induction hs with
  | nil => simp
  | @cons k a ks l h1 h2 ih =>
    simp only [List.map_cons, List.nodup_cons] at hnd ⊢
    refine ⟨?_, ih (fun q hq => hk q (List.mem_cons_of_mem _ hq)) hnd.2⟩
    intro hmem
    obtain ⟨a', ha', he⟩ := List.mem_map.1 hmem
    obtain ⟨q, hq, hq'⟩ : ∃ q, q ∈ ks ∧ as[q]? = some a' := by
      clear ih hmem
      induction h2 with
      | nil => cases ha'
      | @cons k2 a2 ks2 l2 g1 g2 ih2 =>
        rcases List.mem_cons.1 ha' with rfl | h
        · exact ⟨k2, List.mem_cons_self, g1⟩
        · obtain ⟨q, hq, e⟩ := ih2 (fun q hq => by
            rcases List.mem_cons.1 hq with rfl | hq
            · exact hk _ List.mem_cons_self
            · exact hk _ (List.mem_cons_of_mem _ (List.mem_cons_of_mem _ hq)))
            ⟨fun hc => hnd.1 (List.mem_cons_of_mem _ hc), (List.nodup_cons.1 hnd.2).2⟩ h
          exact ⟨q, List.mem_cons_of_mem _ hq, e⟩
    have e1 : (as.map (·.name))[k]? = some a.name := by simp [h1]
    have e2 : (as.map (·.name))[q]? = some a.name := by simp [hq', he]
    have := nodup_getElem?_inj hn e1 e2
    subst this
    exact hnd.1 hq

theorem subAxes_mem {as : List (BinAxis α)} {ks : List Nat} {a : BinAxis α} (h : a ∈ subAxes as ks) : a ∈ as := by
  obtain ⟨k, _, hk⟩ := List.mem_filterMap.1 h
  exact List.mem_of_getElem? hk

theorem subAxes_ne {as : List (BinAxis α)} {ks : List Nat} (hk : ∀ k ∈ ks, k < as.length) (hne : ks ≠ []) :
    subAxes as ks ≠ [] := by
  have := (subAxes_eq hk).length_eq
  intro h; rw [h] at this
  exact hne (List.eq_nil_of_length_eq_zero (by simpa using this))

/-- Indices of a full bin along `ks`, read with `UnflattenIndex`. -/
theorem traverse_pick {c : AxisCollection α} {as : List (BinAxis α)} (h : Holds c as) (hne : as ≠ []) {ks : List Nat}
    (hk : ∀ k ∈ ks, k < as.length) {b : Nat} (hb : b < (shape as).prod) :
    Res.traverse (fun r => c.unflattenIndex b r) ks = .ok (pick (shape as) ks b) := by
  unfold pick
  apply Res.traverse_ok
  intro k hkk
  obtain ⟨d, h1, h2⟩ := h.unflatten hne hb (hk k hkk)
  rw [h1, List.getD_eq_getElem?_getD, h2]; rfl

theorem centre_ok {a : BinAxis α} (h : a.Contiguous) {i : Nat} (hi : i < a.nBins) :
    a.getBinCentre i = .ok (a.centres.getD i 0) := by
  obtain ⟨lo, hh, _, _, h3, _⟩ := h.bins i hi
  rw [h3]
  unfold BinAxis.getBinCentre at h3
  rw [at_ok] at h3
  rw [List.getD_eq_getElem?_getD, h3]; rfl

/-- Coordinates of a bin of the sub-collection, in terms of any full bin projecting onto it. -/
theorem sub_binVec {c : AxisCollection α} {as : List (BinAxis α)} (h : Holds c as) (hne : as ≠ [])
    (hpos : ∀ a ∈ as, 0 < a.nBins) {ks : List Nat} (hk : ∀ k ∈ ks, k < as.length) (hkne : ks ≠ [])
    {d : AxisCollection α} (hd : Holds d (subAxes as ks)) (f : BinAxis α → Nat → Res α) (g : BinAxis α → Nat → α)
    (hf : ∀ a ∈ as, ∀ i, i < a.nBins → f a i = .ok (g a i)) {b : Nat} (hb : b < (shape as).prod) :
    ∃ xs, d.getBinVec f (rowMajor (subShape (shape as) ks) (pick (shape as) ks b)) d.nDims = .ok xs ∧
      Res.traverse (fun k => c.getBinOne f b k) ks = .ok xs := by
  have hposn : ∀ n ∈ shape as, 0 < n := by
    intro n hn; simp only [shape, List.mem_map] at hn
    obtain ⟨a, ha, rfl⟩ := hn; exact hpos a ha
  have hk' : ∀ k ∈ ks, k < (shape as).length := by intro k hkk; rw [shape_length]; exact hk k hkk
  have hr := pick_inRange_sub hposn hk' b
  have hlt := rowMajor_lt hr
  refine ⟨List.zipWith g (subAxes as ks) (pick (shape as) ks b), ?_, ?_⟩
  · rw [hd.dims]
    have := hd.binVec (subAxes_ne hk hkne) (b := rowMajor (subShape (shape as) ks) (pick (shape as) ks b))
      (by rw [subAxes_shape hk]; exact hlt) f g (fun a ha => hf a (subAxes_mem ha)) (fun a ha => hpos a (subAxes_mem ha))
    rw [this, subAxes_shape hk, digits_rowMajor hr]
  · have hs := subAxes_eq hk
    unfold pick
    generalize hL : subAxes as ks = L at hs ⊢
    clear hL hlt hr hd hkne
    induction hs with
    | nil => rfl
    | @cons k a ks l h1 h2 ih =>
      have ih' := ih (fun q hq => hk q (List.mem_cons_of_mem _ hq)) (fun q hq => hk' q (List.mem_cons_of_mem _ hq))
      obtain ⟨i, e1, e2⟩ := h.binOne hne hb h1 f
      have hi : i < a.nBins := by
        have hh := digits_getElem? (shape as) b k a.nBins (by simp [shape, h1])
        rw [hh] at e1
        have := Option.some.inj e1
        subst this
        exact Nat.mod_lt _ (hpos a (List.mem_of_getElem? h1))
      rw [Res.traverse_cons_eq_ok]
      refine ⟨g a i, _, ?_, ih', ?_⟩
      · rw [e2, hf a (List.mem_of_getElem? h1) i hi]
      · simp [List.getD_eq_getElem?_getD, e1]

end
end Oxsx
