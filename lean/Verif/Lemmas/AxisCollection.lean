import Verif.Lemmas.Axis
import Verif.Lemmas.MixedRadix
import Verif.Spec.Grid
/- Helper lemmas about axis collections. -/
set_option linter.unusedSectionVars false
set_option linter.unusedSimpArgs false
namespace Oxsx
variable {α : Type} [Field α] [LinearOrder α]

namespace AxisCollection

theorem holds_empty : Holds (empty : AxisCollection α) [] := by
  constructor <;> simp [empty, shape]

theorem Holds.hasAxis {c : AxisCollection α} {as : List (BinAxis α)} (h : Holds c as) (n : String) :
    c.hasAxis n = true ↔ n ∈ as.map (·.name) := by
  unfold AxisCollection.hasAxis
  rw [h.axes, h.dims, List.take_length]
  simp only [List.any_eq_true, decide_eq_true_eq, List.mem_map]
  exact ⟨fun ⟨a, ha, e⟩ => ⟨a, ha, e.symm⟩, fun ⟨a, ha, e⟩ => ⟨a, ha, e.symm⟩⟩

theorem Holds.addAxis_ok {c : AxisCollection α} {as : List (BinAxis α)} (h : Holds c as)
    (a : BinAxis α) (ha : a.name ∉ as.map (·.name)) :
    ∃ c', c.addAxis a = .ok c' ∧ Holds c' (as ++ [a]) := by
  have h1 : c.hasAxis a.name = false := by
    rw [← Bool.not_eq_true, h.hasAxis]; exact ha
  unfold AxisCollection.addAxis
  rw [h1]
  refine ⟨_, rfl, ?_⟩
  constructor
  · simp [countBins, h.axes]
  · simp [countBins, h.names]
  · simp [countBins, h.nbins, shape]
  · simp [countBins, h.dims]
  · simp only [countBins, h.dims, Nat.add_eq_zero_iff, one_ne_zero, and_false, if_false, h.nbins]
    rw [List.take_of_length_le (by simp [shape])]
    simp [shape, List.prod_eq_foldl]
  · simp only [List.map_append, List.map_cons, List.map_nil, List.nodup_append, h.nodup,
      List.nodup_cons, List.not_mem_nil, not_false_eq_true, List.nodup_nil, and_self, true_and]
    intro x hx y hy
    simp at hy; subst hy
    rintro rfl; exact ha hx

theorem Holds.addAxis_dup {c : AxisCollection α} {as : List (BinAxis α)} (h : Holds c as)
    (a : BinAxis α) (ha : a.name ∈ as.map (·.name)) : c.addAxis a = .throw .value := by
  unfold AxisCollection.addAxis
  rw [(h.hasAxis a.name).2 ha]; rfl

theorem holds_of_forFold {c : AxisCollection α} {as bs : List (BinAxis α)} (h : Holds c as)
    {c' : AxisCollection α} (hr : Res.forFold addAxis c bs = .ok c') : Holds c' (as ++ bs) := by
  induction bs generalizing c as with
  | nil => simp at hr; subst hr; simpa using h
  | cons b bs ih =>
    obtain ⟨c1, h1, h2⟩ := Res.forFold_cons_eq_ok.1 hr
    by_cases hb : b.name ∈ as.map (·.name)
    · rw [h.addAxis_dup b hb] at h1; cases h1
    · obtain ⟨c2, h3, h4⟩ := h.addAxis_ok b hb
      rw [h3] at h1; cases h1
      have := ih h4 h2
      simpa using this

/-- Every collection built from axes holds exactly them. -/
theorem holds_of_addAxes {as : List (BinAxis α)} {c : AxisCollection α}
    (h : (empty : AxisCollection α).addAxes as = .ok c) : Holds c as := by
  have := holds_of_forFold holds_empty h
  simpa using this

theorem forFold_ok_of_nodup {c : AxisCollection α} {as bs : List (BinAxis α)} (h : Holds c as)
    (hn : ((as ++ bs).map (·.name)).Nodup) : ∃ c', Res.forFold addAxis c bs = .ok c' := by
  induction bs generalizing c as with
  | nil => exact ⟨c, rfl⟩
  | cons b bs ih =>
    have hb : b.name ∉ as.map (·.name) := by
      simp only [List.map_append, List.map_cons, List.nodup_append] at hn
      intro hc
      exact hn.2.2 _ hc _ (by simp) rfl
    obtain ⟨c2, h3, h4⟩ := h.addAxis_ok b hb
    obtain ⟨c', h5⟩ := ih h4 (by simpa using hn)
    exact ⟨c', by rw [Res.forFold_cons_ok h3]; exact h5⟩

theorem addAxes_ok_of_nodup {as : List (BinAxis α)} (hn : (as.map (·.name)).Nodup) :
    ∃ c, (empty : AxisCollection α).addAxes as = .ok c :=
  forFold_ok_of_nodup holds_empty (by simpa using hn)

section
variable {c : AxisCollection α} {as : List (BinAxis α)}

@[simp] theorem shape_length : (shape as).length = as.length := by simp [shape]

theorem Holds.stride (h : Holds c as) (k : Nat) : c.strideFrom k = ((shape as).drop k).prod := by
  unfold strideFrom
  rw [h.nbins, h.dims, List.take_of_length_le (by simp), List.prod_eq_foldl]

theorem Holds.total_ne (h : Holds c as) (hn : as ≠ []) : c.nBins = (shape as).prod := by
  rw [h.total, if_neg hn]

theorem Holds.flatten (h : Holds c as) (hn : as ≠ []) {is : List Nat}
    (hl : is.length = as.length) : c.flattenIndices is = .ok (rowMajor (shape as) is) := by
  unfold flattenIndices
  rw [if_neg (by rw [h.dims]; omega)]
  have hpos : 0 < as.length := List.length_pos_iff.2 hn
  have hsum := rowMajor_eq_sum (is := is) (ns := shape as) (by simpa using hl)
  have hlen : (shape as).length = (as.length - 1) + 1 := by simp; omega
  by_cases h1 : c.nDims = 1
  · rw [if_pos h1]
    rw [h.dims] at h1
    obtain ⟨a, rfl⟩ := List.length_eq_one_iff.1 h1
    obtain ⟨i, rfl⟩ := List.length_eq_one_iff.1 hl
    simp [shape, rowMajor, at_]
  · rw [if_neg h1]
    have hisne : is ≠ [] := by intro hh; subst hh; simp at hl; omega
    rw [List.getLast?_eq_some_getLast hisne]
    simp only
    have := Res.forFold_pure (l := List.range (c.nDims - 1)) (s := is.getLast hisne)
      (f := fun index i => (do
        let x ← idx is i
        pure (index + x * c.strideFrom (i + 1)) : Res Nat))
      (g := fun index i => index + is.getD i 0 * ((shape as).drop (i + 1)).prod) (by
        intro s i hi
        rw [h.dims] at hi
        have hi : i < is.length := by simp at hi; omega
        rw [idx_of_lt hi, h.stride]
        simp [List.getD, hi])
    rw [this]
    congr 1
    rw [h.dims, hsum, hlen, List.range_succ, List.map_append, List.sum_append]
    simp only [List.map_cons, List.map_nil, List.sum_cons, List.sum_nil, Nat.add_zero]
    have e1 : (shape as).drop (as.length - 1 + 1) = [] := by
      apply List.drop_eq_nil_of_le; simp; omega
    rw [e1]
    have e2 : is.getLast hisne = is.getD (as.length - 1) 0 := by
      rw [List.getLast_eq_getElem]
      rw [List.getD, List.getElem?_eq_getElem (show as.length - 1 < is.length by omega)]
      simp [hl]
    rw [e2]
    have e3 : ∀ (l : List Nat) (f : Nat → Nat) (s : Nat),
        l.foldl (fun a i => a + f i) s = s + (l.map f).sum := by
      intro l f
      induction l with
      | nil => simp
      | cons x l ih => intro s; simp [ih, Nat.add_assoc]
    rw [e3]; simp [Nat.add_comm]

theorem Holds.flatten_dim (h : Holds c as) {is : List Nat} (hl : is.length ≠ as.length) :
    c.flattenIndices is = .throw .dimension := by
  unfold flattenIndices
  rw [if_pos (by rw [h.dims]; exact hl)]

theorem Holds.unflatten (h : Holds c as) (hn : as ≠ []) {b k : Nat}
    (hb : b < (shape as).prod) (hk : k < as.length) :
    ∃ d, c.unflattenIndex b k = .ok d ∧ (digits (shape as) b)[k]? = some d := by
  have hd := digits_getElem? (shape as) b k ((shape as)[k]'(by simpa using hk))
    (List.getElem?_eq_getElem _)
  unfold unflattenIndex
  by_cases h1 : c.nDims = 1
  · rw [if_pos h1]
    rw [h.dims] at h1
    obtain rfl : k = 0 := by omega
    refine ⟨b, rfl, ?_⟩
    rw [hd]
    obtain ⟨a, rfl⟩ := List.length_eq_one_iff.1 h1
    simp [shape] at hb ⊢
    exact Nat.mod_eq_of_lt hb
  · rw [if_neg h1, if_neg (by rw [h.total_ne hn]; omega), h.nbins, h.stride,
      idx_of_lt (by simpa using hk)]
    exact ⟨_, rfl, hd⟩

theorem Holds.unpack (h : Holds c as) (hn : as ≠ []) {b : Nat} (hb : b < (shape as).prod) :
    c.unpackIndices b = .ok (digits (shape as) b) := by
  unfold unpackIndices
  have := Res.traverse_ok (f := fun i => c.unflattenIndex b i)
    (g := fun i => (digits (shape as) b).getD i 0) (l := List.range c.nDims) (by
      intro i hi
      obtain ⟨d, h1, h2⟩ := h.unflatten hn hb (k := i) (by rw [h.dims] at hi; simpa using hi)
      simp only [h1, List.getD, h2, Option.getD_some])
  rw [this, h.dims]
  congr 1
  apply List.ext_getElem
  · simp
  · intro i h1 h2
    simp at h1
    simp [List.getD, h1]

theorem Holds.findBin [IsStrictOrderedRing α] (h : Holds c as) (hn : as ≠ []) {vs : List α}
    (hl : vs.length = as.length) :
    c.findBin vs = .ok (rowMajor (shape as) (List.zipWith BinAxis.findBin as vs)) := by
  unfold AxisCollection.findBin
  rw [Res.throwIf_false_of (by rw [h.dims]; omega)]
  have := Res.traverse_ok (f := fun i => (do
      let a ← at_ c.axes i
      let v ← idx vs i
      pure (a.findBin v) : Res Nat))
    (g := fun i => (List.zipWith BinAxis.findBin as vs).getD i 0) (l := List.range c.nDims) (by
      intro i hi
      rw [h.dims] at hi
      have hi : i < as.length := by simpa using hi
      rw [h.axes, at_of_lt hi, idx_of_lt (show i < vs.length by omega)]
      simp [List.getD, hi, show i < vs.length by omega])
  simp only [Res.ok_bind]
  rw [this]
  simp only [Res.ok_bind]
  have e : List.map (fun i => (List.zipWith BinAxis.findBin as vs).getD i 0) (List.range c.nDims)
      = List.zipWith BinAxis.findBin as vs := by
    rw [h.dims]
    apply List.ext_getElem
    · simp [hl]
    · intro i h1 h2
      simp at h1
      simp [List.getD, h1, show i < vs.length by omega]
  rw [e]
  exact h.flatten hn (by simp [hl])

theorem Holds.axisIndex (h : Holds c as) {i : Nat} {a : BinAxis α} (hi : as[i]? = some a) :
    c.getAxisIndex a.name = .ok i := by
  unfold getAxisIndex
  have : (as.map (·.name))[i]? = some a.name := by simp [hi]
  rw [h.names, findPos_eq_of_nodup h.nodup this]

theorem Holds.axisByName (h : Holds c as) {i : Nat} {a : BinAxis α} (hi : as[i]? = some a) :
    c.getAxisByName a.name = .ok a := by
  unfold getAxisByName
  rw [h.axisIndex hi]
  simp only [Res.ok_bind, h.axes]
  exact at_ok.2 hi

theorem Holds.axisIndex_none (h : Holds c as) {n : String} (hn : n ∉ as.map (·.name)) :
    c.getAxisIndex n = .throw .notFound := by
  unfold getAxisIndex
  rw [h.names, findPos_none.2 hn]

theorem findBins_inRange [IsStrictOrderedRing α] (hc : ∀ a ∈ as, a.Contiguous) {vs : List α}
    (hl : vs.length = as.length) : InRange (List.zipWith BinAxis.findBin as vs) (shape as) := by
  induction as generalizing vs with
  | nil => cases vs <;> simp [shape, InRange]
  | cons a as ih =>
    cases vs with
    | nil => simp at hl
    | cons v vs =>
      refine List.Forall₂.cons ?_ (ih (fun b hb => hc b (by simp [hb])) (by simpa using hl))
      exact ((hc a (by simp)).findBin_spec v).1

theorem shape_pos [IsStrictOrderedRing α] (hc : ∀ a ∈ as, a.Contiguous) : ∀ n ∈ shape as, 0 < n := by
  intro n hn
  simp only [shape, List.mem_map] at hn
  obtain ⟨a, ha, rfl⟩ := hn
  exact (hc a ha).pos

/-- Per-dimension bin quantity. -/
theorem Holds.binOne (h : Holds c as) (hn : as ≠ []) {b k : Nat}
    (hb : b < (shape as).prod) {a : BinAxis α} (hk : as[k]? = some a)
    (f : BinAxis α → Nat → Res α) :
    ∃ d, (digits (shape as) b)[k]? = some d ∧ c.getBinOne f b k = f a d := by
  have hk' := (List.getElem?_eq_some_iff.1 hk).1
  obtain ⟨d, h1, h2⟩ := h.unflatten hn hb hk'
  refine ⟨d, h2, ?_⟩
  unfold getBinOne
  rw [Res.throwIf_false_of (by rw [h.dims]; omega),
    Res.throwIf_false_of (by rw [h.total_ne hn]; omega), h.axes, at_ok.2 hk]
  simp [h1]

/-- All-dimensions bin quantity. -/
theorem Holds.binVec (h : Holds c as) (hn : as ≠ []) {b : Nat}
    (hb : b < (shape as).prod) (f : BinAxis α → Nat → Res α) (g : BinAxis α → Nat → α)
    (hf : ∀ a ∈ as, ∀ i, i < a.nBins → f a i = .ok (g a i))
    (hpos : ∀ a ∈ as, 0 < a.nBins) :
    c.getBinVec f b as.length = .ok (List.zipWith g as (digits (shape as) b)) := by
  unfold getBinVec
  rw [Res.throwIf_false_of (by rw [h.total_ne hn]; omega),
    Res.throwIf_false_of (by rw [h.dims]; omega)]
  simp only [Res.ok_bind]
  have hr := digits_inRange (ns := shape as) (by
    intro n hn; simp only [shape, List.mem_map] at hn
    obtain ⟨a, ha, rfl⟩ := hn; exact hpos a ha) b
  have := Res.traverse_ok (f := fun i => (do
      let a ← idx c.axes i
      let k ← c.unflattenIndex b i
      f a k : Res α))
    (g := fun i => (List.zipWith g as (digits (shape as) b)).getD i 0) (l := List.range c.nDims) (by
      intro i hi
      rw [h.dims] at hi
      have hi : i < as.length := by simpa using hi
      obtain ⟨d, h1, h2⟩ := h.unflatten hn hb hi
      rw [h.axes, idx_of_lt hi, h1]
      simp only [Res.ok_bind]
      have hd : d < as[i].nBins := by
        have h3 := List.forall₂_iff_get.1 hr
        have h4 := h3.2 i (by simp [hi]) (by simp [hi])
        rw [List.getElem?_eq_getElem (by simpa using hi)] at h2
        simp only [Option.some.injEq] at h2
        simp only [List.get_eq_getElem, h2] at h4
        simpa [shape] using h4
      rw [hf _ (List.getElem_mem hi) d hd]
      simp only [List.getD, List.getElem?_zipWith, List.getElem?_eq_getElem hi, h2,
        Option.getD_some])
  rw [this, h.dims]
  congr 1
  apply List.ext_getElem
  · simp
  · intro i h1 h2
    simp at h1
    simp [List.getD, h1]
end

end AxisCollection
end Oxsx
