import Verif.Props.HistTools
import Mathlib.Data.List.Perm.Basic
import Mathlib.Algebra.BigOperators.Group.List.Basic
set_option linter.unusedSectionVars false
set_option linter.unusedSimpArgs false
set_option linter.unusedVariables false
/-
C73: the one-dimensional slices along an axis add up to the projection onto that axis.
-/
namespace Oxsx
open Histogram AxisCollection
open scoped List
variable {α : Type} [Field α] [LinearOrder α] [IsStrictOrderedRing α]

theorem getD_take_drop {pre : Nat} {v : List Nat} (i : Nat) (h : pre ≤ v.length) : (v.take pre ++ i :: v.drop pre)[pre]? = some i := by
  rw [List.getElem?_append_right (by simp)]
  simp [h]

/-- Sum over an index swapped with a sum over another one. -/
theorem slices_sum_comm {β γ : Type} (l : List β) (k : List γ) (f : β → γ → α) :
    (l.map (fun b => (k.map (fun c => f b c)).sum)).sum = (k.map (fun c => (l.map (fun b => f b c)).sum)).sum := by
  induction l with
  | nil => simp
  | cons b l ih =>
    simp only [List.map_cons, List.sum_cons, ih]
    rw [← List.sum_map_add]

theorem inRange_insert {pre post : List (BinAxis α)} {a : BinAxis α} {v : List Nat} {i : Nat}
    (hv : List.Forall₂ (fun i (x : BinAxis α) => i < x.nBins) v (pre ++ post)) (hi : i < a.nBins) :
    InRange (v.take pre.length ++ i :: v.drop pre.length) (shape (pre ++ a :: post)) := by
  have h1 : List.Forall₂ (fun i (x : BinAxis α) => i < x.nBins) (v.take pre.length) pre := by
    have := List.forall₂_take pre.length hv
    simpa using this
  have h2 : List.Forall₂ (fun i (x : BinAxis α) => i < x.nBins) (v.drop pre.length) post := by
    have := List.forall₂_drop pre.length hv
    simpa using this
  unfold InRange shape
  rw [List.forall₂_map_right_iff]
  exact List.rel_append h1 (List.Forall₂.cons hi h2)

theorem inRange_split {pre post : List (BinAxis α)} {a : BinAxis α} {ds : List Nat} (h : InRange ds (shape (pre ++ a :: post))) :
    ∃ v i, ds = v.take pre.length ++ i :: v.drop pre.length ∧ List.Forall₂ (fun i (x : BinAxis α) => i < x.nBins) v (pre ++ post) ∧
      i < a.nBins := by
  unfold InRange shape at h
  rw [List.forall₂_map_right_iff] at h
  have hlen := h.length_eq
  obtain ⟨u, w, hu, hw, rfl⟩ : ∃ u w, List.Forall₂ (fun i (x : BinAxis α) => i < x.nBins) u pre ∧
      List.Forall₂ (fun i (x : BinAxis α) => i < x.nBins) w (a :: post) ∧ ds = u ++ w := by
    refine ⟨ds.take pre.length, ds.drop pre.length, ?_, ?_, (List.take_append_drop _ _).symm⟩
    · have := List.forall₂_take pre.length h; simpa using this
    · have := List.forall₂_drop pre.length h; simpa using this
  cases hw with
  | @cons i _ w' _ hi hw' =>
    refine ⟨u ++ w', i, ?_, List.rel_append hu hw', hi⟩
    have hul := hu.length_eq
    rw [← hul]; simp

/-- C73: for any histogram and any of its axes, the slices along it, one for every combination of bins of the other axes, add up bin by bin to
the projection onto the axis, and all their contents together to the integral: no cell is left out or counted twice. -/
theorem C73_slices_sum {pre post : List (BinAxis α)} {a : BinAxis α} {h : Histogram α} (hv : h.Valid (pre ++ a :: post))
    (hpos : ∀ x ∈ pre ++ a :: post, 0 < x.nBins) :
    ∃ slices m, HistTools.get1DSlices h a.name = .ok slices ∧ h.marginalise [a.name] = .ok m ∧ m.nBins = a.nBins ∧
      (∀ i, i < a.nBins → m.getBinContent i = .ok ((slices.map (fun s => s.content i)).sum)) ∧
      (slices.map (fun s => ((List.range a.nBins).map s.content).sum)).sum = h.integral := by
  obtain ⟨combs, slices, h1, hnd, hmem, hlen, hsl⟩ := C73_slices hv hpos
  obtain ⟨m, m1, m2, m3, m4, m5, ks, m6, m7, m8⟩ := C09_marginalise _ h hv hpos [a.name] (by simp) (by simp) (by simp)
  have hpl : (pre ++ a :: post)[pre.length]? = some a := by simp
  have hks : ks = [a] := by
    match ks, m7, m8 with
    | [], e, _ => simp at e
    | [k], e, hk =>
      simp only [List.map_cons, List.map_nil, List.cons.injEq, and_true] at e
      have hkm := hk k (by simp)
      obtain ⟨j, hj, hje⟩ := List.mem_iff_getElem.1 hkm
      have n1 : ((pre ++ a :: post).map (·.name))[j]? = some a.name := by
        rw [List.getElem?_map, List.getElem?_eq_getElem hj, hje, Option.map_some, e]
      have n2 : ((pre ++ a :: post).map (·.name))[pre.length]? = some a.name := by
        rw [List.getElem?_map, hpl, Option.map_some]
      have := (List.getElem?_inj (List.getElem?_eq_some_iff.1 n1).1 hv.axes.nodup).1 (n1.trans n2.symm)
      subst this
      rw [List.getElem?_eq_getElem hj, hje] at hpl
      rw [Option.some.inj hpl]
    | _ :: _ :: _, e, _ => simp at e
  subst hks
  have hmn : m.nBins = a.nBins := by rw [m6.nb]; simp [shape]
  have hne := hv.ne
  -- the cell of one combination and one bin
  let cell : Nat → List Nat → Nat := fun i v => rowMajor (shape (pre ++ a :: post)) (v.take pre.length ++ i :: v.drop pre.length)
  have hslice : ∀ i, i < a.nBins → slices.map (fun s => s.content i) = combs.map (fun v => h.content (cell i v)) := by
    intro i hi
    apply List.ext_getElem
    · simp [hlen]
    · intro k hk1 hk2
      simp only [List.length_map] at hk1 hk2
      simp only [List.getElem_map]
      obtain ⟨_, _, hc⟩ := hsl k _ _ (List.getElem?_eq_getElem hk2) (List.getElem?_eq_getElem hk1)
      obtain ⟨b, hb1, hb2⟩ := hc i hi
      have hvr := (hmem combs[k]).1 (List.getElem_mem hk2)
      have hr := inRange_insert (a := a) hvr hi
      rw [hv.axes.flatten hne (by rw [hr.length, shape_length])] at hb1
      unfold Histogram.content
      rw [hb2, ← Res.ok.inj hb1]
  have hbin : ∀ i, i < a.nBins → m.getBinContent i = .ok ((slices.map (fun s => s.content i)).sum) := by
    intro i hi
    rw [m4 i (by rw [hmn]; exact hi), hslice i hi]
    congr 1
    have hun : m.axes.unpackIndices i = .ok [i] := by
      rw [m6.axes.unpack (by simp) (by simpa [shape] using hi)]
      simp [shape, digits, Nat.mod_eq_of_lt hi]
    have hperm : (List.range h.nBins).filter (fun b => decide (h.indicesAlong [a.name] b = m.axes.unpackIndices i)) ~ combs.map (cell i) := by
      refine (List.perm_ext_iff_of_nodup (List.nodup_range.filter _) ?_).2 ?_
      · refine List.Nodup.map_on ?_ hnd
        intro v hv1 w hw1 he
        have r1 := inRange_insert (a := a) ((hmem v).1 hv1) hi
        have r2 := inRange_insert (a := a) ((hmem w).1 hw1) hi
        have := rowMajor_inj r1 r2 he
        have l1 : pre.length ≤ v.length := by rw [((hmem v).1 hv1).length_eq]; simp
        have l2 : pre.length ≤ w.length := by rw [((hmem w).1 hw1).length_eq]; simp
        have t := List.append_inj this (by simp [l1, l2])
        rw [← List.take_append_drop pre.length v, ← List.take_append_drop pre.length w, t.1, (List.cons.inj t.2).2]
      · intro b
        have hind : b < h.nBins → h.indicesAlong [a.name] b = .ok [((digits (shape (pre ++ a :: post)) b).getD pre.length 0)] := by
          intro hb
          unfold Histogram.indicesAlong
          obtain ⟨d, e1, e2⟩ := hv.axes.unflatten hne (b := b) (k := pre.length) (by rw [← hv.nb]; exact hb) (by simp)
          rw [List.getD_eq_getElem?_getD, e2]
          simp only [Res.traverse]
          rw [hv.axes.axisIndex hpl]
          simp only [Res.ok_bind]
          rw [e1]; rfl
        simp only [List.mem_filter, List.mem_range, List.mem_map, decide_eq_true_eq]
        constructor
        · rintro ⟨hb, he⟩
          rw [hind hb, hun] at he
          have he' : (digits (shape (pre ++ a :: post)) b).getD pre.length 0 = i := by simpa using Res.ok.inj he
          obtain ⟨v, j, hd, hvr, hj⟩ := inRange_split (a := a) (post := post) (pre := pre) (digits_inRange (ns := shape (pre ++ a :: post)) (by
            intro n hn
            obtain ⟨x, hx, rfl⟩ := List.mem_map.1 hn
            exact hpos x hx) b)
          have hvl : pre.length ≤ v.length := by rw [hvr.length_eq]; simp
          have hji : j = i := by
            rw [hd, List.getD_eq_getElem?_getD, getD_take_drop j hvl] at he'
            simpa using he'
          subst hji
          refine ⟨v, (hmem v).2 hvr, ?_⟩
          show rowMajor _ _ = b
          rw [← hd]
          exact rowMajor_digits (by rw [← hv.nb]; exact hb)
        · rintro ⟨v, hv1, rfl⟩
          have hvr := (hmem v).1 hv1
          have r := inRange_insert (a := a) hvr hi
          have hlt : cell i v < h.nBins := by rw [hv.nb]; exact rowMajor_lt r
          refine ⟨hlt, ?_⟩
          rw [hind hlt, hun]
          have hvl : pre.length ≤ v.length := by rw [hvr.length_eq]; simp
          show Res.ok [(digits _ (rowMajor _ _)).getD _ 0] = _
          rw [digits_rowMajor r, List.getD_eq_getElem?_getD, getD_take_drop i hvl]; rfl
    have := (hperm.map h.content).sum_eq
    rw [this, List.map_map]; rfl
  refine ⟨slices, m, h1, m1, hmn, hbin, ?_⟩
  rw [← m5, m6.integral, slices_sum_comm]
  congr 1
  apply List.ext_getElem
  · simp [m6.len, shape]
  · intro i hi1 hi2
    simp only [List.length_map, List.length_range] at hi1
    have := hbin i hi1
    rw [m6.get (by rw [hmn]; exact hi1)] at this
    simp only [List.getElem_map, List.getElem_range]
    rw [← Res.ok.inj this, List.getD_eq_getElem?_getD, List.getElem?_eq_getElem hi2]; rfl

/-! ### Non-vacuity -/

/-- The middle axis of the 2 x 3 x 2 histogram: four slices of three bins. -/
example : ∃ slices m, HistTools.get1DSlices exHist "y" = .ok slices ∧ exHist.marginalise ["y"] = .ok m ∧ slices.length = 4 ∧
    m.contents = [0 + 1 + 6 + 7, 2 + 3 + 8 + 9, 4 + 5 + 10 + 11] ∧ exHist.integral = 66 := by
  have hk : (HistTools.get1DSlices exHist "y" >>= fun s => exHist.marginalise ["y"] >>= fun m => Res.ok (s.length, m.contents))
      = .ok (4, [0 + 1 + 6 + 7, 2 + 3 + 8 + 9, 4 + 5 + 10 + 11]) := by decide +kernel
  obtain ⟨s, h1, h2⟩ := Res.bind_eq_ok.1 hk
  obtain ⟨m, h3, h4⟩ := Res.bind_eq_ok.1 h2
  have h5 := Prod.mk.inj (Res.ok.inj h4)
  exact ⟨s, m, h1, h3, h5.1, h5.2, by decide +kernel⟩

example : exAxes = (exAxes.take 1) ++ exAxes[1] :: (exAxes.drop 2) ∧ ∀ x ∈ exAxes, 0 < x.nBins := ⟨rfl, by decide +kernel⟩

end Oxsx
