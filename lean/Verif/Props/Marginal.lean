import Verif.Props.HistogramStats
/-
Property C09 (marginalisation).
-/
set_option linter.unusedSectionVars false
set_option linter.unusedSimpArgs false
set_option linter.unusedVariables false
namespace Oxsx
open AxisCollection Histogram
variable {α : Type} [Field α] [LinearOrder α] [IsStrictOrderedRing α]

theorem content_valid {as : List (BinAxis α)} {h : Histogram α} (hv : h.Valid as) {b : Nat}
    (hb : b < h.nBins) : h.content b = h.contents.getD b 0 := by
  simp [content, hv.get hb]

theorem content_of_ok {h : Histogram α} {b : Nat} {x : α} (hx : h.getBinContent b = .ok x) :
    h.content b = x := by simp [content, hx]

/-- Positions and axes designated by a list of known names. -/
theorem exists_named (as : List (BinAxis α)) (names : List String)
    (hk : ∀ n ∈ names, n ∈ as.map (·.name)) :
    ∃ ps : List (Nat × BinAxis α), ps.map (fun p => p.2.name) = names ∧
      ∀ p ∈ ps, as[p.1]? = some p.2 := by
  induction names with
  | nil => exact ⟨[], rfl, by simp⟩
  | cons n ns ih =>
    obtain ⟨ps, h1, h2⟩ := ih (fun m hm => hk m (by simp [hm]))
    obtain ⟨a, ha, rfl⟩ := List.mem_map.1 (hk n (by simp))
    obtain ⟨i, hi⟩ := List.getElem?_of_mem ha
    exact ⟨(i, a) :: ps, by simp [h1], by
      intro p hp
      rcases List.mem_cons.1 hp with rfl | hp
      · exact hi
      · exact h2 p hp⟩

theorem pos_index {c : AxisCollection α} {as : List (BinAxis α)} (h : Holds c as)
    {ps : List (Nat × BinAxis α)} (hp : ∀ p ∈ ps, as[p.1]? = some p.2) :
    Res.traverse c.getAxisIndex (ps.map (fun p => p.2.name)) = .ok (ps.map (·.1)) := by
  rw [Res.traverse_map]
  exact Res.traverse_ok (fun p h' => h.axisIndex (hp p h'))

theorem addByName {c : AxisCollection α} {as : List (BinAxis α)} (h : Holds c as)
    {ps : List (Nat × BinAxis α)} (hp : ∀ p ∈ ps, as[p.1]? = some p.2) (d : AxisCollection α) :
    Res.forFold (fun d n => do
      let a ← c.getAxisByName n
      AxisCollection.addAxis d a) d (ps.map (fun p => p.2.name)) = d.addAxes (ps.map (·.2)) := by
  unfold AxisCollection.addAxes
  rw [Res.forFold_map, Res.forFold_map]
  apply Res.forFold_congr
  intro s p h'
  rw [h.axisByName (hp p h')]; rfl

/-- C09 (errors): an unknown axis name is a `NotFoundError`; with known names, a repeated one is a
`ValueError`. -/
theorem C09_marginalise_errors (as : List (BinAxis α)) (h : Histogram α) (hv : h.Valid as)
    (names : List String) :
    ((∃ n ∈ names, n ∉ as.map (·.name)) → h.marginalise names = .throw .notFound) ∧
    ((∀ n ∈ names, n ∈ as.map (·.name)) → ¬ names.Nodup → h.marginalise names = .throw .value) := by
  constructor
  · rintro ⟨n, hn, hnot⟩
    unfold marginalise
    rw [Res.throwIf_true_of]; · rfl
    exact ⟨n, hn, by rw [findPos_none, hv.axes.names]; exact hnot⟩
  · intro hk hnd
    obtain ⟨ps, hps, hpp⟩ := exists_named as names hk
    subst hps
    unfold marginalise
    rw [Res.throwIf_false_of]
    · simp only [Res.ok_bind]
      rw [pos_index hv.axes hpp, addByName hv.axes hpp]
      have := (C04_build (ps.map (·.2))).2.1 (by rw [List.map_map]; exact hnd)
      simp only [Res.ok_bind]
      rw [this]; rfl
    · rintro ⟨n, hn, h'⟩
      rw [findPos_none, hv.axes.names] at h'
      exact h' (hk n hn)

theorem pick_inRange {as : List (BinAxis α)} (hpos : ∀ a ∈ as, 0 < a.nBins)
    {ps : List (Nat × BinAxis α)} (hp : ∀ p ∈ ps, as[p.1]? = some p.2) (b : Nat) :
    InRange (ps.map (fun p => (digits (shape as) b).getD p.1 0)) (shape (ps.map (·.2))) := by
  unfold InRange shape
  rw [List.map_map, List.forall₂_map_right_iff, List.forall₂_map_left_iff, List.forall₂_same]
  intro p h'
  have hpp := hp p h'
  have h1 : (shape as)[p.1]? = some p.2.nBins := by simp [shape, hpp]
  have := digits_getElem? (shape as) b p.1 p.2.nBins h1
  simp only [shape] at this
  simp only [List.getD, shape, this, Option.getD_some, Function.comp]
  exact Nat.mod_lt _ (hpos _ (List.mem_of_getElem? hpp))

/-- C09: marginalising onto a non-empty list of distinct axis names. The result has exactly those axes, in
the requested order, each of its bins holds the sum of the original bins with the same indices along the
kept axes, and the integral is conserved. (For the empty list see `C09_marginalise_empty_ub`.) -/
theorem C09_marginalise (as : List (BinAxis α)) (h : Histogram α) (hv : h.Valid as)
    (hpos : ∀ a ∈ as, 0 < a.nBins) (names : List String) (hne : names ≠ [])
    (hk : ∀ n ∈ names, n ∈ as.map (·.name)) (hnd : names.Nodup) :
    ∃ m, h.marginalise names = .ok m ∧ m.axes.axisNames = names ∧
      (∀ n ∈ names, m.axes.getAxisByName n = h.axes.getAxisByName n) ∧
      (∀ b', b' < m.nBins → m.getBinContent b' = .ok
        (((List.range h.nBins).filter
          (fun b => h.indicesAlong names b = m.axes.unpackIndices b')).map h.content).sum) ∧
      m.integral = h.integral ∧ ∃ ks, m.Valid ks ∧ ks.map (·.name) = names ∧ ∀ k ∈ ks, k ∈ as := by
  obtain ⟨ps, hps, hpp⟩ := exists_named as names hk
  subst hps
  set ks := ps.map (·.2) with hks
  have hksn : ks.map (·.name) = ps.map (fun p => p.2.name) := by simp [hks]
  obtain ⟨c, hc⟩ := (C04_build ks).1 (by rw [hksn]; exact hnd)
  have hold := holds_of_addAxes hc
  have hkne : ks ≠ [] := by
    intro h0; apply hne; rw [← hksn, h0]; rfl
  have hmv : (ofAxes c).Valid ks := valid_ofAxes hold hkne
  have hkpos : ∀ a ∈ ks, 0 < a.nBins := by
    intro a ha
    obtain ⟨p, hp, rfl⟩ := List.mem_map.1 ha
    exact hpos _ (List.mem_of_getElem? (hpp p hp))
  let pick : Nat → List Nat := fun b => ps.map (fun p => (digits (shape as) b).getD p.1 0)
  have hpick : ∀ b, InRange (pick b) (shape ks) := fun b => pick_inRange hpos hpp b
  have hplen : ∀ p ∈ ps, p.1 < as.length := fun p hp => (List.getElem?_eq_some_iff.1 (hpp p hp)).1
  have hlen : h.contents.length = h.nBins := by rw [hv.len, hv.nb]
  have hstep : ∀ m b, m.Valid ks → m.axes = (ofAxes c).axes → b ∈ List.range h.nBins →
      margStep h (ps.map (·.1)) m b
        = m.addBinContent (rowMajor (shape ks) (pick b)) (h.content b) := by
    intro m b hm hax hb
    rw [List.mem_range] at hb
    have hb' := hb
    rw [hv.nb] at hb'
    unfold margStep
    have e1 : Res.traverse (fun i => h.axes.unflattenIndex b i) (List.range h.nDims)
        = .ok (digits (shape as) b) := by
      have := hv.axes.unpack hv.ne hb'
      unfold unpackIndices at this
      rw [hv.nd, ← hv.axes.dims]; exact this
    rw [e1]
    simp only [Res.ok_bind]
    have e2 : Res.traverse (fun k => at_ (digits (shape as) b) k) (ps.map (·.1)) = .ok (pick b) := by
      rw [Res.traverse_map]
      apply Res.traverse_ok
      intro p hp
      have : p.1 < (digits (shape as) b).length := by simp [hplen p hp]
      rw [at_of_lt this, List.getD, List.getElem?_eq_getElem this]; rfl
    rw [e2]
    simp only [Res.ok_bind]
    rw [hm.axes.flatten hkne (by simp [pick, hks])]
    simp only [Res.ok_bind]
    rw [at_of_lt (by omega)]
    simp only [Res.ok_bind]
    rw [content_valid hv hb]
    simp [List.getD, show b < h.contents.length by omega]
  have hbin : ∀ b ∈ List.range h.nBins, rowMajor (shape ks) (pick b) < (ofAxes c).nBins := by
    intro b _; rw [hmv.nb]; exact rowMajor_lt (hpick b)
  have hloop := hmv.accumLoop (List.range h.nBins) (fun b => rowMajor (shape ks) (pick b)) h.content
    (margStep h (ps.map (·.1))) hstep hbin
  set ops := (List.range h.nBins).map (fun b => (rowMajor (shape ks) (pick b), h.content b)) with hops
  have hopslt : ∀ p ∈ ops, p.1 < (ofAxes c).contents.length := by
    intro p hp
    rw [hops] at hp
    obtain ⟨b, hb, rfl⟩ := List.mem_map.1 hp
    rw [hmv.len, ← hmv.nb]; exact hbin b hb
  have hmv' : ({ ofAxes c with contents := accum (ofAxes c).contents ops } : Histogram α).Valid ks :=
    hmv.withContents (by simp)
  have hrun : h.marginalise (ps.map (fun p => p.2.name))
      = .ok { ofAxes c with contents := accum (ofAxes c).contents ops } := by
    unfold marginalise
    rw [Res.throwIf_false_of]
    · simp only [Res.ok_bind]
      rw [pos_index hv.axes hpp, addByName hv.axes hpp]
      simp only [Res.ok_bind]
      rw [hc]
      exact hloop
    · rintro ⟨n, hn, h'⟩
      rw [findPos_none, hv.axes.names] at h'
      exact h' (hk n hn)
  refine ⟨_, hrun, ?_, ?_, ?_, ?_, ks, hmv', hksn, ?_⟩
  · rw [hmv'.axes.names, hksn]
  · intro n hn
    obtain ⟨p, hp, rfl⟩ := List.mem_map.1 hn
    rw [hv.axes.axisByName (hpp p hp)]
    obtain ⟨i, hi⟩ := List.getElem?_of_mem (show p.2 ∈ ks from List.mem_map_of_mem hp)
    exact hmv'.axes.axisByName hi
  · intro b' hb'
    rw [hmv'.get hb', accum_getD _ _ hopslt]
    have h0 : (ofAxes c).contents.getD b' 0 = 0 := by
      rw [ofAxes_contents]; simp [List.getD, List.getElem?_replicate]; split <;> simp
    rw [h0, zero_add, hops, List.filter_map, List.map_map]
    congr 2
    simp only [Function.comp_def]
    congr 1
    apply List.filter_congr
    intro b hb
    rw [List.mem_range] at hb
    have hbp : b < (shape as).prod := by rw [← hv.nb]; exact hb
    have hb'' : b' < (shape ks).prod := by rw [← hmv'.nb]; exact hb'
    have e1 : h.indicesAlong (ps.map (fun p => p.2.name)) b = .ok (pick b) := by
      unfold indicesAlong
      rw [Res.traverse_map]
      apply Res.traverse_ok
      intro p hp
      rw [hv.axes.axisIndex (hpp p hp)]
      simp only [Res.ok_bind]
      obtain ⟨d, h1, h2⟩ := hv.axes.unflatten hv.ne hbp (hplen p hp)
      rw [h1]; simp [List.getD, h2]
    rw [e1, hmv'.axes.unpack hkne hb'']
    simp only [Res.ok.injEq, decide_eq_decide]
    constructor
    · intro h1; rw [← h1, digits_rowMajor (hpick b)]
    · intro h1; rw [h1, rowMajor_digits hb'']
  · rw [hmv'.integral, hv.integral, accum_sum _ _ hopslt, ofAxes_contents, hops, List.map_map]
    rw [show (List.replicate c.nBins (0:α)).sum = 0 by simp, zero_add]
    rw [sum_eq_getD_range _ _ hlen]
    congr 1
    apply List.map_congr_left
    intro b hb
    rw [List.mem_range] at hb
    simp [content_valid hv hb]
  · intro k hk'
    obtain ⟨p, hp, rfl⟩ := List.mem_map.1 hk'
    exact List.mem_of_getElem? (hpp p hp)

/-- Boundary fact: marginalising onto the empty list of axes passes every check and then flattens an empty
index vector: undefined behaviour. -/
theorem C09_marginalise_empty_ub (as : List (BinAxis α)) (h : Histogram α) (hv : h.Valid as)
    (hpos : ∀ a ∈ as, 0 < a.nBins) : h.marginalise [] = .ub := by
  unfold marginalise
  rw [Res.throwIf_false_of (by simp)]
  simp only [Res.ok_bind, Res.traverse, Res.forFold]
  have hp : 0 < (shape as).prod := prod_pos_of (by
    intro n hn; simp only [shape, List.mem_map] at hn
    obtain ⟨a, ha, rfl⟩ := hn; exact hpos a ha)
  obtain ⟨k, hk⟩ : ∃ k, h.nBins = k + 1 := ⟨h.nBins - 1, by rw [hv.nb]; omega⟩
  rw [hk, List.range_succ_eq_map]
  simp only [Res.forFold]
  have : margStep h [] (ofAxes empty) 0 = .ub := by
    unfold margStep
    have e1 : Res.traverse (fun i => h.axes.unflattenIndex 0 i) (List.range h.nDims)
        = .ok (digits (shape as) 0) := by
      have := hv.axes.unpack hv.ne (b := 0) (by omega)
      unfold unpackIndices at this
      rw [hv.nd, ← hv.axes.dims]; exact this
    rw [e1]
    simp only [Res.ok_bind, Res.traverse]
    rw [show (ofAxes (empty : AxisCollection α)).axes.flattenIndices [] = .ub from C04_flatten_noAxes_ub]
    rfl
  rw [this]

/-- Non-vacuity of C09: projecting the 2 x 3 x 2 example onto z and x. -/
example : ∃ h : Histogram ℚ, h.Valid exAxes ∧ (∀ a ∈ exAxes, 0 < a.nBins) ∧ ["z", "x"] ≠ [] ∧
    (∀ n ∈ ["z", "x"], n ∈ exAxes.map (·.name)) ∧ ["z", "x"].Nodup ∧ h.integral = 10 := by
  obtain ⟨c, h, _, _, _, h1, h2⟩ := exHist_reachable
  exact ⟨h, h1, by decide, by decide, by decide +kernel, by decide +kernel, h2⟩

end Oxsx
