import Verif.Props.Marginal
import Verif.Spec.Slice
/-
Property C10 (slices).
-/
set_option linter.unusedSectionVars false
set_option linter.unusedSimpArgs false
set_option linter.unusedVariables false
namespace Oxsx
open AxisCollection Histogram
variable {α : Type} [Field α] [LinearOrder α] [IsStrictOrderedRing α]

/-! ### Enumeration of the free indices -/

/-- Positions of the free axes. -/
def freePos (fixed : List (String × Nat)) : List String → List Nat
  | [] => []
  | n :: ns =>
    if (fixed.lookup n).isNone then 0 :: (freePos fixed ns).map (· + 1)
    else (freePos fixed ns).map (· + 1)

/-- Start value of the coordinate vector. -/
def startCoords (fixed : List (String × Nat)) (ns : List String) : List Nat :=
  ns.map (fun n => (fixed.lookup n).getD 0)

def setL : List Nat → List Nat → List Nat → List Nat
  | c, a :: as, d :: ds => setL (c.set a d) as ds
  | c, _, _ => c

def setR (c : List Nat) : List Nat → List Nat → List Nat
  | a :: as, d :: ds => (setR c as ds).set a d
  | _, _ => c

def recPure : List (Nat × Nat) → List Nat → List (List Nat)
  | [], c => [c]
  | (ax, nb) :: r, c => (List.range nb).flatMap (fun i => recPure r (c.set ax i))

theorem freePos_get (fixed : List (String × Nat)) (ns : List String) :
    (freePos fixed ns).map (fun k => ns.getD k "") = ns.filter (fun n => (fixed.lookup n).isNone) ∧
    ∀ k ∈ freePos fixed ns, k < ns.length := by
  induction ns with
  | nil => simp [freePos]
  | cons n ns ih =>
    have h1 : ((freePos fixed ns).map (· + 1)).map (fun k => (n :: ns).getD k "")
        = ns.filter (fun n => (fixed.lookup n).isNone) := by
      rw [List.map_map, ← ih.1]
      apply List.map_congr_left
      intro k _
      simp [List.getD]
    unfold freePos
    split
    · rename_i h
      constructor
      · rw [List.map_cons, h1, List.filter_cons_of_pos (by simpa using h)]; simp [List.getD]
      · intro k hk
        rcases List.mem_cons.1 hk with rfl | hk
        · simp
        · obtain ⟨j, hj, rfl⟩ := List.mem_map.1 hk
          have := ih.2 j hj; simp; omega
    · rename_i h
      constructor
      · rw [h1, List.filter_cons_of_neg (by simpa using h)]
      · intro k hk
        obtain ⟨j, hj, rfl⟩ := List.mem_map.1 hk
        have := ih.2 j hj; simp; omega

theorem setR_succ (c0 : Nat) (c : List Nat) (as ds : List Nat) :
    setR (c0 :: c) (as.map (· + 1)) ds = c0 :: setR c as ds := by
  induction as generalizing ds with
  | nil => cases ds <;> rfl
  | cons a as ih =>
    cases ds with
    | nil => rfl
    | cons d ds => simp only [List.map_cons, setR, ih, List.set_cons_succ]

theorem setR_merge (fixed : List (String × Nat)) (ns : List String) (js : List Nat)
    (hl : js.length = (ns.filter (fun n => (fixed.lookup n).isNone)).length) :
    setR (startCoords fixed ns) (freePos fixed ns) js = mergeIdx fixed ns js := by
  induction ns generalizing js with
  | nil => cases js <;> rfl
  | cons n ns ih =>
    unfold freePos mergeIdx startCoords
    cases hlook : fixed.lookup n with
    | some v =>
      simp only [Option.isNone_some, Bool.false_eq_true, if_false, List.map_cons, hlook,
        Option.getD_some]
      rw [setR_succ]
      congr 1
      exact ih js (by rw [List.filter_cons_of_neg (by simp [hlook])] at hl; exact hl)
    | none =>
      rw [List.filter_cons_of_pos (by simp [hlook])] at hl
      cases js with
      | nil => simp at hl
      | cons j js =>
        simp only [Option.isNone_none, if_true, List.map_cons, hlook, Option.getD_none, setR,
          List.headD_cons, List.tail_cons]
        rw [setR_succ]
        simp only [List.set_cons_zero]
        congr 1
        exact ih js (by simpa using hl)

theorem setR_append (c : List Nat) (as ds : List Nat) (a d : Nat) (h : as.length = ds.length) :
    setR c (as ++ [a]) (ds ++ [d]) = setR (c.set a d) as ds := by
  induction as generalizing ds with
  | nil => cases ds <;> simp_all [setR]
  | cons x as ih =>
    cases ds with
    | nil => simp at h
    | cons y ds =>
      simp only [List.cons_append, setR]
      rw [ih ds (by simpa using h)]

theorem setL_eq_setR (c : List Nat) (as ds : List Nat) (h : as.length = ds.length) :
    setL c as ds = setR c as.reverse ds.reverse := by
  induction as generalizing ds c with
  | nil => cases ds <;> simp_all [setL, setR]
  | cons a as ih =>
    cases ds with
    | nil => simp at h
    | cons d ds =>
      simp only [setL, List.reverse_cons]
      rw [ih _ ds (by simpa using h), setR_append _ _ _ _ _ (by simpa using h)]

theorem setR_length (c as ds : List Nat) : (setR c as ds).length = c.length := by
  induction as generalizing ds with
  | nil => cases ds <;> rfl
  | cons a as ih => cases ds <;> simp [setR, ih]

theorem digits_add_mul (ns : List Nat) (k i : Nat) : digits ns (k + i * ns.prod) = digits ns k := by
  induction ns generalizing i with
  | nil => rfl
  | cons n ns ih =>
    simp only [digits, List.prod_cons]
    congr 1
    · rcases Nat.eq_zero_or_pos ns.prod with h | h
      · simp [h]
      · rw [show i * (n * ns.prod) = (i * n) * ns.prod by ring, Nat.add_mul_div_right _ _ h,
          Nat.add_mul_mod_self_right]
    · rw [show i * (n * ns.prod) = (i * n) * ns.prod by ring]; exact ih _

theorem range_mul (n p : Nat) : List.range (n * p)
    = (List.range n).flatMap (fun i => (List.range p).map (fun k => k + i * p)) := by
  induction n with
  | zero => simp
  | succ n ih =>
    rw [Nat.succ_mul, List.range_add, List.range_succ, List.flatMap_append, ih]
    simp [Nat.add_comm]

theorem recPure_eq (rp : List (Nat × Nat)) (c : List Nat) :
    recPure rp c = (List.range (rp.map (·.2)).prod).map
      (fun k => setL c (rp.map (·.1)) (digits (rp.map (·.2)) k)) := by
  induction rp generalizing c with
  | nil => simp [recPure, setL]
  | cons p r ih =>
    obtain ⟨ax, nb⟩ := p
    simp only [recPure, List.map_cons, List.prod_cons]
    rw [range_mul, List.map_flatMap]
    apply List.flatMap_congr
    intro i hi
    rw [List.mem_range] at hi
    rw [ih, List.map_map]
    apply List.map_congr_left
    intro k hk
    rw [List.mem_range] at hk
    simp only [Function.comp, digits, setL, digits_add_mul]
    rw [Nat.add_mul_div_right _ _ (by omega), Nat.div_eq_of_lt hk, Nat.zero_add, Nat.mod_eq_of_lt hi]

theorem recurse_eq (free bins : List Nat) (hlen : bins.length = free.length) (n : Nat)
    (hn : n ≤ free.length) (c : List Nat) (hf : ∀ a ∈ free, a < c.length) :
    recurse n bins c free = .ok (recPure ((free.zip bins).take n).reverse c) := by
  induction n generalizing c with
  | zero => simp [recurse, recPure]
  | succ n ih =>
    have hb : n < bins.length := by omega
    have hz : n < (free.zip bins).length := by simp; omega
    unfold recurse
    rw [at_of_lt hb]
    simp only [Res.ok_bind]
    have e : ((free.zip bins).take (n + 1)).reverse
        = (free[n], bins[n]) :: ((free.zip bins).take n).reverse := by
      rw [List.take_succ_eq_append_getElem hz, List.reverse_append]; simp
    rw [e]
    have key : ∀ (m : Nat), m ≤ bins[n] → ∃ c', (∀ i, c'.set (free[n]) i = c.set (free[n]) i) ∧
        c'.length = c.length ∧
        Res.forFold (fun (s : List Nat × List (List Nat)) i => (do
          let ax ← idx free n
          let coords' ← setIdx s.1 ax i
          let sub ← recurse n bins coords' free
          pure (coords', s.2 ++ sub) : Res (List Nat × List (List Nat)))) (c, []) (List.range m)
        = .ok (c', (List.range m).flatMap
            (fun i => recPure ((free.zip bins).take n).reverse (c.set free[n] i))) := by
      intro m
      induction m with
      | zero => intro _; exact ⟨c, by simp, rfl, rfl⟩
      | succ m ihm =>
        intro hm
        obtain ⟨c', h1, h2, h3⟩ := ihm (by omega)
        refine ⟨c.set free[n] m, by simp, by simp, ?_⟩
        rw [List.range_succ, Res.forFold_append, h3]
        simp only [Res.bind, Res.forFold]
        rw [idx_of_lt (by omega)]
        simp only [Res.ok_bind]
        have hlt : free[n] < c'.length := by rw [h2]; exact hf _ (List.getElem_mem _)
        rw [setIdx_of_lt hlt]
        simp only [Res.ok_bind]
        rw [ih (by omega) _ (by intro a ha; rw [List.length_set, h2]; exact hf a ha)]
        simp only [Res.ok_bind, h1]
        simp [List.flatMap_append]
    obtain ⟨c', _, _, h3⟩ := key bins[n] le_rfl
    rw [h3]
    rfl

/-! ### The slice loop -/

theorem slice_loop {ks : List (BinAxis α)} {s : Histogram α} (hs : s.Valid ks) {β : Type} (val : β → α)
    (f : Histogram α × Nat → β → Res (Histogram α × Nat)) (l : List β)
    (hf : ∀ t b, b ∈ l → f t b = (do
      let s' ← t.1.addBinContent t.2 (val b)
      pure (s', t.2 + 1)))
    (pre : List α) (hc : s.contents = pre ++ List.replicate l.length 0) :
    Res.forFold f (s, pre.length) l
      = .ok ({ s with contents := pre ++ l.map val }, pre.length + l.length) := by
  induction l generalizing s pre with
  | nil => simp only [Res.forFold]; simp at hc; simp [← hc]
  | cons b l ih =>
    have hlen : pre.length < s.nBins := by rw [hs.nb, ← hs.len, hc]; simp
    simp only [Res.forFold]
    rw [hf _ _ (by simp)]
    simp only
    rw [hs.addBin hlen]
    simp only [Res.ok_bind, Res.pure_eq]
    have hv' : ({ s with contents := addAt s.contents pre.length (val b) } : Histogram α).Valid ks :=
      hs.withContents (by simp)
    have hc' : addAt s.contents pre.length (val b) = (pre ++ [val b]) ++ List.replicate l.length 0 := by
      rw [hc]; unfold addAt
      simp [List.getD, List.replicate_succ, List.set_append]
    have := ih hv' (fun t b hb => hf t b (by simp [hb])) (pre ++ [val b]) hc'
    simp only [List.length_append, List.length_singleton] at this
    rw [this]
    simp; omega

/-! ### C10 -/

/-- C10 (errors): an unknown fixed axis is a `NotFoundError`; fixing as many axes as there are (or more) is
a `DimensionError`. -/
theorem C10_slice_errors (as : List (BinAxis α)) (h : Histogram α) (hv : h.Valid as)
    (fixed : List (String × Nat)) :
    ((∃ p ∈ fixed, p.1 ∉ as.map (·.name)) → h.getSlice fixed = .throw .notFound) ∧
    ((∀ p ∈ fixed, p.1 ∈ as.map (·.name)) → as.length ≤ fixed.length →
      h.getSlice fixed = .throw .dimension) := by
  constructor
  · rintro ⟨p, hp, hnot⟩
    unfold getSlice
    rw [Res.throwIf_true_of]; · rfl
    exact ⟨p, hp, by rw [findPos_none, hv.axes.names]; exact hnot⟩
  · intro hk hl
    unfold getSlice
    rw [Res.throwIf_false_of, Res.throwIf_true_of]
    · rfl
    · rw [hv.nd]; exact hl
    · rintro ⟨p, hp, h'⟩
      rw [findPos_none, hv.axes.names] at h'
      exact h' (hk p hp)

theorem mergeIdx_length (fixed : List (String × Nat)) (ns : List String) (js : List Nat) :
    (mergeIdx fixed ns js).length = ns.length := by
  induction ns generalizing js with
  | nil => rfl
  | cons n ns ih => unfold mergeIdx; split <;> simp [ih]

/-- The kept axes. -/
def freeAxes (fixed : List (String × Nat)) (as : List (BinAxis α)) : List (BinAxis α) :=
  as.filter (fun a => (fixed.lookup a.name).isNone)

theorem mergeIdx_inRange (fixed : List (String × Nat)) (as : List (BinAxis α)) (js : List Nat)
    (hj : InRange js (shape (freeAxes fixed as)))
    (hfix : ∀ a ∈ as, ∀ v, fixed.lookup a.name = some v → v < a.nBins) :
    InRange (mergeIdx fixed (as.map (·.name)) js) (shape as) := by
  induction as generalizing js with
  | nil => exact List.Forall₂.nil
  | cons a as ih =>
    simp only [List.map_cons, mergeIdx, shape]
    unfold freeAxes at hj
    cases hl : fixed.lookup a.name with
    | some v =>
      rw [List.filter_cons_of_neg (by simp [hl])] at hj
      exact List.Forall₂.cons (hfix a (by simp) v hl) (ih js hj (fun b hb => hfix b (by simp [hb])))
    | none =>
      rw [List.filter_cons_of_pos (by simp [hl])] at hj
      cases hj with
      | cons h1 h2 =>
        exact List.Forall₂.cons h1 (ih _ h2 (fun b hb => hfix b (by simp [hb])))

theorem freeAxes_ne (fixed : List (String × Nat)) (as : List (BinAxis α))
    (hnd : (as.map (·.name)).Nodup) (hlt : fixed.length < as.length) : freeAxes fixed as ≠ [] := by
  intro h0
  unfold freeAxes at h0
  rw [List.filter_eq_nil_iff] at h0
  have hsub : as.map (·.name) ⊆ fixed.map (·.1) := by
    intro n hn
    obtain ⟨a, ha, rfl⟩ := List.mem_map.1 hn
    have := h0 a ha
    cases hl : fixed.lookup a.name with
    | none => simp [hl] at this
    | some v =>
      have : ∀ (l : List (String × Nat)) n v, l.lookup n = some v → n ∈ l.map (·.1) := by
        intro l n v
        induction l with
        | nil => intro h; cases h
        | cons p l ih =>
          obtain ⟨x, y⟩ := p
          simp only [List.lookup]
          split
          · rename_i heq; simp at heq; intro _; simp [heq]
          · intro h; simp only [List.map_cons, List.mem_cons]; exact Or.inr (ih h)
      exact this _ _ _ hl
  have := (hnd.subperm hsub).length_le
  simp at this; omega

/-- What the code computes (all cases): the slice has the kept axes in their original order, and the
original cell with kept indices `js` ends up in the slice bin numbered with the **first** kept axis
varying fastest (`rowMajor` of the reversed shape), not in bin `FlattenIndices(js)`. -/
theorem C10_slice_layout (as : List (BinAxis α)) (h : Histogram α) (hv : h.Valid as)
    (hpos : ∀ a ∈ as, 0 < a.nBins) (fixed : List (String × Nat))
    (hk : ∀ p ∈ fixed, p.1 ∈ as.map (·.name)) (hlt : fixed.length < as.length)
    (hfix : ∀ a ∈ as, ∀ v, fixed.lookup a.name = some v → v < a.nBins) :
    ∃ s, h.getSlice fixed = .ok s ∧ s.Valid (freeAxes fixed as) ∧
      ∀ js, InRange js (shape (freeAxes fixed as)) → ∃ b,
        h.axes.flattenIndices (mergeIdx fixed h.axes.axisNames js) = .ok b ∧ b < h.nBins ∧
        s.getBinContent (rowMajor (shape (freeAxes fixed as)).reverse js.reverse) = h.getBinContent b := by
  set ks := freeAxes fixed as with hks
  have hn := hv.axes.names
  have hnd := hv.axes.nodup
  have hkne : ks ≠ [] := freeAxes_ne fixed as hnd hlt
  have hknd : (ks.map (·.name)).Nodup := (List.Sublist.map _ List.filter_sublist).nodup hnd
  have hkspos : ∀ n ∈ shape ks, 0 < n := by
    intro n hn; obtain ⟨a, ha, rfl⟩ := List.mem_map.1 hn
    exact hpos a (List.mem_filter.1 ha).1
  have hfree : (as.map (·.name)).filter (fun n => (fixed.lookup n).isNone) = ks.map (·.name) := by
    rw [List.filter_map]; rfl
  obtain ⟨hfp, hfplt⟩ := freePos_get fixed (as.map (·.name))
  set fp := freePos fixed (as.map (·.name)) with hfpdef
  have hfplen : fp.length = ks.length := by
    have := congrArg List.length hfp
    rw [hfree] at this; simpa using this
  -- steps of the function
  have s1 : Res.traverse h.axes.getAxisIndex (ks.map (·.name)) = .ok fp := by
    rw [← hfree, ← hfp, Res.traverse_map]
    have := Res.traverse_ok (f := fun k => h.axes.getAxisIndex ((as.map (·.name)).getD k ""))
      (g := fun k => k) (l := fp) (by
        intro k hk'
        have hlt' := hfplt k hk'
        have : (as.map (·.name))[k]? = some ((as.map (·.name)).getD k "") := by
          simp only [List.getD, List.getElem?_eq_getElem hlt', Option.getD_some]
        unfold getAxisIndex
        rw [hn, findPos_eq_of_nodup hnd this])
    simpa using this
  have hfpax : ∀ i : Nat, ∀ k : Nat, fp[i]? = some k → ks[i]? = as[k]? := by
    intro i k hik
    have hklt := hfplt k (List.mem_of_getElem? hik)
    have hi : i < fp.length := (List.getElem?_eq_some_iff.1 hik).1
    have h1 : (ks.map (·.name))[i]? = some ((as.map (·.name)).getD k "") := by
      rw [← hfree, ← hfp, List.getElem?_map, hik]; rfl
    have hi' : i < ks.length := by omega
    have hkl : k < as.length := by simpa using hklt
    rw [List.getElem?_eq_getElem hi', List.getElem?_eq_getElem hkl]
    congr 1
    have hmem : ks[i] ∈ as := (List.mem_filter.1 (List.getElem_mem hi')).1
    obtain ⟨j, hj⟩ := List.getElem?_of_mem hmem
    have e1 : (as.map (·.name))[j]? = some ks[i].name := by simp [hj]
    have e2 : (as.map (·.name))[k]? = some ks[i].name := by
      simp only [List.getElem?_map, List.getElem?_eq_getElem hi', Option.map_some,
        Option.some.injEq] at h1
      rw [h1]
      simp only [List.getD, List.getElem?_eq_getElem hklt, Option.getD_some]
    have := nodup_getElem?_inj hnd e1 e2
    subst this
    rw [List.getElem?_eq_getElem hkl] at hj
    exact (Option.some.inj hj).symm
  obtain ⟨c, hc⟩ := (C04_build ks).1 hknd
  have hold := holds_of_addAxes hc
  have s2 : Res.forFold (fun c i => do
      let a ← h.axes.getAxis i
      AxisCollection.addAxis c a) AxisCollection.empty fp = .ok c := by
    rw [← hc]
    unfold AxisCollection.addAxes
    -- both sides as folds over the positions
    have gen : ∀ (l : List Nat) (ms : List (BinAxis α)) (d : AxisCollection α),
        l.length = ms.length → (∀ (i k : Nat), l[i]? = some k → ms[i]? = as[k]?) →
        Res.forFold (fun c i => do
          let a ← h.axes.getAxis i
          AxisCollection.addAxis c a) d l = Res.forFold AxisCollection.addAxis d ms := by
      intro l
      induction l with
      | nil => intro ms d hl _; cases ms <;> simp_all [Res.forFold]
      | cons k l ih =>
        intro ms d hl hget
        cases ms with
        | nil => simp at hl
        | cons a ms =>
          have h0 := hget 0 k rfl
          simp at h0
          have : h.axes.getAxis k = .ok a := by
            unfold AxisCollection.getAxis at_
            rw [hv.axes.axes, ← h0]; rfl
          simp only [Res.forFold, this, Res.ok_bind]
          cases hadd : AxisCollection.addAxis d a with
          | ok d' =>
            simp only
            exact ih ms d' (by simpa using hl) (fun i k' hik => by simpa using hget (i + 1) k' (by simpa using hik))
          | throw e => rfl
          | ub => rfl
    exact gen fp ks _ hfplen hfpax
  have s3 : Res.traverse (fun n => do
      let a ← c.getAxisByName n
      pure a.nBins) (ks.map (·.name)) = .ok (shape ks) := by
    rw [Res.traverse_map]
    have := Res.traverse_ok (f := fun a : BinAxis α => (do
      let a ← c.getAxisByName a.name
      pure a.nBins : Res Nat)) (g := fun a => a.nBins) (l := ks) (by
      intro a ha
      obtain ⟨i, hi⟩ := List.getElem?_of_mem ha
      rw [hold.axisByName hi]; rfl)
    exact this
  have s4 : Res.traverse (fun i => do
      let f ← at_ ((as.map (·.name)).map (fun n => (fixed.lookup n).isSome)) i
      if f then do
        let n ← idx (as.map (·.name)) i
        match fixed.lookup n with
        | some b => pure b
        | none => .throw .outOfRange
      else pure 0) (List.range as.length) = .ok (startCoords fixed (as.map (·.name))) := by
    have := Res.traverse_ok (f := fun i => (do
      let f ← at_ ((as.map (·.name)).map (fun n => (fixed.lookup n).isSome)) i
      if f then do
        let n ← idx (as.map (·.name)) i
        match fixed.lookup n with
        | some b => pure b
        | none => .throw .outOfRange
      else pure 0 : Res Nat)) (l := List.range as.length)
      (g := fun i => (fixed.lookup ((as.map (·.name)).getD i "")).getD 0) (by
      intro i hi
      rw [List.mem_range] at hi
      have hi' : i < (as.map (·.name)).length := by simpa using hi
      rw [at_of_lt (by simpa using hi), idx_of_lt hi']
      simp only [Res.ok_bind, List.getElem_map]
      have : (as.map (·.name)).getD i "" = as[i].name := by simp [List.getD, hi]
      rw [this]
      cases hl : fixed.lookup as[i].name <;> simp [hl])
    rw [this]
    congr 1
    unfold startCoords
    apply List.ext_getElem
    · simp
    · intro i h1 h2
      simp only [List.length_map, List.length_range] at h1
      simp [List.getD, h1]
  have s5 : recurse (ks.map (·.name)).length (shape ks) (startCoords fixed (as.map (·.name))) fp
      = .ok (recPure (fp.zip (shape ks)).reverse (startCoords fixed (as.map (·.name)))) := by
    rw [recurse_eq fp (shape ks) (by simp [shape, hfplen]) _ (by simp [hfplen]) _ (by
      intro a ha; simpa [startCoords] using hfplt a ha)]
    rw [List.take_of_length_le (by simp [shape])]
  -- the combinations
  have hz1 : (fp.zip (shape ks)).reverse.map (·.1) = fp.reverse := by
    rw [List.map_reverse]; congr 1
    exact List.map_fst_zip (by simp [shape, hfplen])
  have hz2 : (fp.zip (shape ks)).reverse.map (·.2) = (shape ks).reverse := by
    rw [List.map_reverse]; congr 1
    exact List.map_snd_zip (by simp [shape, hfplen])
  have s6 : recPure (fp.zip (shape ks)).reverse (startCoords fixed (as.map (·.name)))
      = (List.range (shape ks).prod).map (fun k => mergeIdx fixed (as.map (·.name))
          (digits (shape ks).reverse k).reverse) := by
    rw [recPure_eq, hz1, hz2, List.prod_reverse]
    apply List.map_congr_left
    intro k _
    rw [setL_eq_setR _ _ _ (by simp [shape, hfplen]), List.reverse_reverse]
    exact setR_merge fixed _ _ (by rw [hfree]; simp [shape])
  have hdr : ∀ k, InRange (digits (shape ks).reverse k).reverse (shape ks) := by
    intro k
    have := digits_inRange (ns := (shape ks).reverse) (by
      intro n hn; exact hkspos n (List.mem_reverse.1 hn)) k
    have := List.rel_reverse this
    rwa [List.reverse_reverse] at this
  have hmerge : ∀ js, InRange js (shape ks) →
      h.axes.flattenIndices (mergeIdx fixed (as.map (·.name)) js)
        = .ok (rowMajor (shape as) (mergeIdx fixed (as.map (·.name)) js)) ∧
      rowMajor (shape as) (mergeIdx fixed (as.map (·.name)) js) < h.nBins := by
    intro js hjs
    exact ⟨hv.axes.flatten hv.ne (by simp [mergeIdx_length]), by
      rw [hv.nb]; exact rowMajor_lt (mergeIdx_inRange fixed as js hjs hfix)⟩
  have hmv : (ofAxes c).Valid ks := valid_ofAxes hold hkne
  let val : List Nat → α := fun li => h.content (rowMajor (shape as) li)
  set L := (List.range (shape ks).prod).map (fun k => mergeIdx fixed (as.map (·.name))
          (digits (shape ks).reverse k).reverse) with hL
  have hLlen : L.length = (shape ks).prod := by simp [hL]
  have hlen : h.contents.length = h.nBins := by rw [hv.len, hv.nb]
  have s7 := slice_loop hmv val (fun (s : Histogram α × Nat) li => do
      let oldBin ← h.axes.flattenIndices li
      let c ← at_ h.contents oldBin
      let s' ← s.1.addBinContent s.2 c
      pure (s', s.2 + 1)) L (by
      intro t li hli
      obtain ⟨k, hk', rfl⟩ := List.mem_map.1 hli
      obtain ⟨h1, h2⟩ := hmerge _ (hdr k)
      rw [h1]
      simp only [Res.ok_bind]
      rw [at_of_lt (by omega)]
      simp only [Res.ok_bind, val]
      rw [content_valid hv h2, List.getD, List.getElem?_eq_getElem (by omega)]
      rfl) [] (by rw [ofAxes_contents, hLlen, hold.total_ne hkne]; rfl)
  simp only [List.nil_append, List.length_nil, Nat.zero_add] at s7
  have hmv' : ({ ofAxes c with contents := L.map val } : Histogram α).Valid ks :=
    hmv.withContents (by rw [List.length_map, hLlen, hmv.len])
  refine ⟨{ ofAxes c with contents := L.map val }, ?_, hmv', ?_⟩
  · unfold getSlice
    rw [Res.throwIf_false_of, Res.throwIf_false_of (by rw [hv.nd]; omega)]
    · simp only [Res.ok_bind]
      rw [hn, hfree, s1]
      simp only [Res.ok_bind]
      rw [s2]
      simp only [Res.ok_bind]
      rw [s3]
      simp only [Res.ok_bind]
      rw [hv.nd]
      erw [s4]
      rw [Res.ok_bind]
      rw [s5]
      simp only [Res.ok_bind]
      rw [s6, s7]
      rfl
    · rintro ⟨p, hp, h'⟩
      rw [findPos_none, hn] at h'
      exact h' (hk p hp)
  · intro js hjs
    rw [hn]
    obtain ⟨h1, h2⟩ := hmerge js hjs
    refine ⟨_, h1, h2, ?_⟩
    have hjr : InRange js.reverse (shape ks).reverse := List.rel_reverse hjs
    have hb := rowMajor_lt hjr
    rw [List.prod_reverse] at hb
    rw [hmv'.get (by rw [hmv'.nb]; exact hb), hv.get h2]
    congr 1
    simp only [hL, List.map_map, List.getD, List.getElem?_map, List.getElem?_range hb,
      Option.map_some, Option.getD_some, Function.comp, val]
    rw [digits_rowMajor hjr, List.reverse_reverse, content_valid hv h2]
    rfl

/-- C10 (partial): with exactly one kept axis the slice is right: its bin `i` is the original bin with index
`i` on the kept axis and the fixed indices elsewhere. Missing: two or more kept axes, for which the claim
is false (`C10_slice_wrong_2d`). -/
theorem C10_slice_1d_partial (as : List (BinAxis α)) (h : Histogram α) (hv : h.Valid as)
    (hpos : ∀ a ∈ as, 0 < a.nBins) (fixed : List (String × Nat))
    (hk : ∀ p ∈ fixed, p.1 ∈ as.map (·.name)) (hlt : fixed.length < as.length)
    (hfix : ∀ a ∈ as, ∀ v, fixed.lookup a.name = some v → v < a.nBins)
    (a : BinAxis α) (hone : as.filter (fun a => (fixed.lookup a.name).isNone) = [a]) :
    ∃ s, h.getSlice fixed = .ok s ∧ s.axes.axes = [a] ∧ s.nBins = a.nBins ∧
      ∀ i, i < a.nBins → ∃ b,
        h.axes.flattenIndices (mergeIdx fixed h.axes.axisNames [i]) = .ok b ∧
        s.getBinContent i = h.getBinContent b := by
  obtain ⟨s, h1, h2, h3⟩ := C10_slice_layout as h hv hpos fixed hk hlt hfix
  have hone' : freeAxes fixed as = [a] := hone
  rw [hone'] at h2 h3
  refine ⟨s, h1, h2.axes.axes, by rw [h2.nb]; simp [shape], ?_⟩
  intro i hi
  obtain ⟨b, h4, _, h6⟩ := h3 [i] (List.Forall₂.cons hi List.Forall₂.nil)
  refine ⟨b, h4, ?_⟩
  simpa [shape, rowMajor] using h6

/-- A 2 x 3 x 2 histogram with contents 0..11. -/
def exHist : Histogram ℚ :=
  { axes := ⟨exAxes, ["x", "y", "z"], [2, 3, 2], 12, 3⟩,
    contents := [0, 1, 2, 3, 4, 5, 6, 7, 8, 9, 10, 11], nBins := 12, nDims := 3 }

theorem exHist_valid : exHist.Valid exAxes :=
  ⟨⟨rfl, rfl, rfl, rfl, rfl, by decide +kernel⟩, by decide, rfl, rfl, rfl⟩

/-- Non-vacuity of `C11_padding`: the one empty bin is filled. -/
example : exHist.Valid exAxes ∧ (exHist.addPadding (1/2)).contents = [1/2, 1, 2, 3, 4, 5, 6, 7, 8, 9, 10, 11] := ⟨exHist_valid, by decide +kernel⟩

/-- Non-vacuity of `C04_unflatten_range`: bin 12 of the 2 x 3 x 2 histogram does not exist. -/
example : exHist.axes.nBins ≤ 12 ∧ exHist.axes.unpackIndices 12 = .throw .notFound := by decide +kernel

/-- C10 is false with two kept axes: fixing x at 0, slice cell (y=0, z=1) must be the original cell
(0,0,1), whose content is 1, but the slice holds 2 there (the content of (0,1,0)). -/
theorem C10_slice_wrong_2d : exHist.Valid exAxes ∧ ∃ s b, exHist.getSlice [("x", 0)] = .ok s ∧
    s.axes.axisNames = ["y", "z"] ∧ s.axes.flattenIndices [0, 1] = .ok b ∧
    exHist.axes.flattenIndices [0, 0, 1] = .ok 1 ∧ exHist.getBinContent 1 = .ok 1 ∧
    s.getBinContent b = .ok 2 := by
  refine ⟨exHist_valid, ⟨⟨exAxes.tail, ["y", "z"], [3, 2], 6, 2⟩, [0, 2, 4, 1, 3, 5], 6, 2⟩, 1,
    ?_, rfl, ?_, ?_, ?_, ?_⟩ <;> decide +kernel

/-- The fixed bins are not range-checked: fixing y at the non-existent bin 3 silently returns the contents of
the row x = 1, y = 0 for the slice x = 0. -/
theorem C10_fixed_bin_unchecked : ∃ s, exHist.getSlice [("x", 0), ("y", 3)] = .ok s ∧
    s.getBinContent 0 = exHist.getBinContent 6 := by
  refine ⟨⟨⟨exAxes.drop 2, ["z"], [2], 2, 1⟩, [6, 7], 2, 1⟩, ?_, ?_⟩ <;> decide +kernel

/-- Non-vacuity of the C10 theorems. -/
example : exHist.Valid exAxes ∧ (∀ a ∈ exAxes, 0 < a.nBins) ∧
    (∀ p ∈ [("x", 1), ("z", 0)], p.1 ∈ exAxes.map (·.name)) ∧
    (∀ a ∈ exAxes, ∀ v, [("x", 1), ("z", 0)].lookup a.name = some v → v < a.nBins) ∧
    ∃ a, exAxes.filter (fun a => ([("x", 1), ("z", 0)].lookup a.name).isNone) = [a] := by
  refine ⟨exHist_valid, by decide, by decide +kernel, ?_,
    ⟨"y", "y", 3, 0, 3, [0, 1, 2], [1, 2, 3], [1/2, 3/2, 5/2], [1, 1, 1]⟩, by decide +kernel⟩
  intro a ha v hv
  simp only [exAxes, List.mem_cons, List.not_mem_nil, or_false] at ha
  rcases ha with rfl | rfl | rfl <;> simp [List.lookup] at hv <;> subst hv <;> decide

end Oxsx
