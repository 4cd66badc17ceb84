import Verif.Model.HistTools
import Verif.Props.Marginal
import Verif.Props.Slice
import Verif.Props.Combinations
import Verif.Props.AxisCollection
set_option linter.unusedSectionVars false
set_option linter.unusedSimpArgs false
set_option linter.unusedVariables false
/-
C72: one histogram per name and per pair. C73: projections and slices.
-/
namespace Oxsx
open AxisCollection
open scoped List
variable {α : Type} [Field α] [LinearOrder α] [IsStrictOrderedRing α]

theorem SMap.lookup_eq_find {β : Type} (m : SMap β) (k : String) : List.lookup k m = m.find k := by
  induction m with
  | nil => rfl
  | cons p m ih =>
    obtain ⟨k', v⟩ := p
    rw [List.lookup_cons, SMap.find_cons, ih]
    by_cases h : k' = k
    · subst h; simp
    · rw [if_neg h]
      have : (k == k') = false := by simpa using fun e => h e.symm
      rw [this]

/-- Inserting one entry per element, under different keys. -/
theorem insertFold {β γ : Type} {f : SMap γ → β → Res (SMap γ)} {key : β → String} {F : β → γ} {l : List β} {m : SMap γ} (hm : m.Sorted)
    (h : ∀ m x, x ∈ l → f m x = .ok (m.insert (key x) (F x))) (hinj : ∀ x ∈ l, ∀ y ∈ l, key x = key y → x = y) :
    ∃ out, Res.forFold f m l = .ok out ∧ out.Sorted ∧ (∀ x ∈ l, out.find (key x) = some (F x)) ∧
      ∀ k, (∀ x ∈ l, key x ≠ k) → out.find k = m.find k := by
  induction l generalizing m with
  | nil => exact ⟨m, rfl, hm, by simp, by simp⟩
  | cons x l ih =>
    obtain ⟨out, h1, h2, h3, h4⟩ := ih (SMap.sorted_insert hm (key x) (F x)) (fun m y hy => h m y (List.mem_cons_of_mem _ hy))
      (fun a ha b hb => hinj a (List.mem_cons_of_mem _ ha) b (List.mem_cons_of_mem _ hb))
    refine ⟨out, Res.forFold_cons_eq_ok.2 ⟨_, h m x List.mem_cons_self, h1⟩, h2, ?_, ?_⟩
    · intro y hy
      by_cases hyl : y ∈ l
      · exact h3 y hyl
      · rcases List.mem_cons.1 hy with rfl | hy'
        · rw [h4 (key y) (fun z hz e => hyl (by have := hinj z (List.mem_cons_of_mem _ hz) y List.mem_cons_self e; exact this ▸ hz)), SMap.find_insert, if_pos rfl]
        · exact absurd hy' hyl
    · intro k hk
      rw [h4 k (fun z hz => hk z (List.mem_cons_of_mem _ hz)), SMap.find_insert, if_neg (hk x List.mem_cons_self)]

/-- A name of the collection gives its axis. -/
theorem AxisCollection.Holds.byName {c : AxisCollection α} {as : List (BinAxis α)} (h : Holds c as) {n : String} (hn : n ∈ as.map (·.name)) :
    ∃ a ∈ as, a.name = n ∧ c.getAxisByName n = .ok a := by
  unfold AxisCollection.getAxisByName AxisCollection.getAxisIndex
  rw [h.names]
  cases hp : findPos (as.map (·.name)) n with
  | none => rw [findPos_none] at hp; exact absurd hn hp
  | some i =>
    unfold findPos at hp
    rw [List.findIdx?_eq_some_iff_getElem] at hp
    obtain ⟨hi, h1, _⟩ := hp
    simp only [decide_eq_true_eq, List.getElem_map] at h1
    have hi' : i < as.length := by simpa using hi
    refine ⟨as[i], List.getElem_mem _, h1, ?_⟩
    simp [at_, h.axes, hi']

/-- An empty histogram over the given axes. -/
def IsEmptyHist (h : Histogram α) (as : List (BinAxis α)) : Prop := h.Valid as ∧ ∀ x ∈ h.contents, x = 0

theorem isEmptyHist_of {c : AxisCollection α} {as : List (BinAxis α)} (hc : Holds c as) (hn : as ≠ []) : IsEmptyHist (Histogram.ofAxes c) as := by
  refine ⟨Histogram.valid_ofAxes hc hn, ?_⟩
  rw [Histogram.ofAxes_contents]
  intro x hx; exact (List.mem_replicate.1 hx).2

/-- C72, single parameters: for different names of axes the result has exactly one histogram per name, filed under the name, empty, over the
axis of that name. -/
theorem C72_single {as : List (BinAxis α)} {c : AxisCollection α} (hc : (empty : AxisCollection α).addAxes as = .ok c) (names : List String)
    (hk : ∀ n ∈ names, n ∈ as.map (·.name)) :
    ∃ hs, HistTools.makeAll1 c names = .ok hs ∧ hs.Sorted ∧ (∀ k, k ∈ hs.keys ↔ k ∈ names) ∧ 
      ∀ n ∈ names, ∃ h a, hs.find n = some h ∧ a ∈ as ∧ a.name = n ∧ IsEmptyHist h [a] := by
  have hH := holds_of_addAxes hc
  have hex : ∀ n ∈ names, ∃ h a, a ∈ as ∧ a.name = n ∧ IsEmptyHist h [a] ∧ ∀ hs : SMap (Histogram α), (do
      let a ← c.getAxisByName n
      let c ← (empty : AxisCollection α).addAxis a
      pure (hs.insert n (Histogram.ofAxes c))) = .ok (hs.insert n h) := by
    intro n hn
    obtain ⟨a, ha, han, hget⟩ := hH.byName (hk n hn)
    obtain ⟨c1, h1, h2⟩ := (holds_empty (α := α)).addAxis_ok a (by simp)
    refine ⟨Histogram.ofAxes c1, a, ha, han, isEmptyHist_of h2 (by simp), ?_⟩
    intro hs
    rw [hget]; simp only [Res.ok_bind]; rw [h1]; rfl
  classical
  let F : String → Histogram α := fun n => if hn : n ∈ names then Classical.choose (hex n hn) else Histogram.empty
  have hF : ∀ n ∈ names, ∃ a, a ∈ as ∧ a.name = n ∧ IsEmptyHist (F n) [a] ∧ ∀ hs : SMap (Histogram α), (do
      let a ← c.getAxisByName n
      let c ← (empty : AxisCollection α).addAxis a
      pure (hs.insert n (Histogram.ofAxes c))) = .ok (hs.insert n (F n)) := by
    intro n hn
    have := Classical.choose_spec (hex n hn)
    simp only [F, dif_pos hn]; exact this
  obtain ⟨out, h1, h2, h3, h4⟩ := insertFold (f := fun (hs : SMap (Histogram α)) n => do
      let a ← c.getAxisByName n
      let c ← (empty : AxisCollection α).addAxis a
      pure (hs.insert n (Histogram.ofAxes c))) (key := id) (F := F) (l := names) (m := []) SMap.sorted_nil
      (fun m n hn => (hF n hn).choose_spec.2.2.2 m) (fun x _ y _ h => h)
  refine ⟨out, h1, h2, ?_, ?_⟩
  · intro k
    rw [← SMap.find_isSome_iff]
    by_cases hk : k ∈ names
    · have := h3 k hk; simp only [id] at this; simp [this, hk]
    · rw [h4 k (fun x hx e => hk (e ▸ hx))]; simp [SMap.find, hk]
  · intro n hn
    obtain ⟨a, ha, han, he, _⟩ := hF n hn
    exact ⟨F n, a, h3 n hn, ha, han, he⟩

/-- C72, pairs: if all pairs are of different names and no two pairs have the same joined name, the result has exactly one histogram per
pair, filed under the two names joined by an underscore, empty, over the axes of these names in this order. -/
theorem C72_pairs_partial {as : List (BinAxis α)} {c : AxisCollection α} (hc : (empty : AxisCollection α).addAxes as = .ok c) (pairs : List (String × String))
    (hk : ∀ p ∈ pairs, p.1 ∈ as.map (·.name) ∧ p.2 ∈ as.map (·.name) ∧ p.1 ≠ p.2)
    (hinj : ∀ p ∈ pairs, ∀ q ∈ pairs, p.1 ++ "_" ++ p.2 = q.1 ++ "_" ++ q.2 → p = q) :
    ∃ hs, HistTools.makeAll2 c pairs = .ok hs ∧ hs.Sorted ∧ (∀ k, k ∈ hs.keys ↔ ∃ p ∈ pairs, p.1 ++ "_" ++ p.2 = k) ∧
      ∀ p ∈ pairs, ∃ h a b, hs.find (p.1 ++ "_" ++ p.2) = some h ∧ a ∈ as ∧ b ∈ as ∧ a.name = p.1 ∧ b.name = p.2 ∧ IsEmptyHist h [a, b] := by
  have hH := holds_of_addAxes hc
  have hex : ∀ p ∈ pairs, ∃ h a b, a ∈ as ∧ b ∈ as ∧ a.name = p.1 ∧ b.name = p.2 ∧ IsEmptyHist h [a, b] ∧ ∀ hs : SMap (Histogram α), (do
      let a ← c.getAxisByName p.1
      let c1 ← (empty : AxisCollection α).addAxis a
      let b ← c.getAxisByName p.2
      let c1 ← c1.addAxis b
      pure (hs.insert (p.1 ++ "_" ++ p.2) (Histogram.ofAxes c1))) = .ok (hs.insert (p.1 ++ "_" ++ p.2) h) := by
    intro p hp
    obtain ⟨k1, k2, k3⟩ := hk p hp
    obtain ⟨a, ha, han, hget⟩ := hH.byName k1
    obtain ⟨b, hb, hbn, hget'⟩ := hH.byName k2
    obtain ⟨c1, h1, h2⟩ := (holds_empty (α := α)).addAxis_ok a (by simp)
    obtain ⟨c2, h3, h4⟩ := h2.addAxis_ok b (by simp [han, hbn]; exact fun e => k3 e.symm)
    refine ⟨Histogram.ofAxes c2, a, b, ha, hb, han, hbn, isEmptyHist_of h4 (by simp), ?_⟩
    intro hs
    rw [hget]; simp only [Res.ok_bind]; rw [h1]; simp only [Res.ok_bind]; rw [hget']; simp only [Res.ok_bind]; rw [h3]; rfl
  classical
  let F : String × String → Histogram α := fun n => if hn : n ∈ pairs then Classical.choose (hex n hn) else Histogram.empty
  have hF : ∀ p ∈ pairs, ∃ a b, a ∈ as ∧ b ∈ as ∧ a.name = p.1 ∧ b.name = p.2 ∧ IsEmptyHist (F p) [a, b] ∧ ∀ hs : SMap (Histogram α), (do
      let a ← c.getAxisByName p.1
      let c1 ← (empty : AxisCollection α).addAxis a
      let b ← c.getAxisByName p.2
      let c1 ← c1.addAxis b
      pure (hs.insert (p.1 ++ "_" ++ p.2) (Histogram.ofAxes c1))) = .ok (hs.insert (p.1 ++ "_" ++ p.2) (F p)) := by
    intro n hn
    have := Classical.choose_spec (hex n hn)
    simp only [F, dif_pos hn]; exact this
  obtain ⟨out, h1, h2, h3, h4⟩ := insertFold (f := fun (hs : SMap (Histogram α)) p => do
      let a ← c.getAxisByName p.1
      let c1 ← (empty : AxisCollection α).addAxis a
      let b ← c.getAxisByName p.2
      let c1 ← c1.addAxis b
      pure (hs.insert (p.1 ++ "_" ++ p.2) (Histogram.ofAxes c1))) (key := fun p : String × String => p.1 ++ "_" ++ p.2) (F := F) (l := pairs) (m := []) SMap.sorted_nil
      (fun m p hp => by obtain ⟨a, b, _, _, _, _, _, h⟩ := hF p hp; exact h m) hinj
  refine ⟨out, h1, h2, ?_, ?_⟩
  · intro k
    rw [← SMap.find_isSome_iff]
    by_cases hk : ∃ p ∈ pairs, p.1 ++ "_" ++ p.2 = k
    · obtain ⟨p, hp, rfl⟩ := hk
      rw [h3 p hp]; exact ⟨fun _ => ⟨p, hp, rfl⟩, fun _ => rfl⟩
    · rw [h4 k (fun x hx e => hk ⟨x, hx, e⟩)]; simp only [SMap.find, Option.isSome_none, Bool.false_eq_true, false_iff]; exact hk
  · intro p hp
    obtain ⟨a, b, e1, e2, e3, e4, e5, _⟩ := hF p hp
    exact ⟨F p, a, b, h3 p hp, e1, e2, e3, e4, e5⟩

/-- Names without an underscore never give the same joined name. -/
theorem C72_joined_names {p q : String × String} (h1 : '_' ∉ p.1.toList) (h2 : '_' ∉ q.1.toList)
    (h : p.1 ++ "_" ++ p.2 = q.1 ++ "_" ++ q.2) : p = q := by
  have h' : p.1.toList ++ '_' :: p.2.toList = q.1.toList ++ '_' :: q.2.toList := by
    have := congrArg String.toList h
    simpa using this
  have key : ∀ (a b c d : List Char), '_' ∉ a → '_' ∉ b → a ++ '_' :: c = b ++ '_' :: d → a = b ∧ c = d := by
    intro a
    induction a with
    | nil =>
      intro b c d _ hb e
      cases b with
      | nil => simpa using e
      | cons x b => simp only [List.nil_append, List.cons_append, List.cons.injEq] at e; exact absurd (e.1 ▸ List.mem_cons_self) hb
    | cons y a ih =>
      intro b c d ha hb e
      cases b with
      | nil => simp only [List.nil_append, List.cons_append, List.cons.injEq] at e; exact absurd (e.1 ▸ List.mem_cons_self) ha
      | cons x b =>
        simp only [List.cons_append, List.cons.injEq] at e
        obtain ⟨e1, e2⟩ := ih b c d (fun h => ha (List.mem_cons_of_mem _ h)) (fun h => hb (List.mem_cons_of_mem _ h)) e.2
        exact ⟨by rw [e.1, e1], e2⟩
  obtain ⟨e1, e2⟩ := key _ _ _ _ h1 h2 h'
  exact Prod.ext (String.toList_injective e1) (String.toList_injective e2)

/-- The number of pairs. -/
theorem length_allCombs {β : Type} (l : List β) : (Combinations.allCombsNoDiag l).length = l.length * (l.length - 1) / 2 := by
  unfold Combinations.allCombsNoDiag
  rw [List.length_flatMap]
  have : ∀ n, n ≤ l.length → ((List.range n).map (fun i => (match l[i]? with | none => [] | some a => (l.take i).map (fun b => (a, b))).length)).sum = n * (n - 1) / 2 := by
    intro n hn
    induction n with
    | zero => rfl
    | succ n ih =>
      rw [List.range_succ, List.map_append, List.sum_append, ih (by omega)]
      have hln : n < l.length := by omega
      simp only [List.map_cons, List.map_nil, List.sum_cons, List.sum_nil, List.getElem?_eq_getElem hln, List.length_map, List.length_take]
      rw [Nat.min_eq_left hln.le]
      cases n with
      | zero => rfl
      | succ k =>
        simp only [Nat.add_sub_cancel, add_zero]
        have : (k + 1 + 1) * (k + 1) = (k + 1) * k + 2 * (k + 1) := by ring
        rw [this]; omega
  exact this l.length (le_refl _)

/-- C73, projections: the result starts with the marginal along each axis, in order; with more than two axes there follows, for each pair of
different axes, one two-dimensional marginal; all have the integral of the histogram. -/
theorem C73_projections {as : List (BinAxis α)} {h : Histogram α} (hv : h.Valid as) (hpos : ∀ a ∈ as, 0 < a.nBins) :
    ∃ one two, HistTools.visualisableProjections h = .ok (one ++ two) ∧ one.map (fun p => p.axes.axisNames) = as.map (fun a => [a.name]) ∧
      (as.length ≤ 2 → two = []) ∧
      (2 < as.length → two.length = as.length * (as.length - 1) / 2 ∧ ∀ (i j : Nat) (a b : BinAxis α), j < i → as[i]? = some a → as[j]? = some b →
        ∃ p ∈ two, p.axes.axisNames = [a.name, b.name]) ∧
      ∀ p ∈ one ++ two, h.marginalise p.axes.axisNames = .ok p ∧ p.integral = h.integral := by
  have nd := hv.axes.nodup
  have hmarg : ∀ names : List String, names ≠ [] → (∀ n ∈ names, n ∈ as.map (·.name)) → names.Nodup →
      ∃ m, h.marginalise names = .ok m ∧ m.axes.axisNames = names ∧ m.integral = h.integral := by
    intro names h1 h2 h3
    obtain ⟨m, e1, e2, _, _, e5, _⟩ := C09_marginalise as h hv hpos names h1 h2 h3
    exact ⟨m, e1, e2, e5⟩
  have htrav : ∀ {β : Type} (l : List β) (f : β → List String), (∀ x ∈ l, f x ≠ [] ∧ (∀ n ∈ f x, n ∈ as.map (·.name)) ∧ (f x).Nodup) →
      ∃ ms, Res.traverse (fun x => h.marginalise (f x)) l = .ok ms ∧ ms.map (fun p => p.axes.axisNames) = l.map f ∧
        ∀ p ∈ ms, h.marginalise p.axes.axisNames = .ok p ∧ p.integral = h.integral := by
    intro β l f hl
    induction l with
    | nil => exact ⟨[], rfl, rfl, by simp⟩
    | cons x l ih =>
      obtain ⟨h1, h2, h3⟩ := hl x List.mem_cons_self
      obtain ⟨m, e1, e2, e3⟩ := hmarg _ h1 h2 h3
      obtain ⟨ms, e4, e5, e6⟩ := ih (fun y hy => hl y (List.mem_cons_of_mem _ hy))
      refine ⟨m :: ms, Res.traverse_cons_eq_ok.2 ⟨m, ms, e1, e4, rfl⟩, by simp [e2, e5], ?_⟩
      intro p hp
      rcases List.mem_cons.1 hp with rfl | hp
      · exact ⟨by rw [e2]; exact e1, e3⟩
      · exact e6 p hp
  obtain ⟨one, o1, o2, o3⟩ := htrav (as.map (·.name)) (fun n => [n]) (by intro x hx; simpa using hx)
  have names := hv.axes.names
  unfold HistTools.visualisableProjections
  rw [names, o1]
  simp only [Res.ok_bind]
  by_cases hd : h.nDims > 2
  · rw [if_pos hd]
    have hd' : 2 < as.length := by rw [← hv.nd]; exact hd
    obtain ⟨c1, c2, c3, c4⟩ := C62_pairs (as.map (·.name)) nd
    set combs := (Combinations.allCombsNoDiag (as.map (·.name))).insertionSort (fun p q => p.1 < q.1 ∨ (p.1 = q.1 ∧ p.2 ≤ q.2)) with hcombs
    have hperm : combs ~ Combinations.allCombsNoDiag (as.map (·.name)) := List.perm_insertionSort _ _
    obtain ⟨two, t1, t2, t3⟩ := htrav combs (fun p => [p.1, p.2]) (by
      intro p hp
      have hp := hperm.mem_iff.1 hp
      obtain ⟨i, j, hij, hi, hj⟩ := (c2 p.1 p.2).1 hp
      refine ⟨by simp, ?_, ?_⟩
      · intro n hn
        simp only [List.mem_cons, List.not_mem_nil, or_false] at hn
        rcases hn with rfl | rfl
        · exact List.mem_of_getElem? hi
        · exact List.mem_of_getElem? hj
      · have : p.1 ≠ p.2 := by
          intro e
          have := c4 p.1
          apply this
          have e2 : p = (p.1, p.1) := Prod.ext rfl e.symm
          rw [← e2]; exact hp
        simpa using this)
    refine ⟨one, two, ?_, by rw [o2]; simp, fun hle => absurd hd' (by omega), ?_, ?_⟩
    · simp only [t1, Res.ok_bind, Res.pure_eq]
    · intro _
      constructor
      · have : two.length = combs.length := by have := congrArg List.length t2; simpa using this
        rw [this, hperm.length_eq, length_allCombs]; simp
      · intro i j a b hij hi hj
        have hmem : (a.name, b.name) ∈ combs := by
          rw [hperm.mem_iff, c2]
          exact ⟨i, j, hij, by simp [hi], by simp [hj]⟩
        have : [a.name, b.name] ∈ two.map (fun p => p.axes.axisNames) := by
          rw [t2]; exact List.mem_map.2 ⟨_, hmem, rfl⟩
        obtain ⟨p, hp, e⟩ := List.mem_map.1 this
        exact ⟨p, hp, e⟩
    · intro p hp
      rcases List.mem_append.1 hp with hp | hp
      · exact o3 p hp
      · exact t3 p hp
  · rw [if_neg hd]
    refine ⟨one, [], by simp, by rw [o2]; simp, fun _ => rfl, fun hlt => absurd hlt (by rw [hv.nd] at hd; omega), ?_⟩
    intro p hp
    exact o3 p (by simpa using hp)

/-- The map from fixed axes to bins built for one slice. -/
theorem HistTools.sliceMap {names : List String} (hnd : names.Nodup) {comb : List Nat} (hl : comb.length = names.length) :
    ∃ m : SMap Nat, Res.forFold (fun (m : SMap Nat) i => do
      let n ← at_ names i
      let b ← at_ comb i
      pure (m.insert n b)) ([] : SMap Nat) (List.range names.length) = .ok m ∧ m.Sorted ∧ m.length = names.length ∧
      (∀ k, (m.find k).isSome ↔ k ∈ names) ∧ ∀ (i : Nat) (n : String) (b : Nat), names[i]? = some n → comb[i]? = some b → m.find n = some b := by
  obtain ⟨out, h1, h2, h3, h4⟩ := insertFold (f := fun (m : SMap Nat) i => do
      let n ← at_ names i
      let b ← at_ comb i
      pure (m.insert n b)) (key := fun i => names.getD i "") (F := fun i => comb.getD i 0) (l := List.range names.length) (m := []) SMap.sorted_nil
    (by
      intro m i hi
      have hi := List.mem_range.1 hi
      have hi' : i < comb.length := by omega
      simp [at_, List.getElem?_eq_getElem hi, List.getElem?_eq_getElem hi', List.getD])
    (by
      intro i hi j hj e
      have hi := List.mem_range.1 hi
      have hj := List.mem_range.1 hj
      simp only [List.getD, List.getElem?_eq_getElem hi, List.getElem?_eq_getElem hj, Option.getD_some] at e
      exact (List.Nodup.getElem_inj_iff hnd).1 e)
  have hmem : ∀ k, (out.find k).isSome ↔ k ∈ names := by
    intro k
    by_cases hk : k ∈ names
    · obtain ⟨i, hi, e⟩ := List.getElem_of_mem hk
      have := h3 i (List.mem_range.2 hi)
      simp only [List.getD, List.getElem?_eq_getElem hi, Option.getD_some, e] at this
      simp [this, hk]
    · rw [h4 k]
      · simp [SMap.find, hk]
      · intro i hi e
        have hi := List.mem_range.1 hi
        simp only [List.getD, List.getElem?_eq_getElem hi, Option.getD_some] at e
        exact hk (e ▸ List.getElem_mem hi)
  refine ⟨out, h1, h2, ?_, hmem, ?_⟩
  · have p : out.keys ~ names := (List.perm_ext_iff_of_nodup (SMap.sorted_nodup h2) hnd).2 (fun k => by rw [← SMap.find_isSome_iff, hmem])
    have := p.length_eq
    simpa [SMap.keys] using this
  · intro i n b hn hb
    have hi : i < names.length := (List.getElem?_eq_some_iff.1 hn).1
    have := h3 i (List.mem_range.2 hi)
    simpa only [List.getD, hn, hb, Option.getD_some] using this

/-- Index tuples of a slice with one free axis. -/
theorem mergeIdx_one {m : SMap Nat} {pre post : List String} {n : String} (hn : m.find n = none) {u w : List Nat}
    (hu : List.Forall₂ (fun k v => m.find k = some v) pre u) (hw : List.Forall₂ (fun k v => m.find k = some v) post w) (i : Nat) :
    mergeIdx m (pre ++ n :: post) [i] = u ++ i :: w := by
  have tail : ∀ (js : List Nat) {ks vs}, List.Forall₂ (fun k v => m.find k = some v) ks vs → mergeIdx m ks js = vs := by
    intro js ks vs h
    induction h with
    | nil => rfl
    | cons h _ ih => unfold mergeIdx; rw [SMap.lookup_eq_find, h]; simp [ih]
  induction hu with
  | nil =>
    simp only [List.nil_append]
    unfold mergeIdx; rw [SMap.lookup_eq_find, hn]
    simp [tail [] hw]
  | cons h _ ih =>
    simp only [List.cons_append]
    unfold mergeIdx; rw [SMap.lookup_eq_find, h]; simp [ih]

/-- C73, slices: along a given axis there is exactly one slice for each combination of bins of the other axes; it has that axis only, and its
bins are the bins of the histogram with these other indices. -/
theorem C73_slices {pre post : List (BinAxis α)} {a : BinAxis α} {h : Histogram α} (hv : h.Valid (pre ++ a :: post))
    (hpos : ∀ x ∈ pre ++ a :: post, 0 < x.nBins) :
    ∃ (combs : List (List Nat)) (slices : List (Histogram α)), HistTools.get1DSlices h a.name = .ok slices ∧ combs.Nodup ∧
      (∀ v, v ∈ combs ↔ List.Forall₂ (fun i (x : BinAxis α) => i < x.nBins) v (pre ++ post)) ∧ slices.length = combs.length ∧
      ∀ (k : Nat) v s, combs[k]? = some v → slices[k]? = some s → s.axes.axes = [a] ∧ s.nBins = a.nBins ∧ ∀ i, i < a.nBins → ∃ b,
        h.axes.flattenIndices (v.take pre.length ++ i :: v.drop pre.length) = .ok b ∧ s.getBinContent i = h.getBinContent b := by
  have nd := hv.axes.nodup
  simp only [List.map_append, List.map_cons] at nd
  have hdis : (∀ x ∈ pre, x.name ≠ a.name) ∧ (∀ x ∈ post, x.name ≠ a.name) := by
    rw [List.nodup_append] at nd
    refine ⟨fun x hx => nd.2.2 _ (List.mem_map.2 ⟨x, hx, rfl⟩) _ List.mem_cons_self, fun x hx e => ?_⟩
    exact (List.nodup_cons.1 nd.2.1).1 (e ▸ List.mem_map.2 ⟨x, hx, rfl⟩)
  have hfixed : h.axes.axisNames.filter (· ≠ a.name) = (pre ++ post).map (·.name) := by
    rw [hv.axes.names]
    simp only [List.map_append, List.map_cons, List.filter_append]
    rw [List.filter_eq_self.2 (by
        intro n hn; obtain ⟨x, hx, rfl⟩ := List.mem_map.1 hn; simpa using hdis.1 x hx),
      List.filter_cons_of_neg (by simp), List.filter_eq_self.2 (by
        intro n hn; obtain ⟨x, hx, rfl⟩ := List.mem_map.1 hn; simpa using hdis.2 x hx)]
  have ndf : ((pre ++ post).map (·.name)).Nodup := by
    rw [← hfixed]; exact List.Nodup.filter _ (by rw [hv.axes.names]; exact hv.axes.nodup)
  have hget : ∀ x ∈ pre ++ a :: post, h.axes.getAxisByName x.name = .ok x := by
    intro x hx
    obtain ⟨y, hy, e, hg⟩ := hv.axes.byName (List.mem_map.2 ⟨x, hx, rfl⟩)
    have : y = x := by
      have := hv.axes.nodup
      exact List.inj_on_of_nodup_map this hy hx e
    rw [this] at hg; exact hg
  have hmax : Res.traverse (fun n => do
      let a ← h.axes.getAxisByName n
      pure a.nBins) ((pre ++ post).map (·.name)) = .ok ((pre ++ post).map (·.nBins)) := by
    rw [Res.traverse_map]
    apply Res.traverse_ok
    intro x hx
    rw [hget x (by simp only [List.mem_append, List.mem_cons] at hx ⊢; tauto)]; rfl
  obtain ⟨combs, c1, c2, c3, c4⟩ := C62_all_once ((pre ++ post).map (·.nBins)) (List.replicate (pre ++ post).length 0) [] (by simp)
  simp only [List.length_map, List.nil_append] at c1
  have hmem : ∀ v, v ∈ combs ↔ List.Forall₂ (fun i (x : BinAxis α) => i < x.nBins) v (pre ++ post) := by
    intro v; rw [c3, List.forall₂_map_right_iff]
  have hdim : h.nDims - 1 = ((pre ++ post).map (·.name)).length := by rw [hv.nd]; simp
  -- one slice
  have hone : ∀ v, v ∈ combs → ∃ s, HistTools.oneSlice h ((pre ++ post).map (·.name)) v = .ok s ∧ s.axes.axes = [a] ∧ s.nBins = a.nBins ∧
      ∀ i, i < a.nBins → ∃ b, h.axes.flattenIndices (v.take pre.length ++ i :: v.drop pre.length) = .ok b ∧ s.getBinContent i = h.getBinContent b := by
    intro v hvm
    have hF := (hmem v).1 hvm
    have hlen := hF.length_eq
    obtain ⟨m, m1, m2, m3, m4, m5⟩ := HistTools.sliceMap ndf (comb := v) (by simpa using hlen)
    have hnone : m.find a.name = none := by
      have : ¬ (m.find a.name).isSome := by
        rw [m4]; intro hc
        obtain ⟨x, hx, e⟩ := List.mem_map.1 hc
        rcases List.mem_append.1 hx with hx | hx
        · exact hdis.1 x hx e
        · exact hdis.2 x hx e
      simpa using this
    have hfree : (pre ++ a :: post).filter (fun x => (List.lookup x.name m).isNone) = [a] := by
      rw [List.filter_append, List.filter_cons_of_pos (by rw [SMap.lookup_eq_find, hnone]; rfl)]
      have k : ∀ l : List (BinAxis α), (∀ x ∈ l, x ∈ pre ++ post) → l.filter (fun x => (List.lookup x.name m).isNone) = [] := by
        intro l hl
        rw [List.filter_eq_nil_iff]
        intro x hx
        have : (m.find x.name).isSome := (m4 _).2 (List.mem_map.2 ⟨x, hl x hx, rfl⟩)
        rw [SMap.lookup_eq_find]
        simpa using Option.isSome_iff_ne_none.1 this
      rw [k pre (fun x hx => List.mem_append_left _ hx), k post (fun x hx => List.mem_append_right _ hx)]; rfl
    have hval : List.Forall₂ (fun k w => m.find k = some w) ((pre ++ post).map (·.name)) v := by
      rw [List.forall₂_iff_get]
      refine ⟨by simpa using hlen.symm, ?_⟩
      intro i h1 h2
      exact m5 i _ _ (by simp at h1 ⊢) (by simp)
    have hk : ∀ p ∈ m, p.1 ∈ (pre ++ a :: post).map (·.name) := by
      intro p hp
      have : p.1 ∈ m.keys := List.mem_map.2 ⟨p, hp, rfl⟩
      rw [← SMap.find_isSome_iff, m4] at this
      obtain ⟨x, hx, e⟩ := List.mem_map.1 this
      exact List.mem_map.2 ⟨x, by simp only [List.mem_append, List.mem_cons] at hx ⊢; tauto, e⟩
    have hlt : m.length < (pre ++ a :: post).length := by rw [m3]; simp
    have hfix : ∀ x ∈ pre ++ a :: post, ∀ w, List.lookup x.name m = some w → w < x.nBins := by
      intro x hx w hw
      rw [SMap.lookup_eq_find] at hw
      have hx' : x ∈ pre ++ post := by
        have : (m.find x.name).isSome := by rw [hw]; rfl
        rw [m4] at this
        obtain ⟨y, hy, e⟩ := List.mem_map.1 this
        have hy' : y ∈ pre ++ a :: post := by simp only [List.mem_append, List.mem_cons] at hy ⊢; tauto
        have : y = x := List.inj_on_of_nodup_map hv.axes.nodup hy' hx e
        exact this ▸ hy
      obtain ⟨i, hi, e⟩ := List.getElem_of_mem hx'
      have hi' : i < v.length := by omega
      have hb := List.forall₂_iff_get.1 hF |>.2 i hi' hi
      have := m5 i x.name v[i] (by rw [List.getElem?_map, List.getElem?_eq_getElem hi, e]; rfl) (by simp)
      rw [hw] at this
      have hwv : w = v[i] := by simpa using this
      simp only [List.get_eq_getElem, e] at hb
      rw [hwv]; exact hb
    obtain ⟨s, s1, s2, s3, s4⟩ := C10_slice_1d_partial _ h hv hpos m hk hlt hfix a hfree
    refine ⟨s, ?_, s2, s3, ?_⟩
    · unfold HistTools.oneSlice
      rw [hdim, m1]; exact s1
    · intro i hi
      obtain ⟨b, b1, b2⟩ := s4 i hi
      refine ⟨b, ?_, b2⟩
      rw [hv.axes.names] at b1
      simp only [List.map_append, List.map_cons] at b1 hval
      have hu : List.Forall₂ (fun k w => m.find k = some w) (pre.map (·.name)) (v.take pre.length) := by
        have := List.forall₂_take pre.length hval
        simpa using this
      have hw : List.Forall₂ (fun k w => m.find k = some w) (post.map (·.name)) (v.drop pre.length) := by
        have := List.forall₂_drop pre.length hval
        simpa using this
      rw [mergeIdx_one hnone hu hw] at b1
      exact b1
  -- all slices
  have hall : ∀ l : List (List Nat), (∀ v ∈ l, v ∈ combs) → ∃ ss, Res.traverse (HistTools.oneSlice h ((pre ++ post).map (·.name))) l = .ok ss := by
    intro l
    induction l with
    | nil => intro _; exact ⟨[], rfl⟩
    | cons v l ih =>
      intro hl
      obtain ⟨s, hs, _⟩ := hone v (hl v List.mem_cons_self)
      obtain ⟨ss, hss⟩ := ih (fun w hw => hl w (List.mem_cons_of_mem _ hw))
      exact ⟨s :: ss, Res.traverse_cons_eq_ok.2 ⟨s, ss, hs, hss, rfl⟩⟩
  obtain ⟨slices, hsl⟩ := hall combs (fun v hv => hv)
  refine ⟨combs, slices, ?_, c2, hmem, Res.traverse_length hsl, ?_⟩
  · unfold HistTools.get1DSlices
    simp only [hfixed]
    rw [hmax]; simp only [Res.ok_bind]
    rw [hget a (by simp)]; simp only [Res.ok_bind, List.length_map]
    rw [c1]; exact hsl
  · intro k v s hkv hks
    obtain ⟨s', e1, e2⟩ := Res.traverse_get hsl k v hkv
    rw [hks] at e1; cases e1
    obtain ⟨s'', f1, f2⟩ := hone v (List.mem_of_getElem? hkv)
    rw [e2] at f1; cases f1
    exact f2

/-- C73: asking for slices along an axis that does not exist is reported. -/
theorem C73_unknown_axis {as : List (BinAxis α)} {h : Histogram α} (hv : h.Valid as) {n : String} (hn : n ∉ as.map (·.name)) :
    HistTools.get1DSlices h n = .throw .notFound := by
  have hfixed : h.axes.axisNames.filter (· ≠ n) = as.map (·.name) := by
    rw [hv.axes.names]
    exact List.filter_eq_self.2 (fun k hk => by have : k ≠ n := fun e => hn (e ▸ hk); simpa using this)
  have hmax : ∃ l, Res.traverse (fun n => do
      let a ← h.axes.getAxisByName n
      pure a.nBins) (as.map (·.name)) = .ok l := by
    have : ∀ l : List String, (∀ k ∈ l, k ∈ as.map (·.name)) → ∃ r, Res.traverse (fun n => do
      let a ← h.axes.getAxisByName n
      pure a.nBins) l = .ok r := by
      intro l
      induction l with
      | nil => intro _; exact ⟨[], rfl⟩
      | cons k l ih =>
        intro hl
        obtain ⟨y, _, _, hg⟩ := hv.axes.byName (hl k List.mem_cons_self)
        obtain ⟨r, hr⟩ := ih (fun w hw => hl w (List.mem_cons_of_mem _ hw))
        exact ⟨y.nBins :: r, Res.traverse_cons_eq_ok.2 ⟨y.nBins, r, by rw [hg]; rfl, hr, rfl⟩⟩
    exact this _ (fun k hk => hk)
  obtain ⟨l, hl⟩ := hmax
  unfold HistTools.get1DSlices
  simp only [hfixed]
  rw [hl]; simp only [Res.ok_bind]
  have : h.axes.getAxisByName n = .throw .notFound := by
    unfold AxisCollection.getAxisByName AxisCollection.getAxisIndex
    rw [hv.axes.names]
    rw [findPos_none.2 hn]; rfl
  rw [this]; rfl

/-- Non-vacuity of C72 and C73: the three-axis example histogram; 3 + 3 projections, 4 slices along y. -/
example : (HistTools.visualisableProjections exHist >>= fun ps => Res.ok (ps.map (fun p => (p.axes.axisNames, p.contents)))) =
    .ok [(["x"], [15, 51]), (["y"], [14, 22, 30]), (["z"], [30, 36]), (["y", "x"], [1, 13, 5, 17, 9, 21]), (["z", "x"], [6, 24, 9, 27]),
      (["z", "y"], [6, 10, 14, 8, 12, 16])] := by decide +kernel

example : (HistTools.get1DSlices exHist "y" >>= fun ps => Res.ok (ps.map (fun p => (p.axes.axisNames, p.contents)))) =
    .ok [(["y"], [0, 2, 4]), (["y"], [6, 8, 10]), (["y"], [1, 3, 5]), (["y"], [7, 9, 11])] := by decide +kernel

end Oxsx
