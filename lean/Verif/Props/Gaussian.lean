import Verif.Model.Functions
import Verif.Lemmas.Basic
import Verif.Props.Minuit
import Mathlib.Tactic.Linarith
import Mathlib.Tactic.Ring
set_option linter.unusedSectionVars false
set_option linter.unusedSimpArgs false
set_option linter.unusedVariables false
/-
C61: the named parameters of a Gaussian.
-/
namespace Oxsx
variable {α : Type} [Field α] [LinearOrder α] [IsStrictOrderedRing α]

/-- A Gaussian as the constructors make it: one mean, width and pair of names per dimension. -/
structure Gaussian.Ok (g : Gaussian α) : Prop where
  means : g.means.length = g.nDims
  sds : g.stdDevs.length = g.nDims
  meanNames : g.meanNames.length = g.nDims
  sdNames : g.sdNames.length = g.nDims

theorem findPos_first {l : List String} {x : String} {i : Nat} (h : findPos l x = some i) {j : Nat} (hj : j < i) : l[j]? ≠ some x := by
  unfold findPos at h
  rw [List.findIdx?_eq_some_iff_getElem] at h
  obtain ⟨h1, h2, h3⟩ := h
  have := h3 j hj
  rw [List.getElem?_eq_getElem (by omega)]
  simpa using this

/-- Setting the entries whose name is `n` to `v`. -/
def setNamed (n : String) (v : α) (names : List String) (vals : List α) : List α :=
  List.zipWith (fun m x => if m = n then v else x) names vals

theorem setNamed_length (n : String) (v : α) {names : List String} {vals : List α} (h : vals.length = names.length) :
    (setNamed n v names vals).length = vals.length := by simp [setNamed, h]

theorem setNamed_get (n : String) (v : α) {names : List String} {vals : List α} {i : Nat} {m : String} {x : α}
    (h1 : names[i]? = some m) (h2 : vals[i]? = some x) : (setNamed n v names vals)[i]? = some (if m = n then v else x) := by
  simp [setNamed, List.getElem?_zipWith, h1, h2]

theorem setNamed_none (n : String) (v : α) {names : List String} {vals : List α} (h : vals.length = names.length) (hn : n ∉ names) :
    setNamed n v names vals = vals := by
  induction names generalizing vals with
  | nil => cases vals <;> simp_all [setNamed]
  | cons a r ih =>
    cases vals with
    | nil => simp at h
    | cons x s =>
      simp only [List.mem_cons, not_or] at hn
      have := ih (vals := s) (by simpa using h) hn.2
      unfold setNamed at this ⊢
      simp only [List.zipWith_cons_cons]
      rw [if_neg (Ne.symm hn.1), this]

/-- One loop of `SetParameter`: positions below `k` done. -/
theorem loop_set (n : String) (v : α) (names : List String) (vals : List α) (h : vals.length = names.length) (k : Nat) (hk : k ≤ names.length) :
    Res.forFold (fun (l : List α) (i : Nat) => if names[i]? = some n then setIdx l i v else Res.ok l) vals (List.range k) =
      .ok (setNamed n v (names.take k) (vals.take k) ++ vals.drop k) := by
  induction k with
  | zero => simp [Res.forFold, setNamed]
  | succ k ih =>
    rw [List.range_succ, Res.forFold_append, ih (by omega)]
    simp only [Res.ok_bind, Res.forFold, Res.bind]
    have hk' : k < names.length := by omega
    have hv : k < vals.length := by omega
    have e1 : names.take (k + 1) = names.take k ++ [names[k]] := by rw [List.take_add_one, List.getElem?_eq_getElem hk']; rfl
    have e2 : vals.take (k + 1) = vals.take k ++ [vals[k]] := by rw [List.take_add_one, List.getElem?_eq_getElem hv]; rfl
    have e3 : setNamed n v (names.take (k + 1)) (vals.take (k + 1)) =
        setNamed n v (names.take k) (vals.take k) ++ [if names[k] = n then v else vals[k]] := by
      rw [e1, e2]; unfold setNamed; rw [List.zipWith_append (by simp; omega)]; rfl
    have e4 : vals.drop k = vals[k] :: vals.drop (k + 1) := by rw [List.drop_eq_getElem_cons hv]
    have hl : (setNamed n v (names.take k) (vals.take k)).length = k := by simp [setNamed]; omega
    rw [List.getElem?_eq_getElem hk']
    by_cases hn : names[k] = n
    · simp only [Option.some.injEq, hn, if_true]
      have hlt : k < (setNamed n v (names.take k) (vals.take k) ++ vals.drop k).length := by simp [hl]; omega
      unfold setIdx
      rw [if_pos hlt]
      simp only
      rw [e3, if_pos hn, e4]
      congr 1
      rw [List.set_append_right _ _ (by omega), show k - (setNamed n v (names.take k) (vals.take k)).length = 0 by omega]
      rw [List.set_cons_zero, List.append_assoc]
      rfl
    · simp only [Option.some.injEq, if_neg hn]
      rw [e3, if_neg hn, e4]
      simp

theorem Gaussian.setMean_loop (n : String) (v : α) (g : Gaussian α) (l : List Nat) :
    Res.forFold (Gaussian.setMeanIf n v) g l =
      (Res.forFold (fun (l : List α) (i : Nat) => if g.meanNames[i]? = some n then setIdx l i v else Res.ok l) g.means l >>= fun m =>
        Res.ok { g with means := m }) := by
  induction l generalizing g with
  | nil => rfl
  | cons i r ih =>
    have hstep : ∀ (g : Gaussian α) (i : Nat) (r : List Nat), Res.forFold (Gaussian.setMeanIf n v) g (i :: r) =
        (Gaussian.setMeanIf n v g i >>= fun g => Res.forFold (Gaussian.setMeanIf n v) g r) := by
      intro g i r; rw [Res.forFold]; cases Gaussian.setMeanIf n v g i <;> rfl
    rw [hstep]
    conv_rhs => rw [Res.forFold]
    conv_lhs => rw [setMeanIf, setMean]
    by_cases h : g.meanNames[i]? = some n
    · simp only [h, if_true]
      cases hs : setIdx g.means i v with
      | ok m => simp only [Res.ok_bind]; rw [ih]
      | throw e => rfl
      | ub => rfl
    · simp only [h, if_false, Res.ok_bind]; rw [ih]

theorem Gaussian.setSd_loop (n : String) (v : α) (g : Gaussian α) (l : List Nat) :
    Res.forFold (Gaussian.setSdIf n v) g l =
      (Res.forFold (fun (l : List α) (i : Nat) => if g.sdNames[i]? = some n then setIdx l i v else Res.ok l) g.stdDevs l >>= fun m =>
        Res.ok { g with stdDevs := m }) := by
  induction l generalizing g with
  | nil => rfl
  | cons i r ih =>
    have hstep : ∀ (g : Gaussian α) (i : Nat) (r : List Nat), Res.forFold (Gaussian.setSdIf n v) g (i :: r) =
        (Gaussian.setSdIf n v g i >>= fun g => Res.forFold (Gaussian.setSdIf n v) g r) := by
      intro g i r; rw [Res.forFold]; cases Gaussian.setSdIf n v g i <;> rfl
    rw [hstep]
    conv_rhs => rw [Res.forFold]
    conv_lhs => rw [setSdIf, setStDev]
    by_cases h : g.sdNames[i]? = some n
    · simp only [h, if_true]
      cases hs : setIdx g.stdDevs i v with
      | ok m => simp only [Res.ok_bind]; rw [ih]
      | throw e => rfl
      | ub => rfl
    · simp only [h, if_false, Res.ok_bind]; rw [ih]

theorem Gaussian.setParameter_eq {g : Gaussian α} (h : g.Ok) (n : String) (v : α) :
    g.setParameter n v = .ok { g with means := setNamed n v g.meanNames g.means, stdDevs := setNamed n v g.sdNames g.stdDevs } := by
  unfold setParameter
  rw [setMean_loop, loop_set n v g.meanNames g.means (by rw [h.means, h.meanNames]) _ (Nat.le_refl _)]
  simp only [Res.ok_bind]
  rw [setSd_loop]
  simp only
  rw [loop_set n v g.sdNames g.stdDevs (by rw [h.sds, h.sdNames]) _ (Nat.le_refl _)]
  have a1 : g.means.take g.meanNames.length = g.means := List.take_of_length_le (by rw [h.means, h.meanNames])
  have a2 : g.stdDevs.take g.sdNames.length = g.stdDevs := List.take_of_length_le (by rw [h.sds, h.sdNames])
  have a3 : g.means.drop g.meanNames.length = [] := List.drop_of_length_le (by rw [h.means, h.meanNames])
  have a4 : g.stdDevs.drop g.sdNames.length = [] := List.drop_of_length_le (by rw [h.sds, h.sdNames])
  simp only [Res.ok_bind, List.take_length, a1, a2, a3, a4, List.append_nil]

theorem Gaussian.Ok.set {g : Gaussian α} (h : g.Ok) (n : String) (v : α) :
    Gaussian.Ok { g with means := setNamed n v g.meanNames g.means, stdDevs := setNamed n v g.sdNames g.stdDevs } :=
  ⟨by simp only; rw [setNamed_length n v (by rw [h.means, h.meanNames]), h.means],
   by simp only; rw [setNamed_length n v (by rw [h.sds, h.sdNames]), h.sds], h.meanNames, h.sdNames⟩

/-- Lookup in a dictionary filled from two lists, repeated names included. -/
theorem find_fill (l : List (String × α)) (m : SMap α) (k : String) :
    SMap.find (l.foldl (fun (m : SMap α) p => SMap.insert p.1 p.2 m) m) k =
      l.foldl (fun (a : Option α) p => if p.1 = k then some p.2 else a) (SMap.find m k) := by
  induction l generalizing m with
  | nil => rfl
  | cons p r ih => simp only [List.foldl_cons]; rw [ih, SMap.find_insert]

theorem Gaussian.getParameters_eq {g : Gaussian α} (h : g.Ok) :
    ∃ d, g.getParameters = .ok d ∧ d.Sorted ∧ ∀ k, SMap.find d k =
      ((g.meanNames ++ g.sdNames).zip (g.means ++ g.stdDevs)).foldl (fun (a : Option α) p => if p.1 = k then some p.2 else a) none := by
  unfold getParameters Minuit.createMap MinuitFCN.setValues
  rw [if_neg (by simp [h.means, h.sds, h.meanNames, h.sdNames])]
  refine ⟨_, rfl, ?_, fun k => find_fill _ _ _⟩
  have hss : ∀ (l : List (String × α)) (m : SMap α), m.Sorted → (l.foldl (fun (m : SMap α) p => SMap.insert p.1 p.2 m) m).Sorted := by
    intro l
    induction l with
    | nil => intro m h; exact h
    | cons p r ih => intro m h; exact ih _ (SMap.sorted_insert h _ _)
  exact hss _ _ SMap.sorted_nil

/-- Filling: a name that is there and whose entries all have the same value. -/
theorem fill_const {names : List String} {vals : List α} (hl : vals.length = names.length) {n : String} {v : α} (hn : n ∈ names)
    (hv : ∀ (i : Nat) (x : α), names[i]? = some n → vals[i]? = some x → x = v) (a : Option α) :
    (names.zip vals).foldl (fun (a : Option α) p => if p.1 = n then some p.2 else a) a = some v := by
  have key : ∀ (names : List String) (vals : List α) (a : Option α), vals.length = names.length → (n ∈ names ∨ a = some v) →
      (∀ (i : Nat) (x : α), names[i]? = some n → vals[i]? = some x → x = v) →
      (names.zip vals).foldl (fun (a : Option α) p => if p.1 = n then some p.2 else a) a = some v := by
    intro names
    induction names with
    | nil => intro vals a _ h _; simpa using h
    | cons m r ih =>
      intro vals a hl h hv
      cases vals with
      | nil => simp at hl
      | cons x s =>
        simp only [List.zip_cons_cons, List.foldl_cons]
        apply ih s _ (by simpa using hl)
        · by_cases hm : m = n
          · right
            rw [if_pos hm, hv 0 x (by simp [hm]) (by simp)]
          · rw [if_neg hm]
            rcases h with h | h
            · simp only [List.mem_cons] at h
              rcases h with h | h
              · exact absurd h.symm hm
              · exact Or.inl h
            · exact Or.inr h
        · intro i y h1 h2; exact hv (i + 1) y (by simpa using h1) (by simpa using h2)
  exact key names vals a hl (Or.inl hn) hv

theorem fill_congr {names : List String} {vals vals' : List α} (hl : vals.length = names.length) (hl' : vals'.length = names.length) {k : String}
    (hv : ∀ (i : Nat), names[i]? = some k → vals[i]? = vals'[i]?) (a : Option α) :
    (names.zip vals).foldl (fun (a : Option α) p => if p.1 = k then some p.2 else a) a =
      (names.zip vals').foldl (fun (a : Option α) p => if p.1 = k then some p.2 else a) a := by
  induction names generalizing vals vals' a with
  | nil => rfl
  | cons m r ih =>
    cases vals with
    | nil => simp at hl
    | cons x s =>
      cases vals' with
      | nil => simp at hl'
      | cons y t =>
        simp only [List.zip_cons_cons, List.foldl_cons]
        have : (if m = k then some x else a) = (if m = k then some y else a) := by
          by_cases hm : m = k
          · have := hv 0 (by simp [hm]); simp only [List.getElem?_cons_zero] at this; rw [if_pos hm, if_pos hm, this]
          · rw [if_neg hm, if_neg hm]
        rw [this]
        exact ih (by simpa using hl) (by simpa using hl') (fun i h => by have := hv (i + 1) (by simpa using h); simpa using this) _

theorem fill_absent {names : List String} {vals : List α} {k : String} (hk : k ∉ names) (a : Option α) :
    (names.zip vals).foldl (fun (a : Option α) p => if p.1 = k then some p.2 else a) a = a := by
  induction names generalizing vals a with
  | nil => rfl
  | cons m r ih =>
    cases vals with
    | nil => rfl
    | cons x s =>
      simp only [List.mem_cons, not_or] at hk
      simp only [List.zip_cons_cons, List.foldl_cons]
      rw [if_neg (Ne.symm hk.1)]
      exact ih hk.2 _

/-- Filling is insensitive to a renaming that does not identify names. -/
theorem fill_rename {names : List String} {vals : List α} (f : String → String) {k k' : String} (hf : ∀ m ∈ names, f m = k' ↔ m = k) (a : Option α) :
    ((names.map f).zip vals).foldl (fun (a : Option α) p => if p.1 = k' then some p.2 else a) a =
      (names.zip vals).foldl (fun (a : Option α) p => if p.1 = k then some p.2 else a) a := by
  induction names generalizing vals a with
  | nil => rfl
  | cons m r ih =>
    cases vals with
    | nil => rfl
    | cons x s =>
      simp only [List.map_cons, List.zip_cons_cons, List.foldl_cons]
      have : (if f m = k' then some x else a) = (if m = k then some x else a) := by
        by_cases hm : m = k
        · rw [if_pos hm, if_pos ((hf m (by simp)).2 hm)]
        · rw [if_neg hm, if_neg (fun h => hm ((hf m (by simp)).1 h))]
      rw [this]
      exact ih (fun m hm => hf m (by simp [hm])) _

theorem setNamed_append (n : String) (v : α) {a b : List String} {x y : List α} (h : x.length = a.length) :
    setNamed n v a x ++ setNamed n v b y = setNamed n v (a ++ b) (x ++ y) := by
  unfold setNamed; rw [List.zipWith_append (by omega)]

/-- C61, writing: setting a known name is never refused; afterwards the dictionary gives the value under that name and under every other
name what it gave before, with the same names; entry by entry, exactly the means and widths of that name have changed. -/
theorem C61_set {g : Gaussian α} (h : g.Ok) {n : String} (hn : n ∈ g.meanNames ++ g.sdNames) (v : α) :
    ∃ g' d d', g.setParameter n v = .ok g' ∧ g'.Ok ∧ g.getParameters = .ok d ∧ g'.getParameters = .ok d' ∧
      d'.find n = some v ∧ (∀ m, m ≠ n → d'.find m = d.find m) ∧ d'.keys = d.keys ∧
      g'.meanNames = g.meanNames ∧ g'.sdNames = g.sdNames ∧ g'.nDims = g.nDims ∧ g'.cutOff = g.cutOff ∧ g'.name = g.name ∧
      (∀ (i : Nat) (m : String) (x : α), g.meanNames[i]? = some m → g.means[i]? = some x → g'.means[i]? = some (if m = n then v else x)) ∧
      (∀ (i : Nat) (m : String) (x : α), g.sdNames[i]? = some m → g.stdDevs[i]? = some x → g'.stdDevs[i]? = some (if m = n then v else x)) := by
  obtain ⟨d, hd, hds, hdf⟩ := Gaussian.getParameters_eq h
  have h' := h.set n v
  obtain ⟨d', hd', hds', hdf'⟩ := Gaussian.getParameters_eq h'
  have hlen : (g.means ++ g.stdDevs).length = (g.meanNames ++ g.sdNames).length := by simp [h.means, h.sds, h.meanNames, h.sdNames]
  have hlen' : (setNamed n v (g.meanNames ++ g.sdNames) (g.means ++ g.stdDevs)).length = (g.meanNames ++ g.sdNames).length := by
    rw [setNamed_length n v hlen, hlen]
  have hA : setNamed n v g.meanNames g.means ++ setNamed n v g.sdNames g.stdDevs = setNamed n v (g.meanNames ++ g.sdNames) (g.means ++ g.stdDevs) :=
    setNamed_append n v (by rw [h.means, h.meanNames])
  simp only [hA] at hdf'
  have hself : d'.find n = some v := by
    rw [hdf']
    apply fill_const hlen' hn
    intro i x h1 h2
    have hi : i < (g.means ++ g.stdDevs).length := by
      rw [hlen]; exact (List.getElem?_eq_some_iff.1 h1).1
    rw [setNamed_get n v h1 (List.getElem?_eq_getElem hi)] at h2
    simpa using h2.symm
  have hother : ∀ m, m ≠ n → d'.find m = d.find m := by
    intro m hm
    rw [hdf', hdf]
    apply fill_congr hlen' hlen
    intro i h1
    have hi : i < (g.means ++ g.stdDevs).length := by
      rw [hlen]; exact (List.getElem?_eq_some_iff.1 h1).1
    rw [setNamed_get n v h1 (List.getElem?_eq_getElem hi), if_neg hm, List.getElem?_eq_getElem hi]
  have hnd : (d.find n).isSome := by
    obtain ⟨i, hi, hin⟩ := List.getElem_of_mem hn
    rw [hdf]
    have : ∀ (l : List (String × α)) (a : Option α), (a.isSome ∨ ∃ p ∈ l, p.1 = n) →
        (l.foldl (fun (a : Option α) p => if p.1 = n then some p.2 else a) a).isSome := by
      intro l
      induction l with
      | nil => intro a h; simpa using h
      | cons p r ih =>
        intro a h
        simp only [List.foldl_cons]
        apply ih
        by_cases hp : p.1 = n
        · left; rw [if_pos hp]; rfl
        · rw [if_neg hp]
          rcases h with h | ⟨q, hq, hqn⟩
          · exact Or.inl h
          · simp only [List.mem_cons] at hq
            rcases hq with rfl | hq
            · exact absurd hqn hp
            · exact Or.inr ⟨q, hq, hqn⟩
    apply this
    right
    have hi2 : i < (g.means ++ g.stdDevs).length := by rw [hlen]; exact hi
    refine ⟨((g.meanNames ++ g.sdNames)[i], (g.means ++ g.stdDevs)[i]), ?_, hin⟩
    apply List.mem_of_getElem? (i := i)
    rw [List.getElem?_zip_eq_some]
    exact ⟨List.getElem?_eq_getElem hi, List.getElem?_eq_getElem hi2⟩
  have hkeys : d'.keys = d.keys := by
    have s1 := SMap.sorted_keys hds'
    have s2 := SMap.sorted_keys hds
    apply List.Perm.eq_of_pairwise (fun a b _ _ h1 h2 => absurd h1 (lt_asymm h2)) s1 s2
    rw [List.perm_ext_iff_of_nodup (SMap.sorted_nodup hds') (SMap.sorted_nodup hds)]
    intro m
    rw [← SMap.find_isSome_iff, ← SMap.find_isSome_iff]
    by_cases hm : m = n
    · subst hm; rw [hself]; simp [hnd]
    · rw [hother m hm]
  exact ⟨_, d, d', Gaussian.setParameter_eq h n v, h', hd, hd', hself, hother, hkeys, rfl, rfl, rfl, rfl, rfl,
    fun i m x h1 h2 => setNamed_get n v h1 h2, fun i m x h1 h2 => setNamed_get n v h1 h2⟩

/-- C61, an unknown name is silently ignored. -/
theorem C61_set_unknown {g : Gaussian α} (h : g.Ok) {n : String} (hn : n ∉ g.meanNames ++ g.sdNames) (v : α) : g.setParameter n v = .ok g := by
  simp only [List.mem_append, not_or] at hn
  rw [Gaussian.setParameter_eq h, setNamed_none n v (by rw [h.means, h.meanNames]) hn.1, setNamed_none n v (by rw [h.sds, h.sdNames]) hn.2]

/-- C61, reading by name works for the parameter in the first place of the means, or, if the name is not among the means, of the widths. -/
theorem C61_get_partial {g : Gaussian α} (h : g.Ok) {n : String} {v : α}
    (hf : (g.meanNames[0]? = some n ∧ g.means[0]? = some v) ∨ (n ∉ g.meanNames ∧ g.sdNames[0]? = some n ∧ g.stdDevs[0]? = some v)) :
    g.getParameter n = .ok v := by
  have key : ∀ l : List String, l[0]? = some n → findPos l n = some 0 := by
    intro l hl
    cases l with
    | nil => cases hl
    | cons a r => simp only [List.getElem?_cons_zero, Option.some.injEq] at hl; subst hl; simp [findPos, List.findIdx?_cons]
  unfold Gaussian.getParameter
  rcases hf with ⟨h1, h2⟩ | ⟨h0, h1, h2⟩
  · rw [key _ h1]
    simp [Gaussian.negIndex, Gaussian.getMean, at_, h2, Res.mapExc]
  · rw [(findPos_none).2 h0, key _ h1]
    simp [Gaussian.negIndex, Gaussian.getStDev, at_, h2, Res.mapExc]

/-- C61 fails for reading: every parameter whose name first occurs at a later place, a mean or a width, is reported as not found, although
it is listed and can be set (whenever the vectors fit in memory). -/
theorem C61_get_wrong {g : Gaussian α} (h : g.Ok) (hm : g.nDims ≤ 2 ^ 63) {n : String} {i : Nat} (hi : 0 < i)
    (hf : findPos g.meanNames n = some i ∨ (n ∉ g.meanNames ∧ findPos g.sdNames n = some i)) : g.getParameter n = .throw .notFound := by
  have hneg : ∀ l : List String, l.length = g.nDims → findPos l n = some i → g.nDims ≤ Gaussian.negIndex i := by
    intro l hl hp
    have := (List.getElem?_eq_some_iff.1 (findPos_some hp)).1
    have hi2 : i < 2 ^ 63 := by omega
    unfold Gaussian.negIndex
    omega
  unfold Gaussian.getParameter
  rcases hf with h1 | ⟨h0, h1⟩
  · rw [h1]
    have := hneg _ h.meanNames h1
    simp only [Gaussian.getMean, at_]
    rw [List.getElem?_eq_none (by rw [h.means]; exact this)]
    rfl
  · rw [(findPos_none).2 h0, h1]
    have := hneg _ h.sdNames h1
    simp only [Gaussian.getStDev, at_]
    rw [List.getElem?_eq_none (by rw [h.sds]; exact this)]
    rfl

/-- C61, an unknown name is refused when reading. -/
theorem C61_get_unknown {g : Gaussian α} {n : String} (hn : n ∉ g.meanNames ++ g.sdNames) : g.getParameter n = .throw .notFound := by
  simp only [List.mem_append, not_or] at hn
  unfold Gaussian.getParameter
  rw [findPos_none.2 hn.1, findPos_none.2 hn.2]

/-- The renaming of one list, run to the end. -/
theorem renameLoop_eq {old new : String} (hne : old ≠ new) (l : List String) (pos fuel : Nat) (hp : old ∉ l.take pos)
    (hf : (l.filter (· = old)).length < fuel) : Gaussian.renameLoop old new fuel l pos = some (l.map (fun m => if m = old then new else m)) := by
  induction fuel generalizing l pos with
  | zero => omega
  | succ fuel ih =>
    unfold Gaussian.renameLoop
    unfold Gaussian.findFrom
    cases hfp : findPos (l.drop pos) old with
    | none =>
      simp only [Option.map_none]
      have h1 : old ∉ l := by
        intro hm
        rw [← List.take_append_drop pos l, List.mem_append] at hm
        rcases hm with hm | hm
        · exact hp hm
        · exact findPos_none.1 hfp hm
      congr 1
      symm
      rw [List.map_congr_left (g := id) (fun m hm => by simp only [id]; rw [if_neg]; rintro rfl; exact h1 hm), List.map_id]
    | some j =>
      have a1 := findPos_some hfp
      simp only [Option.map_some]
      have hj : l[j + pos]? = some old := by rw [List.getElem?_drop] at a1; rw [Nat.add_comm]; exact a1
      have hjl := (List.getElem?_eq_some_iff.1 hj).1
      have hje := (List.getElem?_eq_some_iff.1 hj).2
      have hsplit : l = l.take (j + pos) ++ old :: l.drop (j + pos + 1) := by
        conv_lhs => rw [← List.take_append_drop (j + pos) l, List.drop_eq_getElem_cons hjl, hje]
      have hset : l.set (j + pos) new = l.take (j + pos) ++ new :: l.drop (j + pos + 1) := by
        rw [List.set_eq_take_append_cons_drop, if_pos hjl]
      rw [ih]
      · congr 1
        rw [hset]
        conv_rhs => rw [hsplit]
        simp only [List.map_append, List.map_cons, if_true, if_neg (Ne.symm hne)]
      · rw [hset, List.take_append_of_le_length (by simp; omega), List.take_take, Nat.min_self]
        intro hm
        obtain ⟨i, hi, he⟩ := List.getElem_of_mem hm
        simp only [List.length_take] at hi
        rw [List.getElem_take] at he
        by_cases hip : i < pos
        · apply hp
          rw [← he]
          exact List.mem_take_iff_getElem.2 ⟨i, by omega, rfl⟩
        · have := findPos_first hfp (j := i - pos) (by omega)
          rw [List.getElem?_drop] at this
          rw [show pos + (i - pos) = i by omega, List.getElem?_eq_getElem (by omega)] at this
          exact this (by rw [he])
      · rw [hset]
        have : (l.filter (· = old)).length = ((l.take (j + pos)).filter (· = old)).length + (1 + ((l.drop (j + pos + 1)).filter (· = old)).length) := by
          conv_lhs => rw [hsplit]
          simp [List.filter_append, List.filter_cons]
          omega
        simp only [List.filter_append, List.filter_cons, decide_eq_true_eq, if_neg (Ne.symm hne), List.length_append]
        omega

/-- The Gaussian with one name replaced by another. -/
def Gaussian.renamed (g : Gaussian α) (old new : String) : Gaussian α :=
  { g with meanNames := g.meanNames.map (fun m => if m = old then new else m), sdNames := g.sdNames.map (fun m => if m = old then new else m) }

/-- C61, renaming: a known name is replaced by one not in use; the value is then listed under the new name, the old name is gone and every
other parameter is as it was; no mean or width changes. -/
theorem C61_rename {g : Gaussian α} (h : g.Ok) {old new : String} (ho : old ∈ g.meanNames ++ g.sdNames) (hn : new ∉ g.meanNames ++ g.sdNames)
    {fuel : Nat} (hf : g.nDims < fuel) :
    ∃ g' d d', g.renameParameter fuel old new = some (.ok g') ∧ g'.Ok ∧ g'.means = g.means ∧ g'.stdDevs = g.stdDevs ∧
      g.getParameters = .ok d ∧ g'.getParameters = .ok d' ∧ d'.find new = d.find old ∧ d'.find old = none ∧
      (∀ m, m ≠ old → m ≠ new → d'.find m = d.find m) := by
  have hne : old ≠ new := by rintro rfl; exact hn ho
  have hl : ∀ l : List String, l.length = g.nDims → (l.filter (· = old)).length < fuel := by
    intro l hl; have := List.length_filter_le (fun x => decide (x = old)) l; omega
  have hr : g.renameParameter fuel old new = some (.ok (g.renamed old new)) := by
    unfold Gaussian.renameParameter
    rw [if_neg (by simp only [List.mem_append] at ho; tauto)]
    rw [renameLoop_eq hne _ 0 fuel (by simp) (hl _ h.meanNames)]
    simp only
    rw [renameLoop_eq hne _ 0 fuel (by simp) (hl _ h.sdNames)]
    rfl
  have h' : Gaussian.Ok (g.renamed old new) :=
    ⟨h.means, h.sds, by simp [Gaussian.renamed, h.meanNames], by simp [Gaussian.renamed, h.sdNames]⟩
  obtain ⟨d, hd, hds, hdf⟩ := Gaussian.getParameters_eq h
  obtain ⟨d', hd', hds', hdf'⟩ := Gaussian.getParameters_eq h'
  simp only [Gaussian.renamed, ← List.map_append] at hdf'
  refine ⟨_, d, d', hr, h', rfl, rfl, hd, hd', ?_, ?_, ?_⟩
  · rw [hdf', hdf]
    apply fill_rename
    intro m hm
    constructor
    · intro e; by_contra hmo; rw [if_neg hmo] at e; exact hn (e ▸ hm)
    · intro e; rw [if_pos e]
  · rw [hdf']
    apply fill_absent
    intro hm
    obtain ⟨m, hm, e⟩ := List.mem_map.1 hm
    by_cases hmo : m = old
    · rw [if_pos hmo] at e; exact hne e.symm
    · rw [if_neg hmo] at e; exact hmo e
  · intro k hk1 hk2
    rw [hdf', hdf]
    apply fill_rename
    intro m hm
    constructor
    · intro e
      by_cases hmo : m = old
      · rw [if_pos hmo] at e; exact absurd e.symm hk2
      · rw [if_neg hmo] at e; exact e
    · intro e; rw [if_neg (by rw [e]; exact hk1)]; exact e

/-- C61, renaming an unknown parameter is refused. -/
theorem C61_rename_unknown {g : Gaussian α} {old new : String} (ho : old ∉ g.meanNames ++ g.sdNames) (fuel : Nat) :
    g.renameParameter fuel old new = some (.throw .notFound) := by
  simp only [List.mem_append, not_or] at ho
  unfold Gaussian.renameParameter
  rw [if_pos ho]

/-- The search that never moves. -/
theorem renameLoop_same {n : String} (l : List String) (hn : n ∈ l) (fuel : Nat) (pos : Nat) (hp : findPos (l.drop pos) n ≠ none) :
    Gaussian.renameLoop n n fuel l pos = none := by
  induction fuel generalizing pos with
  | zero => rfl
  | succ fuel ih =>
    unfold Gaussian.renameLoop Gaussian.findFrom
    cases hfp : findPos (l.drop pos) n with
    | none => exact absurd hfp hp
    | some j =>
      simp only [Option.map_some]
      have a1 := findPos_some hfp
      have hj : l[j + pos]? = some n := by rw [List.getElem?_drop] at a1; rw [Nat.add_comm]; exact a1
      have hjl := (List.getElem?_eq_some_iff.1 hj).1
      have hset : l.set (j + pos) n = l := by
        apply List.ext_getElem? 
        intro i
        rw [List.getElem?_set]
        by_cases hi : j + pos = i
        · subst hi; rw [if_pos rfl, if_pos hjl, hj]
        · rw [if_neg hi]
      rw [hset]
      apply ih
      intro hnone
      apply findPos_none.1 hnone
      have hje := (List.getElem?_eq_some_iff.1 hj).2
      rw [List.drop_eq_getElem_cons hjl, hje]
      exact List.mem_cons_self

/-- C61 fails for renaming a parameter to its own name: the call never returns. -/
theorem C61_rename_same_wrong {g : Gaussian α} {n : String} (hn : n ∈ g.meanNames ++ g.sdNames) (fuel : Nat) : g.renameParameter fuel n n = none := by
  have hnotin : ∀ l : List String, n ∈ l → Gaussian.renameLoop n n fuel l 0 = none := by
    intro l hl
    apply renameLoop_same l hl
    rw [List.drop_zero]
    intro h; exact findPos_none.1 h hl
  unfold Gaussian.renameParameter
  rw [if_neg (by simp only [List.mem_append] at hn; tauto)]
  by_cases hm : n ∈ g.meanNames
  · rw [hnotin _ hm]
  · cases Gaussian.renameLoop n n fuel g.meanNames 0 with
    | none => rfl
    | some ms =>
      simp only [List.mem_append] at hn
      simp only
      rw [hnotin _ (by tauto)]

/-- C61, construction: accepted exactly when there is a positive width for every mean. -/
theorem C61_make {means sds : List α} {name : String} :
    ((∃ g, Gaussian.make means sds name = .ok g) ↔ means.length = sds.length ∧ ∀ s ∈ sds, 0 < s) ∧
    ∀ g, Gaussian.make means sds name = .ok g → g.Ok ∧ g.means = means ∧ g.stdDevs = sds ∧ g.nDims = means.length := by
  have hloop : ∀ l : List α, Res.forFold (fun (_ : Unit) s => Res.throwIf (s ≤ 0) Exc.value) () l = .ok () ↔ ∀ s ∈ l, 0 < s := by
    intro l
    induction l with
    | nil => simp [Res.forFold]
    | cons a r ih =>
      rw [Res.forFold]
      by_cases ha : a ≤ 0
      · rw [show Res.throwIf (a ≤ 0) Exc.value = Res.throw Exc.value from if_pos ha]
        constructor
        · intro h; cases h
        · intro h; exact absurd (h a (by simp)) (not_lt.2 ha)
      · rw [show Res.throwIf (a ≤ 0) Exc.value = Res.ok () from if_neg ha]
        simp only
        rw [ih]
        simp [not_le.1 ha]
  have hc : Gaussian.checkWidths means sds = .ok () ↔ means.length = sds.length ∧ ∀ s ∈ sds, 0 < s := by
    unfold Gaussian.checkWidths
    by_cases hl : means.length = sds.length
    · rw [if_neg (by simpa using hl), hloop]; simp [hl]
    · rw [if_pos hl]; constructor
      · intro h; cases h
      · intro h; exact absurd h.1 hl
  constructor
  · rw [← hc]
    unfold Gaussian.make
    cases hk : Gaussian.checkWidths means sds with
    | ok u => simp
    | throw e => simp
    | ub => simp
  · intro g hg
    unfold Gaussian.make at hg
    obtain ⟨u, hu, hg⟩ := Res.bind_eq_ok.1 hg
    cases u
    obtain ⟨h1, h2⟩ := hc.1 hu
    cases Res.ok.inj hg
    exact ⟨⟨rfl, h1.symm, by simp [Gaussian.defaultNames], by simp [Gaussian.defaultNames]⟩, rfl, rfl, rfl⟩

/-- C61 fails for widths: the constructor refuses a width that is not positive, `SetParameter` takes it. -/
theorem C61_width_unchecked_wrong {g : Gaussian α} (h : g.Ok) {n : String} {i : Nat} (hn : g.sdNames[i]? = some n) {v : α} (hv : v ≤ 0) :
    ∃ g', g.setParameter n v = .ok g' ∧ g'.stdDevs[i]? = some v ∧ ∀ name, ¬ ∃ g2, Gaussian.make g'.means g'.stdDevs name = .ok g2 := by
  have hi : i < g.stdDevs.length := by rw [h.sds, ← h.sdNames]; exact (List.getElem?_eq_some_iff.1 hn).1
  have hget : (setNamed n v g.sdNames g.stdDevs)[i]? = some v := by
    rw [setNamed_get n v hn (List.getElem?_eq_getElem hi), if_pos rfl]
  refine ⟨_, Gaussian.setParameter_eq h n v, hget, ?_⟩
  intro name hm
  have := (C61_make.1.1 hm).2 v (List.mem_of_getElem? hget)
  exact absurd this (not_lt.2 hv)

/-- C61, whole dictionaries: each known name mentioned gets its value, everything else is kept, unknown names are ignored. -/
theorem C61_setParameters {g : Gaussian α} (h : g.Ok) {p : ParamDict α} (hp : p.Sorted) :
    ∃ g' d d', g.setParameters p = .ok g' ∧ g'.Ok ∧ g.getParameters = .ok d ∧ g'.getParameters = .ok d' ∧
      g'.meanNames = g.meanNames ∧ g'.sdNames = g.sdNames ∧ d'.keys = d.keys ∧
      ∀ m ∈ d.keys, d'.find m = match p.find m with | some v => some v | none => d.find m := by
  unfold Gaussian.setParameters
  induction p generalizing g with
  | nil =>
    obtain ⟨d, hd, _, _⟩ := Gaussian.getParameters_eq h
    exact ⟨g, d, d, rfl, h, hd, hd, rfl, rfl, rfl, fun m _ => by simp [SMap.find]⟩
  | cons q r ih =>
    have hq := List.pairwise_cons.1 hp
    unfold Res.forFold
    obtain ⟨d, hd, hds, hdf⟩ := Gaussian.getParameters_eq h
    by_cases hn : q.1 ∈ g.meanNames ++ g.sdNames
    · obtain ⟨g1, d0, d1, e1, o1, f1, f2, f3, f4, f5, f6, f7, _⟩ := C61_set h hn q.2
      obtain ⟨g2, d1', d2, k1, k2, k3, k4, k5, k6, k7, k8⟩ := ih (g := g1) o1 hq.2
      cases Res.ok.inj (hd.symm.trans f1)
      cases Res.ok.inj (f2.symm.trans k3)
      rw [e1]
      refine ⟨g2, d, d2, k1, k2, hd, k4, k5.trans f6, k6.trans f7, k7.trans f5, ?_⟩
      intro m hm
      rw [k8 m (by rw [f5]; exact hm)]
      obtain ⟨k, v⟩ := q
      rw [SMap.find_cons]
      by_cases hmq : k = m
      · subst hmq
        rw [if_pos rfl]
        have : SMap.find r k = none := by
          rw [SMap.find_none_iff]
          intro hk
          obtain ⟨z, hz, he⟩ := List.mem_map.1 hk
          have h2 := hq.1 z hz
          rw [he] at h2
          exact absurd h2 (lt_irrefl _)
        rw [this]
        exact f3
      · rw [if_neg hmq]
        cases SMap.find r m with
        | some w => rfl
        | none => exact f4 m (Ne.symm hmq)
    · rw [C61_set_unknown h hn]
      obtain ⟨g2, d1, d2, k1, k2, k3, k4, k5, k6, k7, k8⟩ := ih (g := g) h hq.2
      cases Res.ok.inj (hd.symm.trans k3)
      refine ⟨g2, d, d2, k1, k2, hd, k4, k5, k6, k7, ?_⟩
      intro m hm
      rw [k8 m hm]
      obtain ⟨k, v⟩ := q
      rw [SMap.find_cons]
      by_cases hmq : k = m
      · exfalso
        subst hmq
        apply hn
        by_contra hnot
        have : SMap.find d k = none := by rw [hdf]; exact fill_absent hnot none
        exact (SMap.find_none_iff _ _).1 this hm
      · rw [if_neg hmq]

/-- C61, copying keeps names and values. -/
theorem C61_copy {g : Gaussian α} (h : g.Ok) : ∃ c, g.copy = .ok c ∧ c.Ok ∧ c.getParameters = g.getParameters ∧
    (∀ n, c.getParameter n = g.getParameter n) ∧ c.name = g.name ++ "_copy" := by
  refine ⟨{ g with name := g.name ++ "_copy" }, ?_, ⟨h.means, h.sds, h.meanNames, h.sdNames⟩, rfl, fun n => rfl, rfl⟩
  unfold Gaussian.copy
  rw [if_neg (by rw [h.meanNames, h.sdNames]; simp)]

/-- A two-dimensional Gaussian for the examples. -/
def gauss2 : Gaussian ℚ := ⟨[1, 2], [3, 4], 6, 2, "g", ["means_0", "means_1"], ["stddevs_0", "stddevs_1"]⟩

theorem gauss2_ok : gauss2.Ok := ⟨rfl, rfl, rfl, rfl⟩

example : Gaussian.make [(1 : ℚ), 2] [3, 4] "g" = .ok gauss2 := by decide +kernel
example : gauss2.getParameter "means_0" = .ok 1 := C61_get_partial gauss2_ok (Or.inl ⟨rfl, rfl⟩)
example : gauss2.getParameter "stddevs_0" = .ok 3 := C61_get_partial gauss2_ok (Or.inr ⟨by decide, rfl, rfl⟩)
example : gauss2.getParameter "means_1" = .throw .notFound := C61_get_wrong gauss2_ok (by decide) (i := 1) (by decide) (Or.inl (by decide))
example : gauss2.getParameter "stddevs_1" = .throw .notFound :=
  C61_get_wrong gauss2_ok (by decide) (i := 1) (by decide) (Or.inr ⟨by decide, by decide⟩)
example : ∃ g' d d', gauss2.setParameter "means_1" 7 = .ok g' ∧ g'.Ok ∧ gauss2.getParameters = .ok d ∧ g'.getParameters = .ok d' ∧ d'.find "means_1" = some 7 := by
  obtain ⟨g', d, d', h1, h2, h3, h4, h5, _⟩ := C61_set gauss2_ok (n := "means_1") (by decide) 7
  exact ⟨g', d, d', h1, h2, h3, h4, h5⟩
example : gauss2.renameParameter 3 "means_1" "mu" = some (.ok { gauss2 with meanNames := ["means_0", "mu"] }) := by decide +kernel
example : ∃ g', gauss2.renameParameter 3 "means_1" "mu" = some (.ok g') := by
  obtain ⟨g', _, _, h, _⟩ := C61_rename gauss2_ok (old := "means_1") (new := "mu") (by decide) (by decide) (fuel := 3) (by decide)
  exact ⟨g', h⟩
example : ∀ fuel, gauss2.renameParameter fuel "means_1" "means_1" = none := fun fuel => C61_rename_same_wrong (by decide) fuel
example : ∃ g', gauss2.setParameter "stddevs_1" (-1) = .ok g' ∧ g'.stdDevs = [3, -1] := ⟨{ gauss2 with stdDevs := [3, -1] }, by decide +kernel, rfl⟩
example : ∃ g', gauss2.setParameters [("means_0", 5), ("nothing", 1)] = .ok g' ∧ g'.means = [5, 2] := ⟨{ gauss2 with means := [5, 2] }, by decide +kernel, rfl⟩

end Oxsx
