import Verif.Model.RootIO
import Verif.Props.DataSet
import Verif.Lemmas.Basic
set_option linter.unusedSectionVars false
set_option linter.unusedSimpArgs false
set_option linter.unusedVariables false
/-
C82: data sets saved as ROOT ntuples and read back.
-/
namespace Oxsx
open RootIO
variable {α : Type}

namespace RootIO

theorem cutVars_word (cur w cs : List Char) (hw : ':' ∉ w) : cutVars cur (w ++ cs) = cutVars (cur ++ w) cs := by
  induction w generalizing cur with
  | nil => simp
  | cons c w ih =>
    have hc : c ≠ ':' := fun h => hw (h ▸ List.mem_cons_self)
    simp only [List.cons_append, cutVars, if_neg hc]
    rw [ih _ (fun h => hw (List.mem_cons_of_mem _ h))]
    simp

theorem cutVars_joined (cur : List Char) (vs : List (List Char)) (hv : ∀ v ∈ vs, ':' ∉ v) :
    cutVars cur (vs.flatMap (fun v => ':' :: v)) = cur :: vs := by
  induction vs generalizing cur with
  | nil => rfl
  | cons v vs ih =>
    simp only [List.flatMap_cons, List.cons_append, cutVars, if_true]
    rw [cutVars_word _ _ _ (hv v List.mem_cons_self), List.nil_append, ih _ (fun v h => hv v (List.mem_cons_of_mem _ h))]

theorem foldl_toList (v : String) (vs : List String) :
    (vs.foldl (fun s x => (s ++ ":") ++ x) v).toList = v.toList ++ (vs.map String.toList).flatMap (fun w => ':' :: w) := by
  induction vs generalizing v with
  | nil => simp
  | cons w vs ih => rw [List.foldl_cons, ih]; simp

/-- The branches made for names which are not empty and have no colon. -/
theorem vars_of_names (names : List String) (hne : names ≠ []) (hn : ∀ n ∈ names, n ≠ "" ∧ ':' ∉ n.toList) :
    ∃ s, branchString names = .ok s ∧ ntupleVars s = names := by
  cases names with
  | nil => exact absurd rfl hne
  | cons v vs =>
    refine ⟨_, rfl, ?_⟩
    obtain ⟨h1, h2⟩ := hn v (by simp)
    have ht := foldl_toList v vs
    unfold ntupleVars
    rw [ht]
    cases hv : v.toList with
    | nil => exact absurd (by rw [← String.toList_inj, hv]; rfl) h1
    | cons c cs =>
      have hcs : ':' ∉ cs := fun h => h2 (by rw [hv]; exact List.mem_cons_of_mem _ h)
      simp only [List.cons_append]
      rw [cutVars_word _ _ _ hcs, cutVars_joined _ _ (by
        intro w hw
        obtain ⟨u, hu, rfl⟩ := List.mem_map.1 hw
        exact (hn u (by simp [hu])).2)]
      simp only [List.map_cons, List.map_map]
      congr 1
      · rw [show [c] ++ cs = v.toList by rw [hv]; rfl, String.ofList_toList]
      · conv_rhs => rw [← List.map_id vs]
        apply List.map_congr_left
        intro u _; simp

/-- The rows written: the first `n` values of every event, as floats. -/
theorem rows_of (fl : α → α) (d : DataSet α) (n : Nat) (h : ∀ r ∈ d.data, n ≤ r.length) :
    Res.traverse (ntupleRow fl d n) (List.range d.getNEntries) = .ok (d.data.map (fun r => (r.map fl).take n)) := by
  have h1 : Res.traverse (ntupleRow fl d n) (List.range d.getNEntries) =
      .ok ((List.range d.getNEntries).map (fun i => (((d.data[i]?).getD []).map fl).take n)) := by
    apply Res.traverse_ok
    intro i hi
    have hi : i < d.data.length := by simpa [DataSet.getNEntries] using hi
    unfold ntupleRow DataSet.getEntry
    rw [List.getElem?_eq_getElem hi]
    simp only [Res.ok_bind, Option.getD_some]
    rw [if_neg (by have := h _ (List.getElem_mem hi); omega)]
  rw [h1]
  congr 1
  apply List.ext_getElem
  · simp [DataSet.getNEntries]
  · intro i h1 h2
    have hi : i < d.data.length := by simpa [DataSet.getNEntries] using h1
    simp [List.getElem?_eq_getElem hi]

theorem traverse_eq_of_get {β γ : Type} {f : β → Res γ} {l : List β} {r : List γ} (hl : r.length = l.length)
    (h : ∀ (k : Nat) n, l[k]? = some n → ∃ v, r[k]? = some v ∧ f n = .ok v) : Res.traverse f l = .ok r := by
  induction l generalizing r with
  | nil => simp at hl; simp [hl]
  | cons a l ih =>
    cases r with
    | nil => simp at hl
    | cons b r =>
      obtain ⟨v, h1, h2⟩ := h 0 a rfl
      simp at h1; subst h1
      exact Res.traverse_cons_eq_ok.2 ⟨_, _, h2, ih (by simpa using hl) (fun k n hk => by simpa using h (k + 1) n (by simpa using hk)), rfl⟩

/-- What is in the file after saving. -/
theorem save_eq (fl : α → α) (d : DataSet α) (tree : String) (old : Option (RootTree α)) (hne : d.names ≠ [])
    (hn : ∀ n ∈ d.names, n ≠ "" ∧ ':' ∉ n.toList) (hd : ∀ r ∈ d.data, d.names.length ≤ r.length) :
    save fl d tree old = .ok (some ⟨tree, true, d.names.map (fun v => (v, v)), d.data.map (fun r => (r.map fl).take d.names.length)⟩) := by
  obtain ⟨s, h1, h2⟩ := vars_of_names d.names hne hn
  unfold save
  rw [if_neg (by simpa using hne), h1, Res.ok_bind]
  simp only [h2]
  rw [rows_of fl d _ hd, Res.ok_bind]

theorem leafOf_diag (names : List String) (rows : List (List α)) (tree : String) (hnd : names.Nodup) {k : Nat} {n : String} (hk : names[k]? = some n) :
    leafOf (⟨tree, true, names.map (fun v => (v, v)), rows⟩ : RootTree α) n = some k := by
  unfold leafOf
  simp only [List.map_map]
  rw [show (names.map ((fun b : String × String => b.2) ∘ fun v => (v, v))) = names by
    conv_rhs => rw [← List.map_id names]
    rfl]
  exact findPos_eq_of_nodup hnd hk

end RootIO

/-- A data set with one name per observable, none of them empty or with a colon, and fewer than 2³² events, saved as an ntuple, replaces
whatever was in the file; opened again under the same name it has the same names in the same order, the same number of events and of
observables, and event `i` holds the values of event `i` as floats; the entry after the last is refused. -/
theorem C82_round_trip (fl : α → α) (d : DataSet α) (hd : d.WF) (hne : d.names ≠ []) (hlen : d.data = [] ∨ d.names.length = d.nObs)
    (hn : ∀ n ∈ d.names, n ≠ "" ∧ ':' ∉ n.toList) (hsize : d.data.length < 2 ^ 32) (tree : String) (old : Option (RootTree α)) :
    ∃ f t, save fl d tree old = .ok f ∧ openNtuple f tree = .ok t ∧ observableNames t = d.names ∧ nEntries t = d.data.length ∧
      nObservables t = d.names.length ∧
      (∀ (i : Nat) r, d.data[i]? = some r → ntupleEntry t i = .ok ⟨r.map fl, some d.names⟩) ∧
      (∀ i, d.data.length ≤ i → ntupleEntry t i = .throw .notFound) := by
  have hrow : ∀ r ∈ d.data, r.length = d.names.length := by
    intro r hr
    rcases hlen with h | h
    · rw [h] at hr; cases hr
    · rw [hd.1 r hr, h]
  refine ⟨_, _, save_eq fl d tree old hne hn (fun r hr => (hrow r hr).ge), by unfold openNtuple; exact if_pos ⟨rfl, rfl⟩, ?_, ?_, ?_, ?_, ?_⟩
  · simp [observableNames, Function.comp_def]
  · simp only [nEntries, List.length_map, Nat.mod_eq_of_lt hsize]
  · simp [nObservables]
  · intro i r hi
    have hlt : i < d.data.length := (List.getElem?_eq_some_iff.1 hi).1
    have hr := hrow r (List.mem_of_getElem? hi)
    unfold ntupleEntry
    rw [if_neg (by simp only [nEntries, List.length_map, Nat.mod_eq_of_lt hsize]; omega)]
    simp only [idx, List.getElem?_map, hi, Option.map_some, Res.ok_bind, nObservables, List.length_map, observableNames, List.map_map]
    rw [if_neg (by simp [hr])]
    have htake : (r.map fl).take d.names.length = r.map fl := List.take_of_length_le (by simp [hr])
    rw [htake, htake]
    simp [Function.comp_def]
  · intro i hi
    unfold ntupleEntry
    rw [if_pos (by simp only [nEntries, List.length_map, Nat.mod_eq_of_lt hsize]; omega)]

/-- The same file read as a tree, the names being distinct. -/
theorem C82_tree_partial (fl : α → α) (d : DataSet α) (hd : d.WF) (hne : d.names ≠ []) (hlen : d.data = [] ∨ d.names.length = d.nObs)
    (hn : ∀ n ∈ d.names, n ≠ "" ∧ ':' ∉ n.toList) (hnd : d.names.Nodup) (hsize : d.data.length < 2 ^ 32) (tree : String)
    (old : Option (RootTree α)) :
    ∃ f t, save fl d tree old = .ok f ∧ openTree f tree = .ok t ∧ observableNames t = d.names ∧ nEntries t = d.data.length ∧
      (∀ (i : Nat) r, d.data[i]? = some r → treeEntry t i = .ok ⟨r.map fl, some d.names⟩) ∧
      (∀ i, d.data.length ≤ i → treeEntry t i = .throw .notFound) := by
  have hrow : ∀ r ∈ d.data, r.length = d.names.length := by
    intro r hr
    rcases hlen with h | h
    · rw [h] at hr; cases hr
    · rw [hd.1 r hr, h]
  refine ⟨_, _, save_eq fl d tree old hne hn (fun r hr => (hrow r hr).ge), by unfold openTree; exact if_pos rfl, ?_, ?_, ?_, ?_⟩
  · simp [observableNames, Function.comp_def]
  · simp only [nEntries, List.length_map, Nat.mod_eq_of_lt hsize]
  · intro i r hi
    have hlt : i < d.data.length := (List.getElem?_eq_some_iff.1 hi).1
    have hr := hrow r (List.mem_of_getElem? hi)
    unfold treeEntry
    rw [if_neg (by simp only [nEntries, List.length_map, Nat.mod_eq_of_lt hsize]; omega)]
    simp only [idx, List.getElem?_map, hi, Option.map_some, Res.ok_bind, observableNames, List.map_map, Function.comp_def, List.map_id']
    have htake : (r.map fl).take d.names.length = r.map fl := List.take_of_length_le (by simp [hr])
    rw [htake]
    have ht : Res.traverse (leafValue (⟨tree, true, d.names.map (fun v => (v, v)), d.data.map (fun r => (r.map fl).take d.names.length)⟩ : RootTree α)
        (r.map fl)) d.names = .ok (r.map fl) := by
      apply traverse_eq_of_get
      · simp [hr]
      · intro k n hk
        have hkl : k < (r.map fl).length := by
          have := (List.getElem?_eq_some_iff.1 hk).1; simp [hr]; omega
        unfold leafValue
        rw [leafOf_diag d.names _ tree hnd hk]
        exact ⟨_, List.getElem?_eq_getElem hkl, idx_of_lt hkl⟩
    rw [ht, Res.ok_bind]
  · intro i hi
    unfold treeEntry
    rw [if_pos (by simp only [nEntries, List.length_map, Nat.mod_eq_of_lt hsize]; omega)]

/-- Floats are not rounded again: the data set read back, saved once more, gives the same file. -/
theorem C82_stable (fl : α → α) (hfl : ∀ x, fl (fl x) = fl x) (d : DataSet α) (hd : d.WF) (hne : d.names ≠ [])
    (hlen : d.data = [] ∨ d.names.length = d.nObs) (hn : ∀ n ∈ d.names, n ≠ "" ∧ ':' ∉ n.toList) (tree : String)
    (old old' : Option (RootTree α)) :
    save fl { d with data := d.data.map (·.map fl) } tree old' = save fl d tree old := by
  have hrow : ∀ r ∈ d.data, r.length = d.names.length := by
    intro r hr
    rcases hlen with h | h
    · rw [h] at hr; cases hr
    · rw [hd.1 r hr, h]
  rw [save_eq fl d tree old hne hn (fun r hr => (hrow r hr).ge), save_eq fl { d with data := d.data.map (·.map fl) } tree old' hne hn (by
    intro r hr
    obtain ⟨q, hq, rfl⟩ := List.mem_map.1 hr
    simp [hrow q hq])]
  simp [Function.comp_def, hfl]

/-- A file that is not there, a tree of another name, and (for the ntuple reader) a tree that is not an ntuple are refused; a data set without names leaves the file
as it was. -/
theorem C82_refused (fl : α → α) (tree : String) :
    openNtuple (none : Option (RootTree α)) tree = .throw .io ∧ openTree (none : Option (RootTree α)) tree = .throw .io ∧
    (∀ t : RootTree α, t.name ≠ tree → openNtuple (some t) tree = .throw .io ∧ openTree (some t) tree = .throw .io) ∧
    (∀ t : RootTree α, t.ntuple = false → openNtuple (some t) tree = .throw .io) ∧
    (∀ (d : DataSet α) old, d.names = [] → save fl d tree old = .ok old) := by
  refine ⟨rfl, rfl, ?_, ?_, ?_⟩
  · intro t h
    exact ⟨if_neg (fun hh => h hh.1), if_neg h⟩
  · intro t h
    exact if_neg (fun hh => by rw [h] at hh; exact Bool.noConfusion hh.2)
  · intro d old h
    unfold save; rw [if_pos (by simp [h])]

/-- With a colon in a name more values are written than an event has: they are read past its end. -/
theorem C82_colon_wrong : ∃ d : DataSet Int, d.WF ∧ d.names.length = d.nObs ∧ save id d "t" none = .ub :=
  ⟨⟨[[1, 2]], ["a", "b:c"], 2⟩, by decide +kernel, by decide +kernel, by decide +kernel⟩

/-- With fewer names than observables the values left over are dropped without a word. -/
theorem C82_dropped_wrong : ∃ (d : DataSet Int) (t : RootTree Int), d.WF ∧ d.nObs = 2 ∧ save id d "t" none = .ok (some t) ∧
    ntupleEntry t 0 = .ok ⟨[1], some ["a"]⟩ ∧ d.data = [[1, 2]] :=
  ⟨⟨[[1, 2]], ["a"], 2⟩, ⟨"t", true, [("a", "a")], [[1]]⟩, by decide +kernel, by decide +kernel, by decide +kernel, by decide +kernel, by decide +kernel⟩

/-- With a name used twice, the tree reader gives the first observable twice (the ntuple reader does not). -/
theorem C82_repeated_name_wrong : ∃ (d : DataSet Int) (t : RootTree Int), d.WF ∧ save id d "t" none = .ok (some t) ∧
    treeEntry t 0 = .ok ⟨[1, 1], some ["a", "a"]⟩ ∧ ntupleEntry t 0 = .ok ⟨[1, 2], some ["a", "a"]⟩ :=
  ⟨⟨[[1, 2]], ["a", "a"], 2⟩, ⟨"t", true, [("a", "a"), ("a", "a")], [[1, 2]]⟩, by decide +kernel, by decide +kernel, by decide +kernel, by decide +kernel⟩

/-- A tree with a branch whose leaf is called something else: it is opened, but reading an entry follows a null pointer. -/
theorem C82_leaf_name_wrong : ∃ t : RootTree Int, openTree (some t) "t" = .ok t ∧ nEntries t = 1 ∧ treeEntry t 0 = .ub :=
  ⟨⟨"t", false, [("a", "x")], [[1]]⟩, by decide +kernel, by decide +kernel, by decide +kernel⟩

-- the hypotheses met by a set of two events
example : (⟨[[1, 2], [3, 4]], ["energy", "radius"], 2⟩ : DataSet Int).WF ∧ (∀ n ∈ ["energy", "radius"], n ≠ "" ∧ ':' ∉ n.toList) ∧ ["energy", "radius"].Nodup := by
  decide +kernel
example : (save (fun x => x / 2) (⟨[[1, 2], [3, 4]], ["energy", "radius"], 2⟩ : DataSet Int) "t" none >>= fun f => openTree f "t" >>= fun t => treeEntry t 1) =
    .ok ⟨[1, 2], some ["energy", "radius"]⟩ := by decide +kernel

end Oxsx
