import Verif.Model.Event
import Verif.Lemmas.Basic
/-
Property C42: event and observable-set lookups.
-/
set_option linter.unusedSectionVars false
set_option linter.unusedSimpArgs false
namespace Oxsx
variable {α : Type}

namespace ObsSet

/-- Distinct names: the inverse map is the position of the name. -/
theorem inverse_find (names : List String) (k : Nat) (m : SMap Nat) (hn : names.Nodup) (n : String) :
    SMap.find ((names.zipIdx k).foldl (fun (m : SMap Nat) p => m.insert p.1 p.2) m) n =
      match findPos names n with
      | some i => some (k + i)
      | none => m.find n := by
  induction names generalizing k m with
  | nil => simp [findPos]
  | cons a l ih =>
    simp only [List.zipIdx_cons, List.foldl_cons]
    rw [ih (k + 1) _ (List.nodup_cons.1 hn).2]
    unfold findPos
    rw [List.findIdx?_cons]
    by_cases ha : a = n
    · subst ha
      have : List.findIdx? (fun y => decide (y = a)) l = none := by
        rw [List.findIdx?_eq_none_iff]
        intro x hx
        have : x ≠ a := fun h => (List.nodup_cons.1 hn).1 (h ▸ hx)
        simp [this]
      simp [this, SMap.find_insert]
    · simp only [decide_eq_true_eq, ha, decide_false, Bool.false_eq_true, if_false]
      cases hf : List.findIdx? (fun y => decide (y = n)) l with
      | none => simp [SMap.find_insert, Ne.symm ha, ha]
      | some i => simp; omega

theorem getIndex_eq (names : List String) (hn : names.Nodup) (n : String) :
    (ofNames names).getIndex n = match findPos names n with
      | some i => .ok i
      | none => .throw .outOfRange := by
  unfold getIndex ofNames
  simp only
  rw [inverse_find names 0 [] hn n]
  cases findPos names n <;> simp [SMap.find]

end ObsSet

/-- C42 (index lookup): `GetIndex` gives the position of a name, for distinct names; unknown names throw
`std::out_of_range`. -/
theorem C42_index (names : List String) (hn : names.Nodup) (n : String) :
    (∀ i, (ObsSet.ofNames names).getIndex n = .ok i ↔ names[i]? = some n) ∧
    (n ∉ names → (ObsSet.ofNames names).getIndex n = .throw .outOfRange) := by
  rw [ObsSet.getIndex_eq names hn]
  constructor
  · intro i
    constructor
    · intro h
      cases hf : findPos names n with
      | none => rw [hf] at h; cases h
      | some j => rw [hf] at h; cases h; exact findPos_some hf
    · intro h
      rw [findPos_eq_of_nodup hn h]
  · intro h
    rw [findPos_none.2 h]

example : ["e", "r", "t"].Nodup ∧ (ObsSet.ofNames ["e", "r", "t"]).getIndex "t" = .ok 2 := by decide +kernel

/-- C42 (relative indices): for a set `small` of names all occurring in `big` (distinct names), the relative
indices are, in order, the positions in `big`; if some name is missing (and `big` is not shorter)
`std::out_of_range`; if `big` has fewer names `RepresentationError`. -/
theorem C42_relative (small big : List String) (hn : big.Nodup) :
    (big.length < small.length →
      (ObsSet.ofNames small).getRelativeIndices (ObsSet.ofNames big) = .throw .representation) ∧
    (small.length ≤ big.length → (∀ n ∈ small, n ∈ big) →
      ∃ ks : List Nat, (ObsSet.ofNames small).getRelativeIndices (ObsSet.ofNames big) = .ok ks ∧
        List.Forall₂ (fun k n => big[k]? = some n) ks small) ∧
    (small.length ≤ big.length → (∃ n ∈ small, n ∉ big) →
      (ObsSet.ofNames small).getRelativeIndices (ObsSet.ofNames big) = .throw .outOfRange) := by
  unfold ObsSet.getRelativeIndices
  have e : ∀ l, (ObsSet.ofNames l).names = l := fun _ => rfl
  simp only [e]
  refine ⟨fun h => by rw [if_pos h], ?_, ?_⟩
  · intro hl hm
    rw [if_neg (by omega)]
    clear hl e
    induction small with
    | nil => exact ⟨[], rfl, List.Forall₂.nil⟩
    | cons a l ih =>
      obtain ⟨ks, h1, h2⟩ := ih (fun n hn => hm n (List.mem_cons_of_mem _ hn))
      obtain ⟨i, hi⟩ := List.mem_iff_getElem?.1 (hm a List.mem_cons_self)
      refine ⟨i :: ks, ?_, List.Forall₂.cons hi h2⟩
      simp only [Res.traverse, ((C42_index big hn a).1 i).2 hi, h1]
  · rintro hl ⟨n, hn1, hn2⟩
    rw [if_neg (by omega)]
    clear hl e
    induction small with
    | nil => cases hn1
    | cons a l ih =>
      by_cases ha : a ∈ big
      · obtain ⟨i, hi⟩ := List.mem_iff_getElem?.1 ha
        have : n ∈ l := by
          rcases List.mem_cons.1 hn1 with h | h
          · exact absurd (h ▸ ha) hn2
          · exact h
        simp only [Res.traverse, ((C42_index big hn a).1 i).2 hi, ih this]
      · simp only [Res.traverse, (C42_index big hn a).2 ha]

example : (ObsSet.ofNames ["t", "e"]).getRelativeIndices (ObsSet.ofNames ["e", "r", "t"]) = .ok [2, 0] := by
  decide +kernel

/-- C42 (extraction): an event whose data set has the distinct names `names`, one value per name, yields for any
requested list of known names the values under those names, in the requested order; a name it lacks throws
`NotFoundError`. -/
theorem C42_extract (names : List String) (vals : List α) (hn : names.Nodup) (hl : vals.length = names.length)
    (req : List String) :
    ((∀ n ∈ req, n ∈ names) → ∃ vs : List α, (Event.mk vals (some names)).toObsSet (ObsSet.ofNames req) = .ok vs ∧
      List.Forall₂ (fun v n => ∃ i : Nat, names[i]? = some n ∧ vals[i]? = some v) vs req) ∧
    ((∃ n ∈ req, n ∉ names) →
      (Event.mk vals (some names)).toObsSet (ObsSet.ofNames req) = .throw .notFound) := by
  have key : ∀ n ∈ names, ∃ v, (Event.mk vals (some names)).getDatumByName n = .ok v ∧
      ∃ i : Nat, names[i]? = some n ∧ vals[i]? = some v := by
    intro n h
    obtain ⟨i, h1, h2⟩ := findPos_of_mem h
    have hi : i < vals.length := by rw [hl]; exact (List.getElem?_eq_some_iff.1 h2).1
    refine ⟨vals[i], ?_, i, h2, by simp [hi]⟩
    simp [Event.getDatumByName, h1, Event.getDatum, at_of_lt hi, Res.mapExc]
  have key2 : ∀ n, n ∉ names → (Event.mk vals (some names)).getDatumByName n = .throw .notFound := by
    intro n h
    simp [Event.getDatumByName, findPos_none.2 h]
  unfold Event.toObsSet ObsSet.ofNames
  simp only
  constructor
  · intro hm
    induction req with
    | nil => exact ⟨[], rfl, List.Forall₂.nil⟩
    | cons a l ih =>
      obtain ⟨vs, h1, h2⟩ := ih (fun n hn => hm n (List.mem_cons_of_mem _ hn))
      obtain ⟨v, h3, h4⟩ := key a (hm a List.mem_cons_self)
      exact ⟨v :: vs, by simp only [Res.traverse, h3, h1], List.Forall₂.cons h4 h2⟩
  · rintro ⟨n, hn1, hn2⟩
    induction req with
    | nil => cases hn1
    | cons a l ih =>
      by_cases ha : a ∈ names
      · obtain ⟨v, h3, h4⟩ := key a ha
        have : n ∈ l := by
          rcases List.mem_cons.1 hn1 with h | h
          · exact absurd (h ▸ ha) hn2
          · exact h
        simp only [Res.traverse, h3, ih this]
      · simp only [Res.traverse, key2 a ha]

example : (Event.mk [(4 : Int), 2, 1] (some ["e", "r", "t"])).toObsSet (ObsSet.ofNames ["r", "e"]) = .ok [2, 4] := by
  decide +kernel

/-- C42 (writing): setting an observable by name changes that value and no other; an unknown name throws
`NotFoundError`. -/
theorem C42_set (names : List String) (vals : List α) (hn : names.Nodup) (hl : vals.length = names.length)
    (n : String) (x : α) :
    (n ∈ names → ∃ e', (Event.mk vals (some names)).setDatumByName n x = .ok e' ∧ e'.names = some names ∧
      e'.getDatumByName n = .ok x ∧
      ∀ m, m ≠ n → e'.getDatumByName m = (Event.mk vals (some names)).getDatumByName m) ∧
    (n ∉ names → (Event.mk vals (some names)).setDatumByName n x = .throw .notFound) := by
  constructor
  · intro h
    obtain ⟨i, h1, h2⟩ := findPos_of_mem h
    have hi : i < vals.length := by rw [hl]; exact (List.getElem?_eq_some_iff.1 h2).1
    refine ⟨⟨vals.set i x, some names⟩, ?_, rfl, ?_, ?_⟩
    · simp [Event.setDatumByName, h1, Event.setDatum, setIdx_of_lt hi]
    · simp [Event.getDatumByName, h1, Event.getDatum, at_of_lt, hi, Res.mapExc]
    · intro m hm
      unfold Event.getDatumByName
      simp only
      cases hf : findPos names m with
      | none => rfl
      | some j =>
        have hj := findPos_some hf
        have : i ≠ j := by
          rintro rfl; rw [h2] at hj; cases hj; exact hm rfl
        simp [Event.getDatum, at_, List.getElem?_set_ne this]
  · intro h
    simp [Event.setDatumByName, findPos_none.2 h]

example : (Event.mk [(4 : Int), 2, 1] (some ["e", "r", "t"])).setDatumByName "r" 7 =
    .ok ⟨[4, 7, 1], some ["e", "r", "t"]⟩ := by decide +kernel

/-- C42 is false for events that are not attached to a data set (names never set: the pointer is dereferenced) and
for writing to an out-of-range position (unchecked despite the `catch`): both are undefined behaviour instead of
an exception. Reading an out-of-range position does throw `NotFoundError`. -/
theorem C42_unset_names_ub (vals : List α) (n : String) (i : Nat) (x : α) :
    (Event.ofData vals).getDatumByName n = .ub ∧
    (vals.length ≤ i → (Event.ofData vals).setDatum i x = .ub) ∧
    (vals.length ≤ i → (Event.ofData vals).getDatum i = .throw .notFound) := by
  refine ⟨rfl, ?_, ?_⟩
  · intro h; simp [Event.setDatum, Event.ofData, setIdx_of_ge h]
  · intro h; simp [Event.getDatum, Event.ofData, at_of_ge h, Res.mapExc]

/-- C42 (the whole event): the names read from an event are those it was given, in order, and the map from names to values has exactly the names as keys and
gives for each the value at its place; without names, reading them is a NULLPointerAccessError, and so is the map. -/
theorem C42_data_map {α : Type} (names : List String) (vals : List α) (hn : names.Nodup) (hl : vals.length = names.length) :
    (Event.mk vals (some names)).getObservableNames = .ok names ∧
    (∃ m : SMap α, (Event.mk vals (some names)).getDataMap = .ok m ∧
      (∀ (i : Nat) n v, names[i]? = some n → vals[i]? = some v → m.find n = some v) ∧ (∀ n, n ∉ names → m.find n = none)) ∧
    (Event.ofData vals).getObservableNames = .throw .nullPtr ∧ (Event.ofData vals).getDataMap = .throw .nullPtr := by
  have key : ∀ (ns : List String) (vs : List α) (m : SMap α), ns.Nodup → vs.length = ns.length → m.Sorted →
      (∀ (i : Nat) n v, ns[i]? = some n → vs[i]? = some v → ((ns.zip vs).foldl (fun (m : SMap α) p => m.insert p.1 p.2) m).find n = some v) ∧
      (∀ n, n ∉ ns → ((ns.zip vs).foldl (fun (m : SMap α) p => m.insert p.1 p.2) m).find n = m.find n) := by
    intro ns
    induction ns with
    | nil => intro vs m _ _ _; exact ⟨by simp, by simp⟩
    | cons a ns ih =>
      intro vs m hnd hlen hs
      cases vs with
      | nil => simp at hlen
      | cons x vs =>
        have hnd' := List.nodup_cons.1 hnd
        obtain ⟨h1, h2⟩ := ih vs (m.insert a x) hnd'.2 (by simpa using hlen) (SMap.sorted_insert hs _ _)
        simp only [List.zip_cons_cons, List.foldl_cons]
        constructor
        · intro i n v hi hv
          cases i with
          | zero =>
            simp only [List.getElem?_cons_zero, Option.some.injEq] at hi hv
            subst hi; subst hv
            rw [h2 _ hnd'.1, SMap.find_insert _, if_pos rfl]
          | succ i => exact h1 i n v (by simpa using hi) (by simpa using hv)
        · intro n hn'
          simp only [List.mem_cons, not_or] at hn'
          rw [h2 n hn'.2, SMap.find_insert _, if_neg (by first | exact hn'.1 | exact Ne.symm hn'.1)]
  obtain ⟨h1, h2⟩ := key names vals [] hn hl (by simp [SMap.Sorted])
  refine ⟨rfl, ⟨_, ?_, h1, fun n hn' => by rw [h2 n hn']; rfl⟩, rfl, rfl⟩
  unfold Event.getDataMap
  simp only [Event.getObservableNames, Res.ok_bind]
  rw [if_neg (by omega)]; rfl

example : (Event.mk [(7 : Int), 4] (some ["r", "e"])).getDataMap = .ok [("e", 4), ("r", 7)] := by decide +kernel

end Oxsx
