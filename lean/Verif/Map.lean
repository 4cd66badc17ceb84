import Mathlib.Data.String.Basic
import Mathlib.Data.List.Sort
/-
`std::map<std::string, V>`: association lists in strictly increasing key order. Lean's order on `String`
(lexicographic by code point) agrees with `std::string`'s byte order on UTF-8 strings.
Only the standard library is modelled here.
-/
namespace Oxsx

/-- Contents of a `std::map` in iteration order. -/
abbrev SMap (β : Type u) := List (String × β)

namespace SMap
variable {β : Type u}

/-- `m[k] = v`. -/
def insert (k : String) (v : β) : SMap β → SMap β
  | [] => [(k, v)]
  | (k', v') :: r =>
    if k < k' then (k, v) :: (k', v') :: r
    else if k = k' then (k, v) :: r
    else (k', v') :: insert k v r

/-- `m.find(k)`. -/
def find (m : SMap β) (k : String) : Option β :=
  match m with
  | [] => none
  | (k', v) :: r => if k' = k then some v else find r k

/-- `m.erase(k)`. -/
def erase (m : SMap β) (k : String) : SMap β := m.filter (fun p => p.1 ≠ k)

/-- Keys in order (`ContainerTools::GetKeys`, src/core/ContainerTools.hpp:35-47, read as a sorted set). -/
def keys (m : SMap β) : List String := m.map (·.1)

/-- `m.insert(first, last)`: keeps existing entries. -/
def insertNew (m : SMap β) (k : String) (v : β) : SMap β :=
  match m.find k with
  | some _ => m
  | none => m.insert k v

/-- `m.insert(d.begin(), d.end())`. -/
def insertAll (m d : SMap β) : SMap β := d.foldl (fun m p => m.insertNew p.1 p.2) m

/-- Strictly increasing keys: the invariant of every `std::map`. -/
def Sorted (m : SMap β) : Prop := m.Pairwise (fun p q => p.1 < q.1)

instance (m : SMap β) : Decidable (Sorted m) := by unfold Sorted; infer_instance

theorem find_cons (k k' : String) (v : β) (r : SMap β) :
    find ((k', v) :: r) k = if k' = k then some v else find r k := rfl

theorem find_isSome_iff (m : SMap β) (k : String) : (m.find k).isSome ↔ k ∈ m.keys := by
  induction m with
  | nil => simp [find, keys]
  | cons p r ih =>
    obtain ⟨k', v⟩ := p
    simp only [find_cons, keys, List.map_cons, List.mem_cons]
    split
    · rename_i h; simp [h]
    · rename_i h; rw [ih]; simp [keys, Ne.symm h]

theorem find_none_iff (m : SMap β) (k : String) : m.find k = none ↔ k ∉ m.keys := by
  rw [← find_isSome_iff]; cases m.find k <;> simp

theorem find_mem {m : SMap β} {k : String} {v : β} (h : m.find k = some v) : (k, v) ∈ m := by
  induction m with
  | nil => cases h
  | cons p r ih =>
    obtain ⟨k', v'⟩ := p
    rw [find_cons] at h
    split at h
    · rename_i hk; cases h; simp [hk]
    · exact List.mem_cons_of_mem _ (ih h)

theorem find_of_mem {m : SMap β} (hs : m.Sorted) {k : String} {v : β} (h : (k, v) ∈ m) :
    m.find k = some v := by
  induction m with
  | nil => cases h
  | cons p r ih =>
    obtain ⟨k', v'⟩ := p
    rw [find_cons]
    rcases List.mem_cons.1 h with h | h
    · cases h; simp
    · have := (List.pairwise_cons.1 hs).1 _ h
      rw [if_neg (ne_of_lt this)]
      exact ih (List.pairwise_cons.1 hs).2 h

theorem find_insert (m : SMap β) (k k' : String) (v : β) :
    (m.insert k v).find k' = if k = k' then some v else m.find k' := by
  induction m with
  | nil => rfl
  | cons p r ih =>
    obtain ⟨k0, v0⟩ := p
    unfold insert
    split
    · rfl
    · split
      · rename_i h1 h2; subst h2; simp only [find_cons]; split <;> rfl
      · rename_i h1 h2
        simp only [find_cons, ih]
        split
        · rename_i h3; subst h3; rw [if_neg h2]
        · rfl

theorem mem_keys_insert (m : SMap β) (k k' : String) (v : β) :
    k' ∈ (m.insert k v).keys ↔ k' = k ∨ k' ∈ m.keys := by
  rw [← find_isSome_iff, find_insert, ← find_isSome_iff]
  by_cases h : k = k'
  · subst h; simp
  · simp [h, Ne.symm h]

theorem sorted_insert {m : SMap β} (hs : m.Sorted) (k : String) (v : β) : (m.insert k v).Sorted := by
  induction m with
  | nil => simp [insert, Sorted]
  | cons p r ih =>
    obtain ⟨k0, v0⟩ := p
    have h1 := List.pairwise_cons.1 hs
    unfold insert
    split
    · rename_i h
      refine List.pairwise_cons.2 ⟨?_, hs⟩
      intro q hq
      rcases List.mem_cons.1 hq with rfl | hq
      · exact h
      · exact lt_trans h (h1.1 q hq)
    · split
      · rename_i h2; subst h2
        exact List.pairwise_cons.2 ⟨h1.1, h1.2⟩
      · rename_i h2 h3
        refine List.pairwise_cons.2 ⟨?_, ih h1.2⟩
        intro q hq
        have : q.1 ∈ (insert k v r).keys := List.mem_map_of_mem hq
        rcases (mem_keys_insert r k q.1 v).1 this with h | h
        · show k0 < q.1
          rw [h]; exact lt_of_le_of_ne (not_lt.1 h2) (Ne.symm h3)
        · obtain ⟨q', hq', he⟩ := List.mem_map.1 h
          show k0 < q.1
          rw [← he]; exact h1.1 q' hq'

theorem sorted_nil : Sorted ([] : SMap β) := List.Pairwise.nil

theorem find_erase (m : SMap β) (k k' : String) :
    (m.erase k).find k' = if k = k' then none else m.find k' := by
  induction m with
  | nil => simp [erase, find]
  | cons p r ih =>
    obtain ⟨k0, v0⟩ := p
    by_cases h : k0 = k
    · rw [show erase ((k0, v0) :: r) k = erase r k by simp [erase, h], ih, find_cons]
      subst h; split <;> rfl
    · rw [show erase ((k0, v0) :: r) k = (k0, v0) :: erase r k by simp [erase, h], find_cons, find_cons, ih]
      split
      · rename_i h2; subst h2; rw [if_neg (Ne.symm h)]
      · rfl

theorem sorted_erase {m : SMap β} (hs : m.Sorted) (k : String) : (m.erase k).Sorted :=
  List.Pairwise.sublist List.filter_sublist hs

theorem sorted_nodup {m : SMap β} (hs : m.Sorted) : m.keys.Nodup := by
  unfold keys Sorted at *
  rw [List.nodup_iff_pairwise_ne, List.pairwise_map]
  exact hs.imp (fun h => ne_of_lt h)

theorem sorted_keys {m : SMap β} (hs : m.Sorted) : m.keys.Pairwise (· < ·) := by
  unfold keys; rw [List.pairwise_map]; exact hs

/-- Two maps with the same lookups are the same map. -/
theorem ext {m n : SMap β} (hm : m.Sorted) (hn : n.Sorted) (h : ∀ k, m.find k = n.find k) : m = n := by
  induction m generalizing n with
  | nil =>
    cases n with
    | nil => rfl
    | cons p r => have := h p.1; simp [find] at this
  | cons p r ih =>
    obtain ⟨k, v⟩ := p
    cases n with
    | nil => have := h k; simp [find] at this
    | cons q s =>
      obtain ⟨k', v'⟩ := q
      have hm' := List.pairwise_cons.1 hm
      have hn' := List.pairwise_cons.1 hn
      have hkk : k = k' := by
        rcases lt_trichotomy k k' with hlt | heq | hgt
        · have h1 := h k
          rw [find_cons, if_pos rfl, find_cons, if_neg (ne_of_gt hlt)] at h1
          have := hn'.1 _ (find_mem h1.symm)
          exact absurd (lt_trans hlt this) (lt_irrefl _)
        · exact heq
        · have h1 := h k'
          rw [find_cons, if_neg (ne_of_gt hgt), find_cons, if_pos rfl] at h1
          have := hm'.1 _ (find_mem h1)
          exact absurd (lt_trans hgt this) (lt_irrefl _)
      subst hkk
      have hvv : v = v' := by
        have h1 := h k; simpa [find_cons] using h1
      subst hvv
      congr 1
      refine ih hm'.2 hn'.2 ?_
      intro j
      have h1 := h j
      rw [find_cons, find_cons] at h1
      by_cases hj : k = j
      · subst hj
        have e1 : find r k = none := by
          rw [find_none_iff]; intro hk
          obtain ⟨q, hq, he⟩ := List.mem_map.1 hk
          have := hm'.1 q hq; rw [he] at this; exact lt_irrefl _ this
        have e2 : find s k = none := by
          rw [find_none_iff]; intro hk
          obtain ⟨q, hq, he⟩ := List.mem_map.1 hk
          have := hn'.1 q hq; rw [he] at this; exact lt_irrefl _ this
        rw [e1, e2]
      · simpa [hj] using h1

theorem find_insertNew (m : SMap β) (k k' : String) (v : β) :
    (m.insertNew k v).find k' = (m.find k').or (if k = k' then some v else none) := by
  unfold insertNew
  cases h : m.find k with
  | some x =>
    by_cases hk : k = k'
    · subst hk; simp [h]
    · simp [hk]
  | none =>
    simp only [find_insert]
    by_cases hk : k = k'
    · subst hk; simp [h]
    · simp [hk]

theorem sorted_insertNew {m : SMap β} (hs : m.Sorted) (k : String) (v : β) : (m.insertNew k v).Sorted := by
  unfold insertNew; split
  · exact hs
  · exact sorted_insert hs k v

theorem sorted_insertAll {m : SMap β} (hs : m.Sorted) (d : SMap β) : (m.insertAll d).Sorted := by
  unfold insertAll
  induction d generalizing m with
  | nil => exact hs
  | cons p r ih => exact ih (sorted_insertNew hs _ _)

theorem find_insertAll (m d : SMap β) (k : String) :
    (m.insertAll d).find k = (m.find k).or (d.find k) := by
  unfold insertAll
  induction d generalizing m with
  | nil => simp [find]
  | cons p r ih =>
    obtain ⟨k0, v0⟩ := p
    simp only [List.foldl_cons, ih, find_insertNew, find_cons]
    cases m.find k <;> by_cases h : k0 = k <;> simp [h]

/-- `find` through a map of the values. -/
theorem find_mapVal {γ : Type v} (m : SMap β) (f : String → β → γ) (k : String) :
    find (m.map (fun p => (p.1, f p.1 p.2))) k = (m.find k).map (f k) := by
  induction m with
  | nil => rfl
  | cons p r ih =>
    obtain ⟨k0, v0⟩ := p
    simp only [List.map_cons, find_cons, ih]
    split
    · rename_i h; subst h; rfl
    · rfl

theorem sorted_mapVal {γ : Type v} {m : SMap β} (hs : m.Sorted) (f : String → β → γ) :
    Sorted (m.map (fun p => (p.1, f p.1 p.2))) := by
  unfold Sorted; rw [List.pairwise_map]; exact hs

/-- Two sorted lists of names with the same members are equal. -/
theorem sortedNames_ext {l m : List String} (hl : l.Pairwise (· < ·)) (hm : m.Pairwise (· < ·))
    (h : ∀ x, x ∈ l ↔ x ∈ m) : l = m := by
  have hp : l.Perm m := (List.perm_ext_iff_of_nodup (hl.imp fun h => ne_of_lt h)
    (hm.imp fun h => ne_of_lt h)).2 h
  exact hp.eq_of_pairwise (fun a b _ _ h1 h2 => absurd (lt_trans h1 h2) (lt_irrefl _)) hl hm

end SMap
end Oxsx
