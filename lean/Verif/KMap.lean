import Mathlib.Data.List.Nodup
/-
`std::map<K, V>` for keys other than strings: association lists with distinct keys. The iteration order is the order of first
insertion instead of the order of the keys (used only where the order cannot be observed: sums of field elements).
-/
namespace Oxsx

abbrev KMap (κ β : Type) := List (κ × β)

namespace KMap
variable {κ β : Type} [DecidableEq κ]

/-- `m[k] = v`. -/
def insert (k : κ) (v : β) : KMap κ β → KMap κ β
  | [] => [(k, v)]
  | (k', v') :: r => if k' = k then (k, v) :: r else (k', v') :: insert k v r

/-- `m.find(k)`. -/
def find (k : κ) : KMap κ β → Option β
  | [] => none
  | (k', v) :: r => if k' = k then some v else find k r

def keys (m : KMap κ β) : List κ := m.map (·.1)

theorem find_insert (k k' : κ) (v : β) (m : KMap κ β) :
    find k' (insert k v m) = if k = k' then some v else find k' m := by
  induction m with
  | nil => simp [insert, find]
  | cons p r ih =>
    obtain ⟨a, b⟩ := p
    unfold insert
    by_cases h : a = k
    · subst h; simp only [if_true, find]; split <;> rfl
    · simp only [h, if_false, find, ih]
      by_cases h2 : a = k'
      · subst h2; simp [Ne.symm h]
      · simp [h2]

theorem mem_keys_insert (k k' : κ) (v : β) (m : KMap κ β) : k' ∈ keys (insert k v m) ↔ k' = k ∨ k' ∈ keys m := by
  induction m with
  | nil => simp [insert, keys]
  | cons p r ih =>
    obtain ⟨a, b⟩ := p
    unfold insert
    by_cases h : a = k
    · subst h; simp [keys]
    · simp only [h, if_false, keys, List.map_cons, List.mem_cons] at ih ⊢
      rw [ih]; tauto

theorem nodup_insert (k : κ) (v : β) (m : KMap κ β) (h : (keys m).Nodup) : (keys (insert k v m)).Nodup := by
  induction m with
  | nil => simp [insert, keys]
  | cons p r ih =>
    obtain ⟨a, b⟩ := p
    unfold insert
    have h' := List.nodup_cons.1 h
    by_cases hk : a = k
    · subst hk; simp only [if_true]; exact h
    · simp only [hk, if_false]
      refine List.nodup_cons.2 ⟨?_, ih h'.2⟩
      intro hc
      rcases (mem_keys_insert k a v r).1 hc with h1 | h1
      · exact hk h1
      · exact h'.1 h1

theorem mem_keys_iff (k : κ) (m : KMap κ β) : k ∈ keys m ↔ ∃ v, find k m = some v := by
  induction m with
  | nil => simp [keys, find]
  | cons p r ih =>
    obtain ⟨a, b⟩ := p
    simp only [keys, List.map_cons, List.mem_cons, find] at ih ⊢
    by_cases h : a = k
    · subst h; simp
    · simp only [h, if_false, ← ih]; constructor
      · rintro (h1 | h1)
        · exact absurd h1.symm h
        · exact h1
      · exact Or.inr

theorem find_of_mem {k : κ} {v : β} {m : KMap κ β} (h : (keys m).Nodup) (hm : (k, v) ∈ m) : find k m = some v := by
  induction m with
  | nil => cases hm
  | cons p r ih =>
    obtain ⟨a, b⟩ := p
    have h' := List.nodup_cons.1 h
    rcases List.mem_cons.1 hm with h1 | h1
    · cases h1; simp [find]
    · have : a ≠ k := by rintro rfl; exact h'.1 (List.mem_map.2 ⟨_, h1, rfl⟩)
      simp only [find, this, if_false]; exact ih h'.2 h1

theorem mem_of_find {k : κ} {v : β} {m : KMap κ β} (h : find k m = some v) : (k, v) ∈ m := by
  induction m with
  | nil => cases h
  | cons p r ih =>
    obtain ⟨a, b⟩ := p
    simp only [find] at h
    split at h
    · rename_i h1; cases h; subst h1; exact List.mem_cons_self
    · exact List.mem_cons_of_mem _ (ih h)

end KMap
end Oxsx
