import Verif.Lemmas.Basic
import Mathlib.Algebra.BigOperators.Group.List.Basic
import Mathlib.Algebra.Order.Field.Basic
import Mathlib.Tactic.Ring
/- Accumulating weights into the cells of a list. -/
set_option linter.unusedSectionVars false
set_option linter.unusedSimpArgs false
namespace Oxsx
variable {α : Type} [Field α]

/-- Add `x` to cell `k`. -/
def addAt (l : List α) (k : Nat) (x : α) : List α := l.set k (l.getD k 0 + x)

/-- Perform a list of (cell, amount) additions in order. -/
def accum (l : List α) (ops : List (Nat × α)) : List α :=
  ops.foldl (fun l p => addAt l p.1 p.2) l

@[simp] theorem addAt_length (l : List α) (k : Nat) (x : α) : (addAt l k x).length = l.length := by
  simp [addAt]

@[simp] theorem accum_length (l : List α) (ops : List (Nat × α)) :
    (accum l ops).length = l.length := by
  unfold accum
  induction ops generalizing l with
  | nil => rfl
  | cons p ops ih => simp [ih]

theorem addAt_getD (l : List α) (k j : Nat) (x : α) (hk : k < l.length) :
    (addAt l k x).getD j 0 = l.getD j 0 + if k = j then x else 0 := by
  unfold addAt
  simp only [List.getD, List.getElem?_set]
  split
  · rename_i h; subst h; simp [hk]
  · simp

theorem sum_set (l : List α) (k : Nat) (x : α) (hk : k < l.length) :
    (l.set k x).sum = l.sum - l.getD k 0 + x := by
  induction l generalizing k with
  | nil => simp at hk
  | cons a l ih =>
    cases k with
    | zero => simp; ring
    | succ k =>
      simp only [List.set_cons_succ, List.sum_cons, ih k (by simpa using hk)]
      simp [List.getD]; ring

theorem addAt_sum (l : List α) (k : Nat) (x : α) (hk : k < l.length) :
    (addAt l k x).sum = l.sum + x := by
  unfold addAt; rw [sum_set l k _ hk]; ring

theorem accum_getD (l : List α) (ops : List (Nat × α)) (h : ∀ p ∈ ops, p.1 < l.length) (j : Nat) :
    (accum l ops).getD j 0 = l.getD j 0 + ((ops.filter (fun p => p.1 = j)).map (·.2)).sum := by
  induction ops generalizing l with
  | nil => simp [accum]
  | cons p ops ih =>
    have hp := h p (by simp)
    have h1 : accum l (p :: ops) = accum (addAt l p.1 p.2) ops := rfl
    rw [h1, ih _ (fun q hq => by simpa using h q (by simp [hq])), addAt_getD _ _ _ _ hp]
    by_cases hj : p.1 = j
    · simp [hj]; ring
    · simp [hj]

theorem accum_sum (l : List α) (ops : List (Nat × α)) (h : ∀ p ∈ ops, p.1 < l.length) :
    (accum l ops).sum = l.sum + (ops.map (·.2)).sum := by
  induction ops generalizing l with
  | nil => simp [accum]
  | cons p ops ih =>
    have hp := h p (by simp)
    have h1 : accum l (p :: ops) = accum (addAt l p.1 p.2) ops := rfl
    rw [h1, ih _ (fun q hq => by simpa using h q (by simp [hq])), addAt_sum _ _ _ hp]
    simp; ring

theorem sum_eq_getD_range (l : List α) (n : Nat) (h : l.length = n) :
    l.sum = ((List.range n).map (fun i => l.getD i 0)).sum := by
  congr 1
  apply List.ext_getElem
  · simp [h]
  · intro i h1 h2
    simp [List.getD, h1]

theorem getElem?_eq_getD {l : List α} {i : Nat} (h : i < l.length) : l[i]? = some (l.getD i 0) := by
  simp [List.getD, h]

theorem list_ext_getD {l m : List α} (hl : l.length = m.length)
    (h : ∀ i, i < l.length → l.getD i 0 = m.getD i 0) : l = m := by
  apply List.ext_getElem hl
  intro i h1 h2
  have := h i h1
  simpa [List.getD, h1, h2] using this

end Oxsx
