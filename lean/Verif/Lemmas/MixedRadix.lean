import Verif.Spec.MixedRadix
import Mathlib.Tactic.Linarith
import Mathlib.Tactic.Ring
/- Row-major numbering is a bijection. -/
set_option linter.unusedSectionVars false
set_option linter.unusedSimpArgs false
namespace Oxsx

theorem InRange.length {is ns : List Nat} (h : InRange is ns) : is.length = ns.length :=
  List.Forall₂.length_eq h

theorem InRange.pos {is ns : List Nat} (h : InRange is ns) : 0 < ns.prod := by
  induction h with
  | nil => simp
  | cons h1 _ ih => simp only [List.prod_cons]; exact Nat.mul_pos (by omega) ih

theorem rowMajor_lt {is ns : List Nat} (h : InRange is ns) : rowMajor ns is < ns.prod := by
  induction h with
  | nil => simp [rowMajor]
  | @cons i n is ns h1 h2 ih =>
    simp only [rowMajor, List.prod_cons]
    have : (i + 1) * ns.prod ≤ n * ns.prod := Nat.mul_le_mul_right _ h1
    nlinarith

@[simp] theorem digits_length (ns : List Nat) (b : Nat) : (digits ns b).length = ns.length := by
  induction ns with
  | nil => rfl
  | cons n ns ih => simp [digits, ih]

theorem digits_rowMajor_aux {is ns : List Nat} (h : InRange is ns) (k : Nat) :
    digits ns (k * ns.prod + rowMajor ns is) = is := by
  induction h generalizing k with
  | nil => rfl
  | @cons i n is ns h1 h2 ih =>
    have hp : 0 < ns.prod := InRange.pos h2
    have hlt : rowMajor ns is < ns.prod := rowMajor_lt h2
    have hb : k * (n :: ns).prod + rowMajor (n :: ns) (i :: is)
        = (k * n + i) * ns.prod + rowMajor ns is := by
      simp only [rowMajor, List.prod_cons]; ring
    rw [hb]
    simp only [digits]
    rw [ih]
    congr 1
    rw [Nat.add_comm, Nat.add_mul_div_right _ _ hp, Nat.div_eq_of_lt hlt, Nat.zero_add,
      Nat.add_comm, Nat.add_mul_mod_self_right, Nat.mod_eq_of_lt h1]

theorem digits_rowMajor {is ns : List Nat} (h : InRange is ns) :
    digits ns (rowMajor ns is) = is := by
  have := digits_rowMajor_aux h 0
  simpa using this

theorem rowMajor_digits_mod (ns : List Nat) (b : Nat) :
    rowMajor ns (digits ns b) = b % ns.prod := by
  induction ns with
  | nil => simp [rowMajor, digits, Nat.mod_one]
  | cons n ns ih =>
    simp only [rowMajor, digits, ih, List.prod_cons]
    rw [Nat.mul_comm n, Nat.mod_mul, Nat.mul_comm]; omega

theorem rowMajor_digits {ns : List Nat} {b : Nat} (h : b < ns.prod) :
    rowMajor ns (digits ns b) = b := by
  rw [rowMajor_digits_mod, Nat.mod_eq_of_lt h]

theorem digits_inRange {ns : List Nat} (hpos : ∀ n ∈ ns, 0 < n) (b : Nat) :
    InRange (digits ns b) ns := by
  induction ns with
  | nil => exact List.Forall₂.nil
  | cons n ns ih =>
    exact List.Forall₂.cons (Nat.mod_lt _ (hpos n (by simp))) (ih (fun m hm => hpos m (by simp [hm])))

theorem prod_pos_of {ns : List Nat} (hpos : ∀ n ∈ ns, 0 < n) : 0 < ns.prod := by
  induction ns with
  | nil => simp
  | cons n ns ih =>
    simp only [List.prod_cons]
    exact Nat.mul_pos (hpos n (by simp)) (ih (fun m hm => hpos m (by simp [hm])))

theorem rowMajor_inj {is js ns : List Nat} (hi : InRange is ns) (hj : InRange js ns)
    (h : rowMajor ns is = rowMajor ns js) : is = js := by
  rw [← digits_rowMajor hi, h, digits_rowMajor hj]

theorem digits_getElem? (ns : List Nat) (b k : Nat) (n : Nat) (h : ns[k]? = some n) :
    (digits ns b)[k]? = some ((b / (ns.drop (k + 1)).prod) % n) := by
  induction ns generalizing k with
  | nil => simp at h
  | cons m ns ih =>
    cases k with
    | zero => simp at h; subst h; simp [digits]
    | succ k => simp only [digits, List.getElem?_cons_succ, List.drop_succ_cons]; exact ih k (by simpa using h)

/-- Row-major number as a sum over positions. -/
theorem rowMajor_eq_sum {is ns : List Nat} (h : is.length = ns.length) :
    rowMajor ns is = ((List.range ns.length).map
      (fun i => is.getD i 0 * (ns.drop (i + 1)).prod)).sum := by
  induction ns generalizing is with
  | nil => simp [rowMajor]
  | cons n ns ih =>
    cases is with
    | nil => simp at h
    | cons i is =>
      simp only [rowMajor, List.length_cons, List.range_succ_eq_map, List.map_cons, List.map_map,
        List.sum_cons]
      rw [ih (by simpa using h)]
      simp [Function.comp_def]

/-- The last index varies fastest: its weight is one. -/
theorem rowMajor_snoc {is ns : List Nat} (h : is.length = ns.length) (i n : Nat) :
    rowMajor (ns ++ [n]) (is ++ [i]) = rowMajor ns is * n + i := by
  induction ns generalizing is with
  | nil => 
    obtain rfl : is = [] := by simpa using h
    simp [rowMajor]
  | cons m ns ih =>
    cases is with
    | nil => simp at h
    | cons j is =>
      simp only [List.cons_append, rowMajor, ih (is := is) (by simpa using h), List.prod_append,
        List.prod_cons, List.prod_nil]
      ring

/-- The bins in row-major order enumerate the index tuples in lexicographic order. -/
theorem rowMajor_cons (i n : Nat) (is ns : List Nat) :
    rowMajor (n :: ns) (i :: is) = i * ns.prod + rowMajor ns is := rfl

end Oxsx
