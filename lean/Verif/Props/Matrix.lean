import Verif.Model.Matrix
import Verif.Lemmas.Basic
import Mathlib.Algebra.BigOperators.Ring.List
import Mathlib.Algebra.BigOperators.Ring.Finset
import Mathlib.Algebra.BigOperators.Group.Finset.Sigma
import Mathlib.Algebra.Field.Rat
import Mathlib.Tactic.Ring
/-
Properties C18 (matrix application and composition) and C19 (symmetric matrices).
-/
set_option linter.unusedSectionVars false
set_option linter.unusedSimpArgs false
set_option linter.unusedVariables false
namespace Oxsx
variable {α : Type} [Field α]

/-- The declared size of the matrix is its real size. True of every constructed matrix and preserved by
everything except multiplication by a matrix with another number of columns. -/
def Matrix'.Sized (m : Matrix' α) : Prop := m.arma.rows = m.nRows ∧ m.arma.cols = m.nCols

/-- Component `(i, j)` as returned by `GetComponent`, zero if it does not return. -/
def Matrix'.comp (m : Matrix' α) (i j : Nat) : α :=
  match m.getComponent i j with
  | .ok x => x
  | _ => 0

namespace Matrix'

theorem get_ok {m : Matrix' α} (h : m.Sized) {i j : Nat} (hi : i < m.nRows) (hj : j < m.nCols) :
    m.getComponent i j = .ok (m.arma.entry i j) := by
  unfold getComponent ArmaMat.get
  rw [if_neg (by omega), if_pos (by rw [h.1, h.2]; exact ⟨hi, hj⟩)]

theorem comp_eq {m : Matrix' α} (h : m.Sized) {i j : Nat} (hi : i < m.nRows) (hj : j < m.nCols) :
    m.comp i j = m.arma.entry i j := by simp [comp, get_ok h hi hj]

theorem sum_range_congr {n : Nat} {f g : Nat → α} (h : ∀ i, i < n → f i = g i) :
    ((List.range n).map f).sum = ((List.range n).map g).sum := by
  congr 1; apply List.map_congr_left; intro i hi; exact h i (List.mem_range.1 hi)

end Matrix'
open Matrix'

/-- C18 (sizes): constructed matrices have their declared size, and component writes, batch writes, zeroing,
identity, scaling and products of compatible square matrices keep it that way. -/
theorem C18_sized (r c : Nat) :
    (mk' r c : Matrix' α).Sized ∧
    (∀ m : Matrix' α, m.Sized → ∀ m', 
      ((∃ i j v, m.setComponent i j v = .ok m') ∨ (∃ rs cs vs, m.setComponents rs cs vs = .ok m') ∨
        m.setZeros = .ok m' ∨ m.setToIdentity = .ok m' ∨ (∃ s, m' = m.scale s) ∨
        (∃ b : Matrix' α, b.Sized ∧ b.nRows = b.nCols ∧ m.mulAssign b = .ok m')) →
      m'.Sized ∧ m'.nRows = m.nRows ∧ m'.nCols = m.nCols) := by
  refine ⟨⟨rfl, rfl⟩, ?_⟩
  rintro m hm m' (⟨i, j, v, h⟩ | ⟨rs, cs, vs, h⟩ | h | h | ⟨s, rfl⟩ | ⟨b, hb, hsq, h⟩)
  · unfold setComponent at h
    split at h
    · cases h
    · obtain ⟨a, h1, h2⟩ := Res.bind_eq_ok.1 h
      unfold ArmaMat.set at h1
      split at h1
      · cases h1; cases h2; exact ⟨hm, rfl, rfl⟩
      · cases h1
  · unfold setComponents at h
    split at h
    · cases h
    · split at h
      · cases h
      · cases h; exact ⟨⟨rfl, rfl⟩, rfl, rfl⟩
  · unfold setZeros at h; split at h <;> cases h; exact ⟨⟨rfl, rfl⟩, rfl, rfl⟩
  · unfold setToIdentity at h; split at h <;> cases h; exact ⟨hm, rfl, rfl⟩
  · exact ⟨hm, rfl, rfl⟩
  · unfold mulAssign at h
    obtain ⟨a, h1, h2⟩ := Res.bind_eq_ok.1 h
    unfold ArmaMat.mul at h1
    split at h1
    · cases h1
    · rename_i hc; push Not at hc
      cases h1; cases h2
      exact ⟨⟨hm.1, by show b.arma.cols = m.nCols; rw [hb.2, ← hsq, ← hb.1, ← hc, hm.2]⟩, rfl, rfl⟩

/-- C18 (application): matrix-vector product; a vector of the wrong length is a `DimensionError`. -/
theorem C18_apply (m : Matrix' α) (h : m.Sized) (v : List α) :
    (v.length ≠ m.nCols → m.apply v = .throw .dimension) ∧
    (v.length = m.nCols → ∃ w, m.apply v = .ok w ∧ w.length = m.nRows ∧
      ∀ i, i < m.nRows → w[i]? =
        some ((List.range m.nCols).map (fun j => m.comp i j * v.getD j 0)).sum) := by
  unfold apply ArmaMat.mulVec
  rw [h.1, h.2]
  constructor
  · intro hl; rw [if_pos hl]; rfl
  · intro hl
    rw [if_neg (by simpa using hl)]
    refine ⟨_, rfl, by simp, ?_⟩
    intro i hi
    rw [List.getElem?_map, List.getElem?_range hi, Option.map_some]
    congr 1
    apply sum_range_congr
    intro j hj
    rw [comp_eq h hi hj]

theorem sum_sum_comm (n m : Nat) (f : Nat → Nat → α) :
    ((List.range n).map (fun i => ((List.range m).map (fun j => f i j)).sum)).sum
      = ((List.range m).map (fun j => ((List.range n).map (fun i => f i j)).sum)).sum := by
  have e : ∀ (k : Nat) (g : Nat → α), ((List.range k).map g).sum = ∑ i ∈ Finset.range k, g i := by
    intro k g
    induction k with
    | zero => simp
    | succ k ih => rw [List.range_succ, Finset.sum_range_succ]; simp [ih]
  simp only [e]
  exact Finset.sum_comm

/-- C18 (composition): the product applied to a vector is the right operand applied first, then the left one.
Operands whose sizes do not fit are refused (`std::logic_error` from Armadillo). -/
theorem C18_compose (a b : Matrix' α) (ha : a.Sized) (hb : b.Sized) :
    (a.nCols ≠ b.nRows → a.mulAssign b = .throw .stdLogic) ∧
    (a.nCols = b.nRows → ∃ p, a.mulAssign b = .ok p ∧
      ∀ v, v.length = b.nCols → ∃ w, b.apply v = .ok w ∧ p.apply v = a.apply w) := by
  unfold mulAssign ArmaMat.mul
  rw [ha.2, hb.1]
  constructor
  · intro h; rw [if_pos h]; rfl
  · intro h
    rw [if_neg (by simpa using h)]
    refine ⟨_, rfl, ?_⟩
    intro v hv
    have hw : b.apply v = .ok ((List.range b.nRows).map (fun i =>
        ((List.range b.nCols).map (fun j => b.arma.entry i j * v.getD j 0)).sum)) := by
      unfold apply ArmaMat.mulVec
      rw [hb.1, hb.2, if_neg (by simpa using hv)]; rfl
    refine ⟨_, hw, ?_⟩
    unfold apply ArmaMat.mulVec
    simp only
    rw [hb.2, if_neg (by simpa using hv), ha.1, ha.2, if_neg (by simp [h])]
    simp only [Res.mapExc]
    congr 1
    apply List.map_congr_left
    intro i _
    have e1 : ∀ j, ((List.range a.nCols).map (fun k => a.arma.entry i k * b.arma.entry k j)).sum * v.getD j 0
        = ((List.range a.nCols).map (fun k => a.arma.entry i k * (b.arma.entry k j * v.getD j 0))).sum := by
      intro j
      rw [← List.sum_map_mul_right]
      apply sum_range_congr; intro k _; ring
    simp only [e1]
    rw [sum_sum_comm]
    apply sum_range_congr
    intro k hk
    rw [List.sum_map_mul_left]
    congr 1
    rw [h] at hk
    simp [List.getD, List.getElem?_range hk]

/-- C18 (components): out-of-range indices are a `NotFoundError`; in range, a write is read back and no other
component changes. -/
theorem C18_components (m : Matrix' α) (h : m.Sized) (i j : Nat) (v : α) :
    (m.nRows ≤ i ∨ m.nCols ≤ j → m.setComponent i j v = .throw .notFound ∧
      m.getComponent i j = .throw .notFound) ∧
    (i < m.nRows → j < m.nCols → ∃ m', m.setComponent i j v = .ok m' ∧ m'.getComponent i j = .ok v ∧
      ∀ a b, (a, b) ≠ (i, j) → m'.getComponent a b = m.getComponent a b) := by
  constructor
  · intro hij
    unfold setComponent getComponent
    rw [if_pos (by omega), if_pos (by omega)]
    exact ⟨rfl, rfl⟩
  · intro hi hj
    unfold setComponent ArmaMat.set
    rw [if_neg (by omega), if_pos (by rw [h.1, h.2]; exact ⟨hi, hj⟩)]
    refine ⟨_, rfl, ?_, ?_⟩
    · unfold getComponent ArmaMat.get
      simp only
      rw [if_neg (by omega), if_pos (by rw [h.1, h.2]; exact ⟨hi, hj⟩)]
      simp
    · intro a b hab
      unfold getComponent ArmaMat.get
      simp only
      have : ¬ (a = i ∧ b = j) := fun ⟨h1, h2⟩ => hab (by rw [h1, h2])
      simp only [if_neg this]

/-- C18 (identity): on a square matrix of positive size, `SetToIdentity` makes application the identity;
otherwise it is a `DimensionError`. -/
theorem C18_identity (m : Matrix' α) (h : m.Sized) :
    (m.nRows ≠ m.nCols ∨ m.nRows = 0 → m.setToIdentity = .throw .dimension) ∧
    (m.nRows = m.nCols → m.nRows ≠ 0 → ∃ m', m.setToIdentity = .ok m' ∧
      ∀ v, v.length = m.nCols → m'.apply v = .ok v) := by
  unfold setToIdentity
  constructor
  · intro hh; rw [if_pos (by omega)]
  · intro hsq h0
    rw [if_neg (by omega)]
    refine ⟨_, rfl, ?_⟩
    intro v hv
    unfold apply ArmaMat.mulVec ArmaMat.eye
    simp only
    rw [h.1, h.2, if_neg (by simpa using hv)]
    simp only [Res.mapExc]
    congr 1
    have hv' : v.length = m.nRows := by omega
    apply List.ext_getElem
    · simp [hv']
    · intro i h1 h2
      simp only [List.length_map, List.length_range] at h1
      simp only [List.getElem_map, List.getElem_range]
      have key : ∀ n, ((List.range n).map (fun j => (if i = j then (1 : α) else 0) * v.getD j 0)).sum
          = if i < n then v.getD i 0 else 0 := by
        intro n
        induction n with
        | zero => simp
        | succ n ih =>
          rw [List.range_succ, List.map_append, List.sum_append, ih]
          simp only [List.map_cons, List.map_nil, List.sum_cons, List.sum_nil, add_zero]
          rcases Nat.lt_trichotomy i n with hlt | heq | hgt
          · rw [if_pos hlt, if_neg (by omega), if_pos (by omega)]; ring
          · subst heq; simp
          · rw [if_neg (by omega), if_neg (by omega), if_neg (by omega)]; ring
      rw [key, if_pos (by omega)]
      simp [List.getD, h2]

/-- C18 (identity, dense): `SetToIdentity` of a dense matrix is refused for an empty one; any other one, square or not, becomes the matrix with ones on the
diagonal and zeros elsewhere, of the same size. -/
theorem C18_dense_identity (m : Matrix' α) (h : m.Sized) :
    (m.nRows = 0 ∨ m.nCols = 0 → m.denseSetToIdentity = .throw .dimension) ∧
    (m.nRows ≠ 0 → m.nCols ≠ 0 → ∃ m', m.denseSetToIdentity = .ok m' ∧ m'.nRows = m.nRows ∧ m'.nCols = m.nCols ∧ m'.Sized ∧
      ∀ i j, i < m.nRows → j < m.nCols → m'.getComponent i j = .ok (if i = j then 1 else 0)) := by
  unfold denseSetToIdentity
  constructor
  · intro hh; rw [if_pos hh]
  · intro h1 h2
    rw [if_neg (by omega)]
    refine ⟨_, rfl, rfl, rfl, ⟨h.1, h.2⟩, ?_⟩
    intro i j hi hj
    unfold getComponent
    simp only
    rw [if_neg (by omega)]
    simp [ArmaMat.get, ArmaMat.eye, h.1, h.2, hi, hj, Res.mapExc]

-- a matrix of two rows and three columns
example : (mk' 2 3 : Matrix' ℚ).Sized ∧ (mk' 2 3 : Matrix' ℚ).nRows ≠ 0 ∧ (mk' 2 3 : Matrix' ℚ).nCols ≠ 0 := by
  refine ⟨(C18_sized 2 3).1, by decide, by decide⟩

/-- C18 (batch setter): lists of different lengths are a `DimensionError`; with distinct locations the listed
components take their values and all others are zero (also those set before). -/
theorem C18_setComponents (m : Matrix' α) (h : m.Sized) (rs cs : List Nat) (vs : List α) :
    (rs.length ≠ vs.length ∨ cs.length ≠ vs.length → m.setComponents rs cs vs = .throw .dimension) ∧
    (rs.length = vs.length → cs.length = vs.length → (rs.zip cs).Nodup → ∃ m', 
      m.setComponents rs cs vs = .ok m' ∧ ∀ i j, i < m.nRows → j < m.nCols →
        (∀ (k : Nat) (v : α), rs[k]? = some i → cs[k]? = some j → vs[k]? = some v → m'.getComponent i j = .ok v) ∧
        ((i, j) ∉ rs.zip cs → m'.getComponent i j = .ok 0)) := by
  unfold setComponents
  constructor
  · intro hh; rw [if_pos hh]
  · intro h1 h2 h3
    rw [if_neg (by omega), if_neg (by simpa using h3)]
    refine ⟨_, rfl, ?_⟩
    intro i j hi hj
    have hget : ∀ x, (match ((rs.zip cs).zip vs).lookup (i, j) with
        | some v => v
        | none => (0 : α)) = x → (⟨m.nRows, m.nCols, ⟨m.nRows, m.nCols, fun i j =>
          match ((rs.zip cs).zip vs).lookup (i, j) with
          | some v => v
          | none => 0⟩⟩ : Matrix' α).getComponent i j = .ok x := by
      intro x hx
      unfold getComponent ArmaMat.get
      simp only
      rw [if_neg (by omega), if_pos ⟨hi, hj⟩, hx]
    constructor
    · intro k v hr hc hv
      apply hget
      have hmem : (((rs.zip cs).zip vs)[k]?) = some ((i, j), v) := by
        simp [List.getElem?_zip_eq_some, hr, hc, hv]
      have hkeys : (((rs.zip cs).zip vs).map (·.1)).Nodup := by
        rw [List.map_fst_zip (by simp [h1, h2])]; exact h3
      have gen : ∀ (l : List ((Nat × Nat) × α)), (l.map (·.1)).Nodup → ((i, j), v) ∈ l →
          l.lookup (i, j) = some v := by
        intro l
        induction l with
        | nil => intro _ h; cases h
        | cons p l ih =>
          obtain ⟨q, w⟩ := p
          intro hn hm
          simp only [List.map_cons, List.nodup_cons] at hn
          rcases List.mem_cons.1 hm with hm | hm
          · cases hm; simp [List.lookup]
          · have : (i, j) ≠ q := by
              intro he; rw [← he] at hn; exact hn.1 (List.mem_map_of_mem (f := fun x : (Nat × Nat) × α => x.1) hm)
            rw [List.lookup_cons, show ((i, j) == q) = false by simpa using this]
            exact ih hn.2 hm
      rw [gen _ hkeys (List.mem_of_getElem? hmem)]
    · intro hn
      apply hget
      have gen : ∀ (l : List ((Nat × Nat) × α)), (i, j) ∉ l.map (·.1) → l.lookup (i, j) = none := by
        intro l
        induction l with
        | nil => intro _; rfl
        | cons p l ih =>
          obtain ⟨q, w⟩ := p
          intro hm
          simp only [List.map_cons, List.mem_cons, not_or] at hm
          rw [List.lookup_cons, show ((i, j) == q) = false by simpa using hm.1]
          exact ih hm.2
      rw [gen _ (by rw [List.map_fst_zip (by simp [h1, h2])]; exact hn)]

/-- Fact worth knowing: `A * B` overwrites `A` (the value returned is the new `A`); hence evaluating `A * B`
twice gives `A*B` and then `A*B*B`. -/
theorem C18_product_mutates_left : ∃ a b p : Matrix' ℚ, a.Sized ∧ b.Sized ∧ a.mulAssign b = .ok p ∧
    a.getComponent 0 0 = .ok 1 ∧ p.getComponent 0 0 = .ok 2 ∧
    ∃ q, p.mulAssign b = .ok q ∧ q.getComponent 0 0 = .ok 4 :=
  ⟨⟨1, 1, ⟨1, 1, fun _ _ => 1⟩⟩, ⟨1, 1, ⟨1, 1, fun _ _ => 2⟩⟩, _, ⟨rfl, rfl⟩, ⟨rfl, rfl⟩, rfl,
    by simp [getComponent, ArmaMat.get], by simp [getComponent, ArmaMat.get, List.range_succ], _, rfl,
    by simp [getComponent, ArmaMat.get, List.range_succ]; norm_num⟩

/-- Non-vacuity of C18: a 2 x 2 matrix with entries i + 2j. -/
example : ∃ m : Matrix' ℚ, m.Sized ∧ m.nRows = m.nCols ∧ m.nRows ≠ 0 ∧ m.comp 1 1 = 3 :=
  ⟨⟨2, 2, ⟨2, 2, fun i j => i + 2 * j⟩⟩, ⟨rfl, rfl⟩, rfl, by decide, by
    simp [comp, getComponent, ArmaMat.get]; norm_num⟩

/-! ### C19 -/

theorem tri_succ (j : Nat) : (j + 1) * (j + 1 + 1) / 2 = j * (j + 1) / 2 + (j + 1) := by
  have : (j + 1) * (j + 1 + 1) = j * (j + 1) + (j + 1) * 2 := by ring
  rw [this, Nat.add_mul_div_right _ _ (by decide)]

theorem tri_mono {a b : Nat} (h : a ≤ b) : a * (a + 1) / 2 ≤ b * (b + 1) / 2 :=
  Nat.div_le_div_right (Nat.mul_le_mul h (by omega))

/-- C19: accepted exactly when the matrix is square (`n` x `n`) and the vector has `n(n+1)/2` entries; the
result is symmetric and its lower triangle read row by row is the vector. -/
theorem C19_symmetric (m : Matrix' α) (h : m.Sized) (input : List α) :
    (m.nRows ≠ m.nCols ∨ m.nRows * (m.nRows + 1) / 2 ≠ input.length →
      m.setSymmetric input = .throw .dimension) ∧
    (m.nRows = m.nCols → m.nRows * (m.nRows + 1) / 2 = input.length →
      ∃ m', m.setSymmetric input = .ok m' ∧ m'.nRows = m.nRows ∧ m'.nCols = m.nCols ∧
        ∀ i j, i < m.nRows → j ≤ i → ∃ x, input[i * (i + 1) / 2 + j]? = some x ∧
          m'.getComponent i j = .ok x ∧ m'.getComponent j i = .ok x) := by
  unfold setSymmetric
  constructor
  · intro hh
    by_cases h1 : m.nRows ≠ m.nCols
    · rw [if_pos h1]
    · rw [if_neg h1, if_pos (by tauto)]
  · intro hsq hlen
    rw [if_neg (by simpa using hsq), if_neg (by simpa using hlen)]
    set n := m.nRows with hn
    -- invariant of the two loops
    let P : Nat → Nat → Nat × ArmaMat α → Prop := fun j k s =>
      s.1 = j * (j + 1) / 2 + k ∧ s.2.rows = n ∧ s.2.cols = n ∧
      ∀ a b, b ≤ a → (a < j ∨ (a = j ∧ b < k)) →
        s.2.entry a b = input.getD (a * (a + 1) / 2 + b) 0 ∧
        s.2.entry b a = input.getD (a * (a + 1) / 2 + b) 0
    have hpass : ∃ t, symPass n input (0, m.arma) = .ok t ∧ P n 0 t := by
      unfold symPass
      refine Res.forFold_range (P := fun j s => P j 0 s) ⟨rfl, by rw [h.1], by rw [h.2, hsq], ?_⟩ ?_
      · intro a b _ hab; omega
      · intro j s hj hP
        obtain ⟨t, h1, h2⟩ := Res.forFold_range (f := symStep input j) (n := j + 1) (s := s)
          (P := fun k s => P j k s) hP (by
            intro k s hk hPk
            obtain ⟨p1, p2, p3, p4⟩ := hPk
            have hlt : s.1 < input.length := by
              rw [p1, ← hlen]
              have := tri_succ j
              have := tri_mono (show j + 1 ≤ n by omega)
              omega
            unfold symStep
            rw [at_of_lt hlt]
            simp only [Res.ok_bind]
            unfold ArmaMat.set
            rw [if_pos ⟨by omega, by omega⟩]
            simp only [Res.ok_bind]
            rw [if_pos ⟨by omega, by omega⟩]
            refine ⟨_, rfl, ?_, p2, p3, ?_⟩
            · show s.1 + 1 = j * (j + 1) / 2 + (k + 1)
              omega
            · intro a b hba hab
              have hx : input[s.1] = input.getD (j * (j + 1) / 2 + k) 0 := by
                rw [← p1]; simp [List.getD, hlt]
              show (if a = j ∧ b = k then input[s.1] else if a = k ∧ b = j then input[s.1] else s.2.entry a b) = _ ∧
                (if b = j ∧ a = k then input[s.1] else if b = k ∧ a = j then input[s.1] else s.2.entry b a) = _
              by_cases he : a = j ∧ b = k
              · obtain ⟨rfl, rfl⟩ := he
                rw [if_pos ⟨rfl, rfl⟩, hx]
                refine ⟨rfl, ?_⟩
                by_cases hab' : b = a ∧ a = b
                · rw [if_pos hab']
                · rw [if_neg hab', if_pos ⟨rfl, rfl⟩]
              · have h1 : ¬ (a = k ∧ b = j) := by omega
                have h2 : ¬ (b = j ∧ a = k) := by omega
                have h3 : ¬ (b = k ∧ a = j) := by omega
                rw [if_neg he, if_neg h1, if_neg h2, if_neg h3]
                exact p4 a b hba (by omega))
        refine ⟨t, h1, ?_⟩
        obtain ⟨p1, p2, p3, p4⟩ := h2
        refine ⟨?_, p2, p3, ?_⟩
        · have := tri_succ j
          rw [p1]
          show j * (j + 1) / 2 + (j + 1) = (j + 1) * (j + 1 + 1) / 2 + 0
          omega
        · intro a b hba hab
          exact p4 a b hba (by omega)
    have hwhile : ∃ t, symWhile n input (input.length + 1) (0, m.arma) = .ok t ∧
        (∀ i, i < n → P n 0 t) ∧ (n = 0 → True) := by
      by_cases h0 : input.length = 0
      · refine ⟨(0, m.arma), ?_, ?_, fun _ => trivial⟩
        · unfold symWhile; rw [if_neg (by simp [h0])]
        · intro i hi
          have : 1 * (1 + 1) / 2 ≤ n * (n + 1) / 2 := tri_mono (by omega)
          omega
      · obtain ⟨t, h1, h2⟩ := hpass
        refine ⟨t, ?_, fun _ _ => h2, fun _ => trivial⟩
        unfold symWhile
        rw [if_pos (by simp only; omega), h1]
        simp only [Res.bind]
        have : t.1 = input.length := by rw [h2.1, ← hlen]; omega
        cases hl : input.length with
        | zero => exact absurd hl h0
        | succ f =>
          unfold symWhile
          rw [if_neg (by omega)]
    obtain ⟨⟨i0, a0⟩, h1, h2, _⟩ := hwhile
    rw [h1]
    refine ⟨_, rfl, rfl, rfl, ?_⟩
    intro i j hi hj
    obtain ⟨_, p2, p3, p4⟩ := h2 i hi
    have hlt : i * (i + 1) / 2 + j < input.length := by
      rw [← hlen]
      have := tri_succ i
      have := tri_mono (show i + 1 ≤ n by omega)
      omega
    obtain ⟨e1, e2⟩ := p4 i j hj (Or.inl hi)
    refine ⟨input[i * (i + 1) / 2 + j], List.getElem?_eq_getElem hlt, ?_, ?_⟩
    · unfold getComponent ArmaMat.get
      simp only at p2 p3 e1 e2 ⊢
      rw [if_neg (by omega), if_pos ⟨by omega, by omega⟩, e1]
      simp [List.getD, hlt]
    · unfold getComponent ArmaMat.get
      simp only at p2 p3 e1 e2 ⊢
      rw [if_neg (by omega), if_pos ⟨by omega, by omega⟩, e2]
      simp [List.getD, hlt]

/-- Non-vacuity of C19: a 3 x 3 matrix and six entries. -/
example : (mk' 3 3 : Matrix' ℚ).Sized ∧ (mk' 3 3 : Matrix' ℚ).nRows = (mk' 3 3 : Matrix' ℚ).nCols ∧
    (mk' 3 3 : Matrix' ℚ).nRows * ((mk' 3 3 : Matrix' ℚ).nRows + 1) / 2 = [1, 2, 3, 4, 5, (6 : ℚ)].length :=
  ⟨⟨rfl, rfl⟩, rfl, by decide⟩

end Oxsx
