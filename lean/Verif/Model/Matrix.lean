import Verif.Basic
import Mathlib.Algebra.Field.Defs
import Mathlib.Data.List.Basic
/-
Model of src/core/SparseMatrix.{h,cpp} and src/core/DenseMatrix.{h,cpp}. Armadillo itself (`arma::sp_mat`,
`arma::mat`) is not code of this repository: its matrices are modelled by their size and entries
(`ArmaMat`), with Armadillo's documented behaviour (size mismatch throws `std::logic_error`, out of bounds
element access throws).
-/
namespace Oxsx
variable {α : Type}

/-- An Armadillo matrix: number of rows, of columns, entries (meaningful in range only). -/
structure ArmaMat (α : Type) where
  rows : Nat
  cols : Nat
  entry : Nat → Nat → α

namespace ArmaMat

/-- `arma::mat(r, c, fill::zeros)` / `arma::sp_mat(r, c)` -/
def zeros [Zero α] (r c : Nat) : ArmaMat α := ⟨r, c, fun _ _ => 0⟩

/-- `m(i, j)` -/
def get (m : ArmaMat α) (i j : Nat) : Res α :=
  if i < m.rows ∧ j < m.cols then .ok (m.entry i j) else .throw .outOfRange

/-- `m(i, j) = v` -/
def set (m : ArmaMat α) (i j : Nat) (v : α) : Res (ArmaMat α) :=
  if i < m.rows ∧ j < m.cols then
    .ok { m with entry := fun a b => if a = i ∧ b = j then v else m.entry a b }
  else .throw .outOfRange

section
variable [Field α]

/-- `m * vec(v)` -/
def mulVec (m : ArmaMat α) (v : List α) : Res (List α) :=
  if v.length ≠ m.cols then .throw .stdLogic
  else .ok ((List.range m.rows).map (fun i =>
    ((List.range m.cols).map (fun j => m.entry i j * v.getD j 0)).sum))

/-- `a * b` -/
def mul (a b : ArmaMat α) : Res (ArmaMat α) :=
  if a.cols ≠ b.rows then .throw .stdLogic
  else .ok ⟨a.rows, b.cols, fun i j => ((List.range a.cols).map (fun k => a.entry i k * b.entry k j)).sum⟩

/-- `m.eye()` -/
def eye (m : ArmaMat α) : ArmaMat α := { m with entry := fun i j => if i = j then 1 else 0 }

end

end ArmaMat

/-- src/core/SparseMatrix.h:39-42, src/core/DenseMatrix.h (members). The declared sizes `nRows`, `nCols` are
separate from the Armadillo object's own. -/
structure Matrix' (α : Type) where
  nRows : Nat
  nCols : Nat
  arma : ArmaMat α

namespace Matrix'

/-- src/core/SparseMatrix.cpp:7-12, src/core/DenseMatrix.cpp:8-13 -/
def mk' [Zero α] (r c : Nat) : Matrix' α := ⟨r, c, .zeros r c⟩

/-- src/core/SparseMatrix.cpp:25-35, src/core/DenseMatrix.cpp:15-25 -/
def setComponent (m : Matrix' α) (r c : Nat) (v : α) : Res (Matrix' α) :=
  if c ≥ m.nCols ∨ r ≥ m.nRows then .throw .notFound
  else do
    let a ← m.arma.set r c v
    pure { m with arma := a }

/-- src/core/SparseMatrix.cpp:37-47, src/core/DenseMatrix.cpp:27-37 -/
def getComponent (m : Matrix' α) (r c : Nat) : Res α :=
  if c ≥ m.nCols ∨ r ≥ m.nRows then .throw .notFound
  else m.arma.get r c

variable [Field α]

/-- src/core/SparseMatrix.cpp:49-65, src/core/DenseMatrix.cpp:39-59 -/
def apply (m : Matrix' α) (v : List α) : Res (List α) :=
  (m.arma.mulVec v).mapExc (fun e => if e = .stdLogic then .dimension else e)

/-- src/core/SparseMatrix.cpp:67-79 (`operator*=` and `operator*`: both overwrite the left operand and return a
copy of it), src/core/DenseMatrix.cpp:61-66. The result is the new value of the left operand, which is also
the value returned. The declared sizes are left as they were. -/
def mulAssign (a b : Matrix' α) : Res (Matrix' α) := do
  let x ← a.arma.mul b.arma
  pure { a with arma := x }

/-- src/core/SparseMatrix.cpp:81-86 -/
def setZeros (m : Matrix' α) : Res (Matrix' α) :=
  if m.nRows = 0 ∨ m.nCols = 0 then .throw .dimension
  else .ok { m with arma := .zeros m.nRows m.nCols }

/-- src/core/SparseMatrix.cpp:88-93 -/
def setToIdentity (m : Matrix' α) : Res (Matrix' α) :=
  if m.nRows = 0 ∨ m.nCols = 0 ∨ m.nCols ≠ m.nRows then .throw .dimension
  else .ok { m with arma := m.arma.eye }

/-- src/core/DenseMatrix.cpp:75-80 (no check that the matrix is square). -/
def denseSetToIdentity (m : Matrix' α) : Res (Matrix' α) :=
  if m.nRows = 0 ∨ m.nCols = 0 then .throw .dimension
  else .ok { m with arma := m.arma.eye }

/-- src/core/SparseMatrix.cpp:96-109: the batch constructor of `arma::sp_mat` refuses repeated locations;
everything not listed is zero; locations outside the declared size are dropped by `resize`. -/
def setComponents (m : Matrix' α) (rows cols : List Nat) (vals : List α) : Res (Matrix' α) :=
  if rows.length ≠ vals.length ∨ cols.length ≠ vals.length then .throw .dimension
  else if ¬ (rows.zip cols).Nodup then .throw .stdLogic
  else .ok { m with arma := ⟨m.nRows, m.nCols, fun i j =>
    match ((rows.zip cols).zip vals).lookup (i, j) with
    | some v => v
    | none => 0⟩ }

/-- src/core/SparseMatrix.cpp:111-114 -/
def scale (m : Matrix' α) (s : α) : Matrix' α :=
  { m with arma := { m.arma with entry := fun i j => m.arma.entry i j * s } }

/-- Loop body of src/core/DenseMatrix.cpp:107-112 -/
def symStep (input : List α) (j : Nat) (s : Nat × ArmaMat α) (k : Nat) : Res (Nat × ArmaMat α) := do
  let x ← at_ input s.1
  let a ← s.2.set k j x
  let b ← a.set j k x
  pure (s.1 + 1, b)

/-- src/core/DenseMatrix.cpp:105-113: one pass of the two `for` loops. -/
def symPass (n : Nat) (input : List α) (s : Nat × ArmaMat α) : Res (Nat × ArmaMat α) :=
  Res.forFold (fun s j => Res.forFold (symStep input j) s (List.range (j + 1))) s (List.range n)

/-- src/core/DenseMatrix.cpp:103-114: the `while` loop; each pass advances `i`, so `input.size()` passes are
more than enough fuel. -/
def symWhile (n : Nat) (input : List α) : Nat → Nat × ArmaMat α → Res (Nat × ArmaMat α)
  | 0, s => .ok s
  | fuel + 1, s =>
    if s.1 < input.length then (symPass n input s).bind (symWhile n input fuel) else .ok s

/-- src/core/DenseMatrix.cpp:82-115 -/
def setSymmetric (m : Matrix' α) (input : List α) : Res (Matrix' α) :=
  if m.nRows ≠ m.nCols then .throw .dimension
  else if m.nRows * (m.nRows + 1) / 2 ≠ input.length then .throw .dimension
  else do
    let (_, a) ← symWhile m.nRows input (input.length + 1) (0, m.arma)
    pure { m with arma := a }

end Matrix'
end Oxsx
