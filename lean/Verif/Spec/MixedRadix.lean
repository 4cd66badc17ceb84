import Mathlib.Algebra.BigOperators.Group.List.Basic
/-
Specification of row-major (last index fastest) numbering of the cells of a grid.
-/
namespace Oxsx

/-- Row-major number of the cell with indices `is` in a grid of shape `ns`. -/
def rowMajor : List Nat → List Nat → Nat
  | _ :: ns, i :: is => i * ns.prod + rowMajor ns is
  | _, _ => 0

/-- The indices of cell number `b`. -/
def digits : List Nat → Nat → List Nat
  | [], _ => []
  | n :: ns, b => (b / ns.prod) % n :: digits ns b

/-- `is` is a valid index tuple for a grid of shape `ns`. -/
def InRange (is ns : List Nat) : Prop := List.Forall₂ (· < ·) is ns

end Oxsx
