import Verif.Props.Reflect
/-
Specification of motion between two walls, without any reference to the code: the mirror image of where a free particle would be.
-/
namespace Oxsx
variable {α : Type} [Field α] [LinearOrder α] [IsStrictOrderedRing α]

/-- `x` is what becomes of `y` by reflecting it any number of times in the walls `lo` and `hi`: an even number of times (`s = 1`) or an odd
number (`s = -1`). -/
def MirrorImage (lo hi y x s : α) : Prop :=
  ∃ n : ℤ, (s = 1 ∧ x = y + 2 * n * (hi - lo)) ∨ (s = -1 ∧ x = 2 * lo - y + 2 * n * (hi - lo))

/-- `y` is on a wall or on a mirror image of a wall: a freely moving particle at `y` corresponds to a reflected one on a wall. -/
def OnWall (lo hi y : α) : Prop := ∃ n : ℤ, y = lo + n * (hi - lo)

/-- The drift of time `e` from `q` with momenta `p` starts strictly inside the walls, does not end exactly on one, and no two parameters are
on a wall at the same moment. -/
structure CleanDrift (m lo hi : ParamDict α) (e : α) (q p : ParamDict α) : Prop where
  start : ∀ x ∈ q, dval lo x.1 < x.2 ∧ x.2 < dval hi x.1
  finish : ∀ x ∈ q, ¬ OnWall (dval lo x.1) (dval hi x.1) (x.2 + e * (dval p x.1 / dval m x.1))
  single : ∀ x ∈ q, ∀ y ∈ q, x.1 ≠ y.1 → ∀ t, 0 < t → t < e →
    ¬ (OnWall (dval lo x.1) (dval hi x.1) (x.2 + t * (dval p x.1 / dval m x.1)) ∧ OnWall (dval lo y.1) (dval hi y.1) (y.2 + t * (dval p y.1 / dval m y.1)))

end Oxsx
