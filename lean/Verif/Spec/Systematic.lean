import Verif.Spec.Histogram
/-
Specification vocabulary for systematics that move one observable.
-/
namespace Oxsx
variable {α : Type} [Field α] [LinearOrder α]

/-- Length of the intersection of `[a, b]` and `[c, d]`. -/
def overlap (a b c d : α) : α := max 0 (min b d - max a c)

/-- Fraction of the interval `[lo, hi]` which lies in `[lo', hi']`. -/
def overlapFrac (lo hi lo' hi' : α) : α := overlap lo hi lo' hi' / (hi - lo)

/-- Two index tuples agree on every axis except possibly axis `k`. -/
def AgreeOff (k : Nat) (is js : List Nat) : Prop := ∀ d : Nat, d ≠ k → is[d]? = js[d]?

end Oxsx
