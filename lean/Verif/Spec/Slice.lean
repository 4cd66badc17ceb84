import Verif.Spec.Histogram
/-
Specification vocabulary for slices: index tuples made of fixed and free components.
-/
namespace Oxsx

/-- The full index tuple (one entry per axis name, in order) which takes the fixed bin on the fixed axes and
the successive entries of `js` on the others. -/
def mergeIdx (fixed : List (String × Nat)) : List String → List Nat → List Nat
  | [], _ => []
  | n :: ns, js =>
    match fixed.lookup n with
    | some v => v :: mergeIdx fixed ns js
    | none => js.headD 0 :: mergeIdx fixed ns js.tail

end Oxsx
