import Verif.Spec.Axis
/-
Specification vocabulary for saved histograms.
-/
namespace Oxsx
variable {α : Type} [Field α] [LinearOrder α]

/-- An axis some constructor returned, possibly renamed since. -/
def BinAxis.Made (a : BinAxis α) : Prop :=
  (∃ n l mn mx k lx, BinAxis.mkEqual n mn mx k lx = .ok { a with name := n, latexName := l }) ∨
  (∃ n l low high lx, BinAxis.mkEdges n low high lx = .ok { a with name := n, latexName := l })

/-- The same bins under other names. An empty display name is replaced by the name. -/
def BinAxis.relabel (a : BinAxis α) (n l : String) : BinAxis α := { a with name := n, latexName := if l = "" then n else l }

end Oxsx
