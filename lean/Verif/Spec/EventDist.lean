import Verif.Model.EventDist
/-
Specification side of products of distributions and of the unbinned manager.
-/
namespace Oxsx
variable {α : Type} [Field α] [LinearOrder α]

mutual
/-- The distributions multiplied, in order. -/
def EDist.leaves : EDist α → List (EDist α)
  | .binned d => [.binned d]
  | .analytic n o f k v => [.analytic n o f k v]
  | .composite _ ps => EDist.leavesAll ps
/-- The distributions multiplied in a list of products. -/
def EDist.leavesAll : List (EDist α) → List (EDist α)
  | [] => []
  | p :: ps => p.leaves ++ EDist.leavesAll ps
end

/-- The observables a factor looks at. -/
def EDist.ownObs : EDist α → List String
  | .binned d => d.obs.names
  | .analytic _ o _ _ _ => o.names
  | .composite _ _ => []

/-- A factor that can be normalised: a binned distribution with all its contents and an integral which is not zero. -/
def EDist.Normalisable : EDist α → Prop
  | .binned d => d.hist.contents.length = d.hist.nBins ∧ d.hist.integral ≠ 0
  | .analytic _ _ _ _ _ => True
  | .composite _ _ => True

/-- The managers obtained by adding the distributions `ds` to a new one, in any interleaving with changes of the normalisations. -/
inductive EDManager.Built : List (EDist α) → EDManager α → Prop
  | new : Built [] .new
  | addDist {ds m m'} (d) : Built ds m → m.addDist d = .ok m' → Built (ds ++ [d]) m'
  | setNormalisations {ds m m'} (ns) : Built ds m → m.setNormalisations ns = .ok m' → Built ds m'
  | setParameters {ds m} (d) : Built ds m → Built ds (m.setParameters d).1
  | setParameter {ds m m'} (n v) : Built ds m → m.setParameter n v = .ok m' → Built ds m'

end Oxsx
