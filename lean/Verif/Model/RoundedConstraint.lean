import Verif.Model.Rounded
import Verif.Model.Constraint
/-
The constraints with the rounding of the machine, as in `Model/Rounded.lean`: overflow, subnormal numbers, infinities and NaN produced by an
operation are not modelled, and with `fma = true` every `a + b * c` within an expression is one operation. The numbers stored in
the constraints, and what the user's function of a shape constraint returns, are the doubles themselves.
-/
namespace Oxsx
variable {α : Type} [Field α] [LinearOrder α]

/-- `x / y` with rounding. -/
def Fl.divR (R : Rounding α) (x y : α) : Fl α := if y = 0 then none else some (R.rnd (x / y))

/-- `d * d / (2 * sigma * sigma)` with rounding. -/
def Fl.quadR (R : Rounding α) (d sigma : α) : Fl α := Fl.divR R (R.rnd (d * d)) (R.rnd (R.rnd (2 * sigma) * sigma))

/-- src/constraint/QuadraticConstraint.h:18-30 with rounding. -/
def QuadraticConstraint.evaluateR (R : Rounding α) (c : QuadraticConstraint α) (val : α) : Fl α :=
  let sigma := if c.isAsym then (if val ≥ c.mean then c.width else c.widthLo) else c.width
  Fl.quadR R (R.rnd (val - c.mean)) sigma

/-- src/constraint/BivariateQuadraticConstraint.h:25-31 with rounding. -/
def BivariateConstraint.evaluateR (R : Rounding α) (fma : Bool) (c : BivariateConstraint α) (v1 v2 : α) : Fl α :=
  match Fl.quadR R (R.rnd (v1 - c.mean1)) c.sigma1, Fl.quadR R (R.rnd (v2 - c.mean2)) c.sigma2,
    Fl.divR R (R.rnd (R.rnd (c.corr * R.rnd (v1 - c.mean1)) * R.rnd (v2 - c.mean2))) (R.rnd (c.sigma1 * c.sigma2)) with
  | some z1, some z2, some z12 =>
    Fl.divR R (R.rnd (R.rnd (z1 - z12) + z2)) (if fma then R.rnd (1 - c.corr * c.corr) else R.rnd (1 - R.rnd (c.corr * c.corr)))
  | _, _, _ => none

/-- src/constraint/RatioConstraint.h:19-27 with rounding; `fEpsilon` is the double nearest to 1e-8. -/
def RatioConstraint.evaluateR (R : Rounding α) (c : RatioConstraint α) (v1 v2 : α) : Fl α :=
  let v2 := if |v2| < R.rnd RatioConstraint.epsilon then R.rnd RatioConstraint.epsilon else v2
  match Fl.divR R v1 v2 with
  | some ratio => Fl.quadR R (R.rnd (ratio - c.mean)) c.sigma
  | none => none

/-- src/constraint/FractionalConstraint.h:19-25 with rounding. -/
def FractionalConstraint.evaluateR (R : Rounding α) (c : FractionalConstraint α) (v1 v2 : α) : Fl α :=
  match Fl.divR R (R.rnd (v1 - v2)) (R.rnd (v1 + v2)) with
  | some f => Fl.quadR R (R.rnd (f - c.mean)) c.sigma
  | none => none

/-- src/constraint/ShapeConstraint.cpp:3-7 with rounding. -/
def ShapeConstraint.evaluateR (R : Rounding α) (c : ShapeConstraint α) (p : ParamDict α) : Fl α :=
  Fl.quadR R (R.rnd (c.func p - c.mean)) c.sigma

namespace ShapeInterp

/-- src/constraint/ShapeInterpConstraint.cpp:39-49 with rounding. -/
def latticeCoordsR (R : Rounding α) (gridLocs : List (List α)) (conParams : List α) : Res (List (Fl α)) :=
  Res.traverse (fun dim => do
    let v ← at_ conParams dim
    let l0 ← at_ gridLocs 0
    let x0 ← at_ l0 dim
    let l1 ← at_ gridLocs (2 ^ dim)
    let x1 ← at_ l1 dim
    pure (Fl.divR R (R.rnd (v - x0)) (R.rnd (x1 - x0)))) (List.range conParams.length)

/-- One factor of src/constraint/ShapeInterpConstraint.cpp:59 with rounding. -/
def factorR (R : Rounding α) (coords : List α) (k : Nat) (val : α) (dim : Nat) : Res α :=
  if dim ≥ 20 then .throw .outOfRange
  else do
    let xd ← at_ coords dim
    pure (R.rnd (val * (if Nat.testBit k dim then xd else R.rnd (1 - xd))))

/-- src/constraint/ShapeInterpConstraint.cpp:51-64 with rounding. -/
def interpSumR (R : Rounding α) (gridVals coords : List α) (n : Nat) : Res α :=
  Res.forFold (fun acc k => do
    let v ← at_ gridVals k
    let t ← Res.forFold (factorR R coords k) v (List.range n)
    pure (R.rnd (acc + t))) 0 (List.range (2 ^ n))

/-- src/constraint/ShapeInterpConstraint.cpp:28-65 with rounding. -/
def ndLinearInterpR (R : Rounding α) (gridVals : List α) (gridLocs : List (List α)) (conParams : List α) : Res (Fl α) := do
  let cs ← latticeCoordsR R gridLocs conParams
  match cs.mapM (m := Option) id with
  | none => pure none
  | some coords => do
    let v ← interpSumR R gridVals coords conParams.length
    pure (some v)

/-- src/constraint/ShapeInterpConstraint.cpp:68-77 with rounding. Finding the lattice points only compares and copies. -/
def evaluateR (R : Rounding α) (h : Histogram α) (p : ParamDict α) : Res (Fl α) := do
  let con ← extractParams h p
  let (vals, locs) ← h.getLatticePointValues con
  ndLinearInterpR R vals locs con

end ShapeInterp

namespace ConstraintManager

/-- One of the loops of src/constraint/ConstraintManager.cpp:138-205 with rounding. -/
def sumOverR {κ β : Type} (R : Rounding α) (eval : κ → β → Res (Fl α)) (m : List (κ × β)) (total : Fl α) : Res (Fl α) :=
  Res.forFold (fun t (p : κ × β) => do
    let c ← eval p.1 p.2
    pure ((Fl.add t c).map R.rnd)) total m

/-- src/constraint/ConstraintManager.cpp:131-208 with rounding. -/
def evaluateR (R : Rounding α) (fma : Bool) (m : ConstraintManager α) (p : ParamDict α) : Res (Fl α) := do
  let t ← sumOverR R (fun n (c : QuadraticConstraint α) => do
    let v ← dictAt p n
    pure (c.evaluateR R v)) m.ind (some 0)
  let t ← sumOverR R (evalPair (BivariateConstraint.evaluateR R fma) p) m.pair t
  let t ← sumOverR R (evalPair (RatioConstraint.evaluateR R) p) m.ratio t
  let t ← sumOverR R (evalPair (FractionalConstraint.evaluateR R) p) m.frac t
  let t ← sumOverR R (fun _ h => ShapeInterp.evaluateR R h p) m.interp t
  sumOverR R (fun _ (c : ShapeConstraint α) => pure (c.evaluateR R p)) m.shape t

end ConstraintManager
end Oxsx
