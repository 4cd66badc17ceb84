import Verif.Model.Histogram
import Verif.Model.Parameters
import Verif.KMap
/-
Model of src/constraint/*. A `double` result is `Fl α`: `none` stands for a value which is not finite (±∞ or NaN), which C++
produces without an exception when dividing by zero.
-/
namespace Oxsx
variable {α : Type} [Field α] [LinearOrder α]

/-- A finite value, or `none` for ±∞ and NaN. -/
abbrev Fl (α : Type) := Option α

namespace Fl
/-- `x / y`. -/
def div (x y : α) : Fl α := if y = 0 then none else some (x / y)
/-- `x + y`: not finite as soon as one of them is not. -/
def add (x y : Fl α) : Fl α :=
  match x, y with
  | some a, some b => some (a + b)
  | _, _ => none
end Fl

/-- src/constraint/QuadraticConstraint.h:33-36 -/
structure QuadraticConstraint (α : Type) where
  mean : α
  width : α
  widthLo : α
  isAsym : Bool

namespace QuadraticConstraint
/-- src/constraint/QuadraticConstraint.h:14 -/
def sym (mean width : α) : QuadraticConstraint α := ⟨mean, width, 0, false⟩
/-- src/constraint/QuadraticConstraint.h:16 -/
def asym (mean hi lo : α) : QuadraticConstraint α := ⟨mean, hi, lo, true⟩
/-- src/constraint/QuadraticConstraint.h:18-30 -/
def evaluate (c : QuadraticConstraint α) (val : α) : Fl α :=
  let sigma := if c.isAsym then (if val ≥ c.mean then c.width else c.widthLo) else c.width
  Fl.div ((val - c.mean) * (val - c.mean)) (2 * sigma * sigma)
end QuadraticConstraint

/-- src/constraint/BivariateQuadraticConstraint.h:34-38 -/
structure BivariateConstraint (α : Type) where
  mean1 : α
  sigma1 : α
  mean2 : α
  sigma2 : α
  corr : α

namespace BivariateConstraint
/-- src/constraint/BivariateQuadraticConstraint.h:17-23 -/
def mk' (mean1 sigma1 mean2 sigma2 corr : α) : Res (BivariateConstraint α) :=
  if corr = 1 then .throw .value else .ok ⟨mean1, sigma1, mean2, sigma2, corr⟩
/-- src/constraint/BivariateQuadraticConstraint.h:25-31 -/
def evaluate (c : BivariateConstraint α) (v1 v2 : α) : Fl α :=
  match Fl.div ((v1 - c.mean1) * (v1 - c.mean1)) (2 * c.sigma1 * c.sigma1),
    Fl.div ((v2 - c.mean2) * (v2 - c.mean2)) (2 * c.sigma2 * c.sigma2),
    Fl.div (c.corr * (v1 - c.mean1) * (v2 - c.mean2)) (c.sigma1 * c.sigma2) with
  | some z1, some z2, some z12 => Fl.div (z1 - z12 + z2) (1 - c.corr * c.corr)
  | _, _, _ => none
end BivariateConstraint

/-- src/constraint/RatioConstraint.h:30-32 (`fEpsilon` is the constant 1e-8). -/
structure RatioConstraint (α : Type) where
  mean : α
  sigma : α

namespace RatioConstraint
/-- src/constraint/RatioConstraint.h:32 -/
def epsilon : α := 1 / 10 ^ 8
/-- src/constraint/RatioConstraint.h:19-27 -/
def evaluate (c : RatioConstraint α) (v1 v2 : α) : Fl α :=
  let v2 := if |v2| < epsilon then epsilon else v2
  match Fl.div v1 v2 with
  | some ratio => Fl.div ((ratio - c.mean) * (ratio - c.mean)) (2 * c.sigma * c.sigma)
  | none => none
end RatioConstraint

/-- src/constraint/FractionalConstraint.h:28-29 -/
structure FractionalConstraint (α : Type) where
  mean : α
  sigma : α

namespace FractionalConstraint
/-- src/constraint/FractionalConstraint.h:19-25 -/
def evaluate (c : FractionalConstraint α) (v1 v2 : α) : Fl α :=
  match Fl.div (v1 - v2) (v1 + v2) with
  | some f => Fl.div ((f - c.mean) * (f - c.mean)) (2 * c.sigma * c.sigma)
  | none => none
end FractionalConstraint

/-- src/constraint/ShapeConstraint.h:31-34 (`fParamDict` is never used). The function is taken to return a finite value
without throwing. -/
structure ShapeConstraint (α : Type) where
  func : ParamDict α → α
  mean : α
  sigma : α

namespace ShapeConstraint
/-- src/constraint/ShapeConstraint.cpp:3-7 -/
def evaluate (c : ShapeConstraint α) (p : ParamDict α) : Fl α :=
  Fl.div ((c.func p - c.mean) * (c.func p - c.mean)) (2 * c.sigma * c.sigma)
end ShapeConstraint

namespace ShapeInterp

/-- src/constraint/ShapeInterpConstraint.cpp:7-25 -/
def extractParams (h : Histogram α) (p : ParamDict α) : Res (List α) :=
  Res.traverse (fun n => match SMap.find p n with
    | some v => .ok v
    | none => .throw .notFound) h.axes.axisNames

/-- src/constraint/ShapeInterpConstraint.cpp:39-49. -/
def latticeCoords (gridLocs : List (List α)) (conParams : List α) : Res (List (Fl α)) :=
  Res.traverse (fun dim => do
    let v ← at_ conParams dim
    let l0 ← at_ gridLocs 0
    let x0 ← at_ l0 dim
    let l1 ← at_ gridLocs (2 ^ dim)
    let x1 ← at_ l1 dim
    pure (Fl.div (v - x0) (x1 - x0))) (List.range conParams.length)

/-- One factor of src/constraint/ShapeInterpConstraint.cpp:59. `std::bitset<20>::test` throws out_of_range beyond 20 bits. -/
def factor (coords : List α) (k : Nat) (val : α) (dim : Nat) : Res α :=
  if dim ≥ 20 then .throw .outOfRange
  else do
    let xd ← at_ coords dim
    pure (val * (if Nat.testBit k dim then xd else 1 - xd))

/-- src/constraint/ShapeInterpConstraint.cpp:51-64, for finite lattice coordinates. -/
def interpSum (gridVals coords : List α) (n : Nat) : Res α :=
  Res.forFold (fun acc k => do
    let v ← at_ gridVals k
    let t ← Res.forFold (factor coords k) v (List.range n)
    pure (acc + t)) 0 (List.range (2 ^ n))

/-- src/constraint/ShapeInterpConstraint.cpp:28-65. With a lattice coordinate that is not finite the sum is not finite either. -/
def ndLinearInterp (gridVals : List α) (gridLocs : List (List α)) (conParams : List α) : Res (Fl α) := do
  let cs ← latticeCoords gridLocs conParams
  match cs.mapM (m := Option) id with
  | none => pure none
  | some coords => do
    let v ← interpSum gridVals coords conParams.length
    pure (some v)

/-- src/constraint/ShapeInterpConstraint.cpp:68-77 -/
def evaluate (h : Histogram α) (p : ParamDict α) : Res (Fl α) := do
  let con ← extractParams h p
  let (vals, locs) ← h.getLatticePointValues con
  ndLinearInterp vals locs con

end ShapeInterp

/-- src/constraint/ConstraintManager.h:49-64 (the debug flag only prints). -/
structure ConstraintManager (α : Type) where
  ind : SMap (QuadraticConstraint α)
  pair : KMap (String × String) (BivariateConstraint α)
  useInd : SMap Bool
  ratio : KMap (String × String) (RatioConstraint α)
  frac : KMap (String × String) (FractionalConstraint α)
  interp : SMap (Histogram α)
  shape : KMap (ParamDict α) (ShapeConstraint α)

namespace ConstraintManager

/-- src/constraint/ConstraintManager.h:25 -/
def empty : ConstraintManager α := ⟨[], [], [], [], [], [], []⟩

/-- src/constraint/ConstraintManager.cpp:3-32 and 34-63 (the two overloads differ in the constraint they build). -/
def setInd (m : ConstraintManager α) (n : String) (q : QuadraticConstraint α) : Res (ConstraintManager α) :=
  match m.useInd.find n with
  | some true => .ok { m with ind := m.ind.insert n q }
  | some false => .throw .logic
  | none => .ok { m with ind := m.ind.insert n q, useInd := m.useInd.insert n true }

/-- src/constraint/ConstraintManager.cpp:65-96. C++17 builds the constraint before touching the map. -/
def setPair (m : ConstraintManager α) (n1 : String) (mean1 sigma1 : α) (n2 : String) (mean2 sigma2 corr : α) :
    Res (ConstraintManager α) :=
  if (m.useInd.find n1).isSome ∨ (m.useInd.find n2).isSome then
    match KMap.find (n1, n2) m.pair with
    | some _ => do
      let b ← BivariateConstraint.mk' mean1 sigma1 mean2 sigma2 corr
      pure { m with pair := KMap.insert (n1, n2) b m.pair }
    | none => .throw .logic
  else do
    let b ← BivariateConstraint.mk' mean1 sigma1 mean2 sigma2 corr
    pure { m with pair := KMap.insert (n1, n2) b m.pair, useInd := (m.useInd.insert n1 false).insert n2 false }

/-- src/constraint/ConstraintManager.cpp:98-104 -/
def setRatio (m : ConstraintManager α) (n1 n2 : String) (mean sigma : α) : ConstraintManager α :=
  { m with ratio := KMap.insert (n1, n2) ⟨mean, sigma⟩ m.ratio }

/-- src/constraint/ConstraintManager.cpp:106-110. `std::map<ParameterDict, …>`: keys are compared by content. -/
def setShape (m : ConstraintManager α) (p : ParamDict α) (f : ParamDict α → α) (mean sigma : α) : ConstraintManager α :=
  { m with shape := KMap.insert p ⟨f, mean, sigma⟩ m.shape }

/-- src/constraint/ConstraintManager.cpp:113-121 -/
def setInterp (m : ConstraintManager α) (label : String) (h : Histogram α) : ConstraintManager α :=
  { m with interp := m.interp.insert label h }

/-- src/constraint/ConstraintManager.cpp:123-129 -/
def setFrac (m : ConstraintManager α) (n1 n2 : String) (mean sigma : α) : ConstraintManager α :=
  { m with frac := KMap.insert (n1, n2) ⟨mean, sigma⟩ m.frac }

/-- `params.at(name)`. -/
def dictAt (p : ParamDict α) (n : String) : Res α :=
  match SMap.find p n with
  | some v => .ok v
  | none => .throw .outOfRange

/-- One of the loops of src/constraint/ConstraintManager.cpp:138-205. -/
def sumOver {κ β : Type} (eval : κ → β → Res (Fl α)) (m : List (κ × β)) (total : Fl α) : Res (Fl α) :=
  Res.forFold (fun t (p : κ × β) => do
    let c ← eval p.1 p.2
    pure (Fl.add t c)) total m

/-- `c.Evaluate(params.at(a), params.at(b))`. -/
def evalPair {β : Type} (f : β → α → α → Fl α) (p : ParamDict α) (k : String × String) (c : β) : Res (Fl α) := do
  let a ← dictAt p k.1
  let b ← dictAt p k.2
  pure (f c a b)

/-- src/constraint/ConstraintManager.cpp:131-208 -/
def evaluate (m : ConstraintManager α) (p : ParamDict α) : Res (Fl α) := do
  let t ← sumOver (fun n (c : QuadraticConstraint α) => do
    let v ← dictAt p n
    pure (c.evaluate v)) m.ind (some 0)
  let t ← sumOver (evalPair BivariateConstraint.evaluate p) m.pair t
  let t ← sumOver (evalPair RatioConstraint.evaluate p) m.ratio t
  let t ← sumOver (evalPair FractionalConstraint.evaluate p) m.frac t
  let t ← sumOver (fun _ h => ShapeInterp.evaluate h p) m.interp t
  sumOver (fun _ (c : ShapeConstraint α) => pure (c.evaluate p)) m.shape t

end ConstraintManager
end Oxsx
