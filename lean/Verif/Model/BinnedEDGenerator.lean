import Verif.Model.Event
import Verif.Model.Constraint
import Mathlib.Algebra.Order.Floor.Ring
/-
Model of src/dist/BinnedEDGenerator.{h,cpp} and of the uniform numbers of src/rand/Rand.cpp.
-/
namespace Oxsx

/-- src/dist/BinnedEDGenerator.h:17-20 -/
structure BinnedEDGenerator (α : Type) where
  pdfs : List (BinnedED α)
  rates : List α

namespace BinnedEDGenerator
variable {α : Type} [Field α] [LinearOrder α]

/-- One iteration of src/dist/BinnedEDGenerator.cpp:94-98; the state is (`sum`, the part of `cdf` filled). -/
def cdfStep (h : Histogram α) (s : α × List α) (i : Nat) : Res (α × List α) :=
  h.getBinContent i >>= fun x => Res.ok (s.1 + x, s.2 ++ [s.1 + x])

/-- src/dist/BinnedEDGenerator.cpp:85-106, for the distribution given and the number `r` returned by `Rand::Uniform()`. A quotient by a sum of zero
is a NaN or an infinity, and not less than `r` (only `-inf`, from contents of both signs adding up to zero, would be less: not modelled). -/
def randomBin (d : BinnedED α) (r : α) : Res Nat :=
  if d.hist.nDims = 0 then .throw .logic
  else Res.forFold (cdfStep d.hist) (0, []) (List.range d.hist.nBins) >>= fun c =>
    let cdf : List (Fl α) := c.2.map (fun x => Fl.div x c.1)
    Res.ok (lowerBound cdf (fun x => match x with | some y => decide (y < r) | none => false))

/-- The body of the loops of src/dist/BinnedEDGenerator.cpp:40-41 and 78-79. The state is the distribution being filled and the number of random
numbers used so far; `rs k` is the k-th of them. -/
def drawOne (rs : Nat → α) (src : BinnedED α) (s : BinnedED α × Nat) : Res (BinnedED α × Nat) :=
  randomBin src (rs s.2) >>= fun b => s.1.hist.addBinContent b 1 >>= fun h => Res.ok ({ s.1 with hist := h }, s.2 + 1)

/-- src/dist/BinnedEDGenerator.cpp:40-41, 78-79 -/
def drawMany (rs : Nat → α) (src : BinnedED α) (n : Nat) (s : BinnedED α × Nat) : Res (BinnedED α × Nat) :=
  Res.forFold (fun s _ => drawOne rs src s) s (List.range n)

/-- src/dist/BinnedEDGenerator.cpp:20-34, 58-72 -/
def genName (pre : String) (pdfs : List (BinnedED α)) (name : String) : String :=
  if name = "" then pre ++ "_".intercalate (pdfs.map (·.name)) else name

/-- One iteration of src/dist/BinnedEDGenerator.cpp:37-42 and 75-80; `cnt` is the conversion of a rate to a number of events. -/
def genStep (cnt : Nat → α → Res Nat) (rs : Nat → α) (s : (BinnedED α × Nat) × Nat) (p : BinnedED α × α) : Res ((BinnedED α × Nat) × Nat) :=
  cnt s.2 p.2 >>= fun n => drawMany rs p.1 n s.1 >>= fun t => Res.ok (t, s.2 + 1)

/-- The common part of src/dist/BinnedEDGenerator.cpp:9-45 and 47-83. -/
def generate (g : BinnedEDGenerator α) (pre : String) (cnt : Nat → α → Res Nat) (rs : Nat → α) (name : String) : Res (BinnedED α) :=
  if g.pdfs.length ≠ g.rates.length then .throw .logic
  else match g.pdfs with
    | [] => .throw .logic
    | d :: ds =>
      Res.forFold (genStep cnt rs) ((⟨genName pre (d :: ds) name, d.hist.emptyContents, d.obs⟩, 0), 0) ((d :: ds).zip g.rates) >>= fun s => Res.ok s.1.1

/-- src/dist/BinnedEDGenerator.cpp:39: `round` (halves away from zero), then conversion to `unsigned`, undefined if it does not fit. -/
def roundCounts [FloorRing α] (rate : α) : Res Nat :=
  let r : Int := if 0 ≤ rate then ⌊rate + 1 / 2⌋ else -⌊-rate + 1 / 2⌋
  if 0 ≤ r ∧ r < 2 ^ 32 then .ok r.toNat else .ub

/-- src/dist/BinnedEDGenerator.cpp:9-45 -/
def expectedRatesED [FloorRing α] (g : BinnedEDGenerator α) (rs : Nat → α) (name : String) : Res (BinnedED α) :=
  g.generate "Gen_Exp" (fun _ => roundCounts) rs name

/-- src/dist/BinnedEDGenerator.cpp:47-83; `pois k` is the k-th number returned by `Rand::Poisson`. -/
def poissonFluctuatedED (g : BinnedEDGenerator α) (pois : Nat → Nat) (rs : Nat → α) (name : String) : Res (BinnedED α) :=
  g.generate "Gen_Poi" (fun k _ => .ok (pois k)) rs name

end BinnedEDGenerator

namespace Rand
variable {α : Type} [Field α] [LinearOrder α]

/-- src/rand/Rand.cpp:16-20; `u` is what `TRandom3::Rndm` returned. -/
def uniformRange (u lo hi : α) : α := hi - (hi - lo) * u

/-- src/rand/Rand.cpp:22-25 for `0 ≤ max` (conversion to `int` cuts). -/
def shoot [FloorRing α] (u : α) (max : Nat) : Int := ⌊(max : α) * u⌋

/-- src/rand/Rand.cpp:66-71: the loop, `us k` being the k-th uniform number; the state is (`draw`, `fOfX`, `val`, numbers used). `none`: still running
after this many rounds. -/
def vonLoop (f : α → Res α) (lo hi yMax : α) (us : Nat → α) : Nat → α → α → α → Nat → Option (Res α)
  | 0, _, _, _, _ => none
  | fuel + 1, draw, fx, val, k =>
    if fx < val then
      match f (us k * (hi - lo) + lo) with
      | .ok y => vonLoop f lo hi yMax us fuel (us k * (hi - lo) + lo) y (us (k + 1) * yMax) (k + 2)
      | .throw e => some (.throw e)
      | .ub => some .ub
    else some (.ok draw)

/-- src/rand/Rand.cpp:48-73 -/
def vonNeumannSample (nDims : Nat) (f : α → Res α) (lo hi yMax : α) (us : Nat → α) (fuel : Nat) : Option (Res α) :=
  if lo ≥ hi then some (.throw .value)
  else if yMax ≤ 0 then some (.throw .value)
  else if nDims ≠ 1 then some (.throw .value)
  else vonLoop f lo hi yMax us fuel 0 1 0 0

end Rand
end Oxsx
