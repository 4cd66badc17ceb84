import Verif.Model.Event
import Verif.Map
/-
Model of src/fitutil/BinnedEDShrinker.{h,cpp}.
`unsigned` and `int` are 32 bits; conversions to them are written out (`Int.bmod _ (2^32)` is what
a conversion to `int` gives, `% 2^32` a conversion to `unsigned`).
-/
namespace Oxsx

/-- src/fitutil/BinnedEDShrinker.h:32-38 (members). -/
structure Shrinker (α : Type) where
  buffers : SMap (Nat × Nat)
  binVec : List Int
  useContent : List Bool
  usingOverflows : Bool
  newAxes : AxisCollection α

namespace Shrinker
variable {α : Type} [Field α] [LinearOrder α]

/-- src/fitutil/BinnedEDShrinker.cpp:5-8 -/
def new : Shrinker α := ⟨[], [], [], false, .empty⟩

/-- src/fitutil/BinnedEDShrinker.cpp:10-13 (buffer sizes are `unsigned`, i.e. below 2^32). -/
def setBuffer (s : Shrinker α) (obs : String) (lower upper : Nat) : Shrinker α :=
  { s with buffers := s.buffers.insert obs (lower, upper) }

/-- src/fitutil/BinnedEDShrinker.cpp:15-26 -/
def getBuffer (s : Shrinker α) (obs : String) : Res (Nat × Nat) :=
  match s.buffers.find obs with
  | some b => .ok b
  | none => .throw .notFound

/-- src/fitutil/BinnedEDShrinker.cpp:166-169 -/
def setUsingOverflows (s : Shrinker α) (b : Bool) : Shrinker α := { s with usingOverflows := b }

/-- src/fitutil/BinnedEDShrinker.cpp:34-62. The sum of the buffers is an `unsigned`; when it wraps
around, `newBinCount` is above 2^63 and the vectors of l.50 throw `std::length_error`. -/
def shrinkAxis (a : BinAxis α) (lower upper : Nat) : Res (BinAxis α) :=
  if lower = 0 ∧ upper = 0 then .ok a
  else if (lower + upper) % 2 ^ 32 ≥ a.nBins then .throw .value
  else if lower + upper > a.nBins then .throw .stdLogic
  else do
    let newBinCount := a.nBins - upper - lower
    let lows ← Res.traverse (fun i => a.getBinLowEdge (lower + i)) (List.range newBinCount)
    let highs ← Res.traverse (fun i => a.getBinHighEdge (lower + i)) (List.range newBinCount)
    BinAxis.mkEdges a.name lows highs a.latexName

/-- src/fitutil/BinnedEDShrinker.cpp:79-85: one iteration of the loop building the new axes. -/
def axisStep (s : Shrinker α) (dist : BinnedED α) (c : AxisCollection α) (i : Nat) :
    Res (AxisCollection α) := do
  let a ← dist.hist.axes.getAxis i
  match s.buffers.find a.name with
  | none => c.addAxis a
  | some (lower, upper) => do
    let a' ← shrinkAxis a lower upper
    c.addAxis a'

/-- src/fitutil/BinnedEDShrinker.cpp:102-125: new index along dimension `j` of the bin whose old
index along it is `old`, and whether the bin stays flagged for use. -/
def newIndex (s : Shrinker α) (name : String) (newBins old : Nat) : Nat × Bool :=
  let off : Int := Int.bmod old (2 ^ 32)
  let off : Int :=
    match s.buffers.find name with
    | none => off
    | some (lower, _) => Int.bmod (off - lower) (2 ^ 32)
  let use1 := if off < 0 then s.usingOverflows else true
  let off := if off < 0 then 0 else off
  let over := (off % 2 ^ 32).toNat ≥ newBins
  let use2 := if over then s.usingOverflows else true
  let off : Int := if over then Int.bmod ((newBins : Int) - 1) (2 ^ 32) else off
  ((off % 2 ^ 64).toNat, use1 && use2)

/-- src/fitutil/BinnedEDShrinker.cpp:96-130: what is appended to `fBinVec` and `fUseContent` for
old bin `i`. -/
def binEntry (s : Shrinker α) (dist : BinnedED α) (c : AxisCollection α) (i : Nat) :
    Res (Int × Bool) := do
  let ks ← Res.traverse (fun j => do
    let a ← dist.hist.axes.getAxis j
    let old ← dist.hist.axes.unflattenIndex i j
    let b ← c.getAxis j
    pure (s.newIndex a.name b.nBins old)) (List.range dist.hist.nDims)
  let newBin ← c.flattenIndices (ks.map (·.1))
  pure (Int.bmod newBin (2 ^ 32), ks.all (·.2))

/-- src/fitutil/BinnedEDShrinker.cpp:64-131. The new axes and the bin map are *appended* to those
of earlier calls; `fUseContent.at(i)` (l.114, 122) is indexed from the start of that vector, so it
addresses the flag just pushed only on the first call. A second call on the same object can only
get there with a distribution without any axis name in common. The model reports that case
(`binVec` not empty) as undefined rather than modelling it. -/
def setBinMap (s : Shrinker α) (dist : BinnedED α) : Res (Shrinker α) :=
  if s.buffers = [] then .ok s
  else do
    let c ← Res.forFold (s.axisStep dist) s.newAxes (List.range dist.hist.nDims)
    if s.binVec ≠ [] then .ub
    else do
      let es ← Res.traverse (s.binEntry dist c) (List.range dist.hist.nBins)
      pure { s with newAxes := c, binVec := es.map (·.1), useContent := es.map (·.2) }

/-- src/fitutil/BinnedEDShrinker.cpp:151-162: one iteration of the copying loop. -/
def shrinkStep (s : Shrinker α) (dist : BinnedED α) (h : Histogram α) (i : Nat) :
    Res (Histogram α) := do
  let content ← dist.hist.getBinContent i
  if content = 0 then pure h
  else do
    let newBin ← at_ s.binVec i
    let use ← at_ s.useContent i
    if use then h.addBinContent (newBin % 2 ^ 64).toNat content else pure h

/-- src/fitutil/BinnedEDShrinker.cpp:133-164 -/
def shrinkDist (s : Shrinker α) (dist : BinnedED α) : Res (BinnedED α) :=
  if s.buffers = [] then .ok dist
  else do
    let h ← Res.forFold (s.shrinkStep dist) (Histogram.ofAxes s.newAxes) (List.range dist.hist.nBins)
    pure ⟨dist.name ++ "_shrunk", h, dist.obs⟩

end Shrinker
end Oxsx
