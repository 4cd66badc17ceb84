import Verif.Model.RoundedConstraint
import Verif.Model.BinnedNLLH
import Mathlib.Algebra.Order.AbsoluteValue.Basic
/-
More members with the rounding of the machine: weighted filling, normalising, scaling and adding histograms, their moments, the expected
number of events in a bin, and the sum over the bins of the likelihood. As in `Model/Rounded.lean` overflow, subnormal numbers, infinities
and NaN produced by an operation are not modelled. With `fma = true` every `a + b * c` is one operation. The logarithm of the machine
is any function `lg` with a bounded relative error.
-/
namespace Oxsx

/-- A rounding whose relative error is bounded: `u` is half the distance between 1 and the next number, 2^-53 for a double. -/
structure Arith (α : Type) [Field α] [LinearOrder α] extends Rounding α where
  u : α
  u_nonneg : 0 ≤ u
  u_lt : u < 1
  rel : ∀ x, |rnd x - x| ≤ u * |x|

variable {σ α : Type} [Field α] [LinearOrder α]

namespace Histogram

/-- src/histogram/Histogram.cpp:68-74 with rounding, for a sequence of events with weights. -/
def fillAllR (R : Rounding α) (h : Histogram α) (evs : List (List α × α)) : Res (Histogram α) :=
  Res.forFold (fun (h : Histogram α) (e : List α × α) => h.fillR R e.1 e.2) h evs

/-- src/histogram/Histogram.cpp:55-60 with rounding. -/
def normaliseR (R : Rounding α) (h : Histogram α) : Histogram α :=
  let sum := h.integralR R
  { h with contents := h.contents.map (fun x => R.rnd (x / sum)) }

/-- src/histogram/Histogram.cpp:62-66 with rounding. -/
def scaleR (R : Rounding α) (h : Histogram α) (s : α) : Histogram α :=
  { h with contents := h.contents.map (fun x => R.rnd (x * s)) }

/-- src/histogram/Histogram.cpp:432-439 with rounding. -/
def addR (R : Rounding α) (fma : Bool) (h other : Histogram α) (w : α) : Res (Histogram α) :=
  h.combine other (fun x y => BinAxis.mulAdd R fma x y w)

/-- src/histogram/Histogram.cpp:180-188 with rounding. -/
def meansR (R : Rounding α) (fma : Bool) (h : Histogram α) : Res (List α) :=
  Res.traverse (fun j =>
    Res.forFold (fun m i => do
      let c ← at_ h.contents i
      let x ← h.axes.getBinCentre i j
      pure (BinAxis.mulAdd R fma m c x)) 0 (List.range h.nBins)) (List.range h.nDims)

/-- src/histogram/Histogram.cpp:190-207 with rounding: `binCent * binCent * content` is rounded after each product. -/
def variancesR (R : Rounding α) (fma : Bool) (h : Histogram α) : Res (List α) := do
  let vs ← Res.traverse (fun j =>
    Res.forFold (fun v i => do
      let x ← h.axes.getBinCentre i j
      let c ← at_ h.contents i
      pure (BinAxis.mulAdd R fma v (R.rnd (x * x)) c)) 0 (List.range h.nBins)) (List.range h.nDims)
  let ms ← h.meansR R fma
  Res.traverse (fun i => do
    let v ← idx vs i
    let m ← at_ ms i
    pure (if fma then R.rnd (v - m * m) else R.rnd (v - R.rnd (m * m)))) (List.range h.nDims)

end Histogram

namespace PdfManager

/-- One iteration of src/fitutil/BinnedEDManager.cpp:57-75 with rounding. -/
def probStepR (R : Rounding α) (fma : Bool) (m : PdfManager α) (bin : Nat) (s : α × Nat) (i : Nat) : Res (α × Nat) := do
  let st ← at_ m.status i
  let w ← at_ m.work i
  match st with
  | .direct => do
    let n ← at_ m.norms i
    let c ← w.hist.getBinContent bin
    pure (BinAxis.mulAdd R fma s.1 n c, s.2 + 1)
  | .indirect => do
    let n ← at_ m.fitNorms s.2
    let c ← w.hist.getBinContent bin
    pure (BinAxis.mulAdd R fma s.1 n c, s.2 + 1)
  | .off => do
    let c ← w.hist.getBinContent bin
    pure (R.rnd (s.1 + c), s.2)

/-- src/fitutil/BinnedEDManager.cpp:49-82 with rounding. -/
def binProbabilityR (R : Rounding α) (fma : Bool) (m : PdfManager α) (bin : Nat) : Res (α × PdfManager α) := do
  let m ← m.reassertNorms true
  let (sum, _) ← Res.mapExc (fun e => if e = .outOfRange then .logic else e)
    (Res.forFold (m.probStepR R fma bin) (0, 0) (List.range m.work.length))
  pure (sum, m)

end PdfManager

namespace NLLH

/-- `nLogLH - n * log(newProb) + penalty + newProb` of src/teststat/BinnedNLLH.cpp:108 with rounding; without Barlow-Beeston the
penalty is 0 (l.53). -/
def addTermR (R : Rounding α) (fma : Bool) (a n l p : α) : α :=
  R.rnd (R.rnd ((if fma then R.rnd (a - n * l) else R.rnd (a - R.rnd (n * l))) + 0) + p)

/-- One iteration of src/teststat/BinnedNLLH.cpp:46-109 with rounding, without Barlow-Beeston; `lg` is the logarithm of the
machine, which gives no number for arguments that are not positive. -/
def binStepR (R : Rounding α) (fma : Bool) (lg : α → α) (L : NLLH σ α) (s : Fl α × PdfManager α) (i : Nat) :
    Res (Fl α × PdfManager α) := do
  let (prob, m) ← s.2.binProbabilityR R fma i
  Res.throwIf (prob = 0) .runtime
  let n ← L.dataDist.hist.getBinContent i
  pure (if prob ≤ 0 then none else s.1.map (fun a => addTermR R fma a n (lg prob) prob), m)

/-- src/teststat/BinnedNLLH.cpp:12-124 with rounding, without Barlow-Beeston. Simplified: only the expected numbers of events, the sum
over the bins, the constraint term and its addition are rounded; the preparation of the distributions (l.15-35) is exact. Without
systematics, buffers and events to bin the preparation computes nothing. -/
def evaluateR (R : Rounding α) (fma : Bool) (lg : α → α) (C : FitSys σ α) (L : NLLH σ α) : Res (Fl α × NLLH σ α) := do
  let L ← L.prepare C
  let (v, m) ← Res.forFold (binStepR R fma lg L) (some 0, L.pdfs) (List.range L.dataDist.hist.nBins)
  let L := { L with pdfs := m }
  let ps ← L.getParameters C
  let c ← L.constraints.evaluateR R fma ps
  pure ((Fl.add v c).map R.rnd, L)

end NLLH
end Oxsx
