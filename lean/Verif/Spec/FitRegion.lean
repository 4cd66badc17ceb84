import Verif.Spec.Shrinker
import Verif.Spec.BinnedNLLH
/-
What a likelihood with buffers should compute, in terms of bins of the original histograms.
-/
namespace Oxsx
open AxisCollection
variable {α : Type} [Field α] [LinearOrder α]

/-- Numbers of bins left inside the buffers on each axis. -/
def regionShape (bufs : SMap (Nat × Nat)) (as : List (BinAxis α)) : List Nat :=
  as.map (fun a => a.nBins - bufLow bufs a.name - bufHigh bufs a.name)

/-- What belongs in the bin of the fit region with indices `is`, for a histogram `h` binned as the axes `as`: the content of the same
bin of `h` (whose indices are larger by the lower buffers), or, with the buffers used as overflows, the contents of all bins of `h`
whose nearest bin in the region it is. -/
def regionContent (bufs : SMap (Nat × Nat)) (ov : Bool) (as : List (BinAxis α)) (h : Histogram α) (is : List Nat) : α :=
  if ov then (((List.range (shape as).prod).filter
      (fun b => List.zipWith (nearestKept bufs) as (digits (shape as) b) = is)).map h.content).sum
  else h.content (rowMajor (shape as) (List.zipWith (fun a i => bufLow bufs a.name + i) as is))

/-- The sum over the fit region. -/
def regionIntegral (bufs : SMap (Nat × Nat)) (ov : Bool) (as : List (BinAxis α)) (h : Histogram α) : α :=
  ((List.range (regionShape bufs as).prod).map (fun b => regionContent bufs ov as h (digits (regionShape bufs as) b))).sum

/-- The expected rate in the bin of the fit region with indices `is`, from the histograms `hs` of the distributions: a directly
fitted distribution is normalised to one within the region, the others are not. -/
def regionRate (value : String → α) (bufs : SMap (Nat × Nat)) (ov : Bool) (as : List (BinAxis α))
    (log : List (BinnedED α × NormStatus)) (hs : List (Histogram α)) (is : List Nat) : α :=
  ((log.zip hs).map (fun q => normOf value q.1 *
    (regionContent bufs ov as q.2 is / (if q.1.2 = .direct then regionIntegral bufs ov as q.2 else 1)))).sum

/-- The Poisson negative log likelihood over the fit region. -/
noncomputable def regionNLL (value : String → ℝ) (bufs : SMap (Nat × Nat)) (ov : Bool) (as : List (BinAxis ℝ))
    (log : List (BinnedED ℝ × NormStatus)) (hs : List (Histogram ℝ)) (d : BinnedED ℝ) : ℝ :=
  ((List.range (regionShape bufs as).prod).map (fun b =>
    poissonTerm (regionContent bufs ov as d.hist (digits (regionShape bufs as) b))
      (regionRate value bufs ov as log hs (digits (regionShape bufs as) b)))).sum

section
variable {σ : Type}

/-- A likelihood configured the usual way, and then given buffers (`SetBuffer(dim, lower, upper)` for each of `calls`,
`SetBufferAsOverflow(ov)`). -/
def NLLH.configuredRegion (name : Nat → String) (C : FitSys σ α) (objs : Nat → σ) (log : List (BinnedED α × NormStatus))
    (cons : ConstraintManager α) (ps : ParamDict α) (calls : List (String × Nat × Nat)) (ov : Bool) (d : BinnedED α) : Res (NLLH σ α) := do
  let L ← NLLH.configured name C objs log cons ps d
  pure ((calls.foldl (fun (L : NLLH σ α) c => L.setBuffer c.1 c.2.1 c.2.2) L).setBufferAsOverflow ov)

/-- The values a fit sees: for each dictionary in turn, `SetParameters` and `Evaluate`. -/
def NLLH.scan (C : FitSys σ α) (M : CMath α) : NLLH σ α → List (ParamDict α) → Res (List (Fl α))
  | _, [] => .ok []
  | L, ps :: pss => do
    (L.setParameters C ps).2
    let (v, L) ← (L.setParameters C ps).1.evaluate C M
    let vs ← NLLH.scan C M L pss
    pure (v :: vs)

end

end Oxsx
