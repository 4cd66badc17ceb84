import Verif.Model.FailedCalls
/-
Specification side of the distribution manager: histories of calls, what was added, and the expected rate.
-/
namespace Oxsx
variable {α : Type} [Field α] [LinearOrder α]

/-- `m` is what some sequence of public calls makes of a new manager; `log` is the list of distributions added, with their
fitting statuses, in the order of the `AddPdf` calls. `SetParameters` and the calls of an evaluation may fail and leave the manager
half updated. -/
inductive PdfManager.Built : List (BinnedED α × NormStatus) → PdfManager α → Prop
  | new : Built [] .new
  | addPdf {log m m'} (pdf : BinnedED α) (st : NormStatus) : Built log m → m.addPdf pdf st = .ok m' →
      Built (log ++ [(pdf, st)]) m'
  | setParameters {log m} (d : ParamDict α) : Built log m → Built log (m.setParameters d).1
  | setParameter {log m m'} (n : String) (v : α) : Built log m → m.setParameter n v = .ok m' → Built log m'
  | setNormalisations {log m m'} (ns : List α) : Built log m → m.setNormalisations ns = .ok m' → Built log m'
  | reassertNorms {log m m'} (b : Bool) : Built log m → m.reassertNorms b = .ok m' → Built log m'
  | binProbability {log m m'} {v : α} (b : Nat) : Built log m → m.binProbability b = .ok (v, m') → Built log m'
  | probability {log m m'} {v : α} (e : Event α) : Built log m → m.probability e = .ok (v, m') → Built log m'
  | applySystematics {log m m'} (sm : SysManager α) : Built log m → m.applySystematics sm = .ok m' → Built log m'
  | applyShrink {log m m'} (s : Shrinker α) : Built log m → m.applyShrink s = .ok m' → Built log m'
  | assertDimensions {log m m'} (obs : List String) : Built log m → m.assertDimensions obs = .ok m' → Built log m'
  | reassertNormsLeft {log m} (b : Bool) : Built log m → Built log (m.reassertNormsLeft b).1
  | applySystematicsLeft {log m} (sm : SysManager α) : Built log m → Built log (m.applySystematicsLeft sm).1
  | applyShrinkLeft {log m} (s : Shrinker α) : Built log m → Built log (m.applyShrinkLeft s).1
  | assertDimensionsLeft {log m} (obs : List String) : Built log m → Built log (m.assertDimensionsLeft obs).1

namespace PdfLog

/-- The names of the distributions whose normalisation is fitted, in the order added. -/
def fitted (log : List (BinnedED α × NormStatus)) : List String :=
  (log.filter (fun p => p.2.fittable)).map (·.1.name)

/-- No two fitted distributions share a name. -/
def DistinctNames (log : List (BinnedED α × NormStatus)) : Prop := (fitted log).Nodup

instance (log : List (BinnedED α × NormStatus)) : Decidable (DistinctNames log) := by
  unfold DistinctNames; infer_instance

/-- Every distribution of status `a` was added before every distribution of status `b`. -/
def Before (a b : NormStatus) (log : List (BinnedED α × NormStatus)) : Prop :=
  (log.map (·.2)).Pairwise (fun x y => ¬ (x = b ∧ y = a))

instance (a b : NormStatus) (log : List (BinnedED α × NormStatus)) : Decidable (Before a b log) := by
  unfold Before; infer_instance

end PdfLog

/-- What the manager should use for one distribution: its fitted normalisation parameter, read from `value`, or 1 when the
normalisation is not fitted (the content then carries it). -/
def normOf (value : String → α) (p : BinnedED α × NormStatus) : α :=
  if p.2.fittable then value p.1.name else 1

/-- The expected rate in a bin: the sum, over the distributions added and their current working versions, of normalisation times
content. -/
def expectedRate (value : String → α) (log : List (BinnedED α × NormStatus)) (work : List (BinnedED α)) (bin : Nat) : α :=
  ((log.zip work).map (fun q => normOf value q.1 * q.2.hist.contents.getD bin 0)).sum

end Oxsx
