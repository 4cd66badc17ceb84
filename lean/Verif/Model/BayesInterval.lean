import Verif.Model.Histogram
import Verif.Model.Constraint
/-
Model of src/interval/BayesIntervalCalc.cpp.
-/
namespace Oxsx
namespace BayesInterval
variable {α : Type} [Field α] [LinearOrder α]

/-- src/interval/BayesIntervalCalc.cpp:32-36 -/
def sumTo (p : Histogram α) (k : Nat) : Res α :=
  Res.forFold (fun s i => p.getBinContent i >>= fun x => Res.ok (s + x)) 0 (List.range k)

/-- src/interval/BayesIntervalCalc.cpp:30-39, from a state of `critBin` and `sum`: the state after the loop. The loop cannot go round more
than `nBins + 2` times, since reading one content too many is undefined. -/
def critLoop (p : Histogram α) (cl : α) : Nat → Nat → α → Res (Nat × α)
  | 0, _, _ => .ub
  | fuel + 1, k, sum => if sum < cl then sumTo p k >>= fun s => critLoop p cl fuel (k + 1) s else .ok (k, sum)

/-- src/interval/BayesIntervalCalc.cpp:8-47 -/
def upperBound (h : Histogram α) (cl : α) : Res (Fl α) :=
  if h.integral = 0 then .throw .value
  else if cl ≤ 0 then .throw .value
  else if h.nDims ≠ 1 then .throw .dimension
  else
    critLoop h.normalise cl (h.nBins + 3) 0 0 >>= fun c =>
    h.normalise.axes.getBinHighEdge c.1 0 >>= fun hi =>
    h.normalise.axes.getBinLowEdge c.1 0 >>= fun lo =>
    h.normalise.getBinContent c.1 >>= fun x =>
    Res.ok ((Fl.div ((hi - lo) * (c.2 - cl)) x).map (fun y => hi - y))

/-- src/interval/BayesIntervalCalc.cpp:55-66. `F` is `OneSidedUpperInterval(expectedCounts, observedCounts, ·)`, a quotient of incomplete gamma
functions of the GSL; `none`: still running after this many rounds. -/
def limitLoop (F : α → α) (cl tol : α) : Nat → α → α → Option α
  | 0, _, _ => none
  | fuel + 1, limit, cur => if tol < |cur - cl| then limitLoop F cl tol fuel (limit + tol) (F (limit + tol)) else some limit

/-- src/interval/BayesIntervalCalc.cpp:58-65 -/
def upperBoundCounts (F : α → α) (cl tol : α) (fuel : Nat) : Option α := limitLoop F cl tol fuel 0 0

end BayesInterval
end Oxsx
