import Verif.Model.MCMC
import Verif.Model.Matrix
/-
Model of src/optimise/MinuitFCN.{h,cpp} and src/optimise/Minuit.{h,cpp}. ROOT's Minuit2 is not code of this repository: a run of it is
an arbitrary program that asks for values of the function and finally reports an outcome (`MnRun`).
-/
namespace Oxsx

/-- src/optimise/MinuitFCN.h:33-37. -/
structure MinuitFCN (α : Type) where
  stat : Option (TestStat α)
  up : α
  flip : Bool
  cur : ParamDict α
  names : List String

namespace MinuitFCN
variable {α : Type} [Field α] [LinearOrder α]

/-- src/optimise/MinuitFCN.h:14 -/
def new : MinuitFCN α := ⟨none, 1 / 2, false, [], []⟩

/-- src/optimise/MinuitFCN.h:15-17 -/
def make (t : TestStat α) (names : List String) : MinuitFCN α := ⟨some t, 1 / 2, false, [], names⟩

/-- src/optimise/MinuitFCN.cpp:17-30: `fSetParameters` is left as it was. -/
def assign (f o : MinuitFCN α) : MinuitFCN α := ⟨o.stat, o.up, o.flip, f.cur, o.names⟩

/-- src/core/ContainerTools.hpp:82-99 (assertions off): too few values are read past the end, spare ones ignored. -/
def setValues (m : ParamDict α) (keys : List String) (vals : List α) : Res (ParamDict α) :=
  if vals.length < keys.length then .ub else .ok ((keys.zip vals).foldl (fun (m : ParamDict α) p => m.insert p.1 p.2) m)

/-- src/optimise/MinuitFCN.cpp:3-15: the value and the object left behind (`fSetParameters` is mutable). -/
def call (f : MinuitFCN α) (vals : List α) : Res (α × MinuitFCN α) :=
  match f.stat with
  | none => .throw .nullPtr
  | some t => setValues f.cur f.names vals >>= fun d => t.eval d >>= fun v =>
      Res.ok (if f.flip then -1 * v else v, { f with cur := d })

end MinuitFCN

/-- What Minuit2 is given: src/optimise/Minuit.cpp:117-138, 187, 191. `limits` by position; `up` is what `Up()` returns. -/
structure MnSetup (α : Type) where
  values : List α
  errors : List α
  limits : List (α × α)
  fixed : List Nat
  method : String
  strategy : Int
  maxCalls : Nat
  tolerance : α
  up : α

/-- What Minuit2 reports: `Params()`, `Fval()`, `IsValid()`, `UserCovariance().Data()`. -/
structure MnOutcome (α : Type) where
  params : List α
  fval : α
  valid : Bool
  cov : List α

/-- A run of Minuit2: it asks for function values, going on as it likes with the answers, and finally reports. -/
inductive MnRun (α : Type) where
  | done (o : MnOutcome α)
  | ask (x : List α) (k : α → MnRun α)

namespace MnRun
variable {α : Type} [Field α] [LinearOrder α]

/-- Running it against the function: the outcome, the function object left behind, and the points asked for with the answers. -/
def run : MnRun α → MinuitFCN α → Res (MnOutcome α × MinuitFCN α × List (List α × α))
  | done o, f => .ok (o, f, [])
  | ask x k, f => f.call x >>= fun r => run (k r.1) r.2 >>= fun s => Res.ok (s.1, s.2.1, (x, r.1) :: s.2.2)

end MnRun

/-- src/optimise/Minuit.h:65-87, without the minimiser object. -/
structure Minuit (α : Type) where
  fcn : MinuitFCN α
  initVals : ParamDict α
  initErrs : ParamDict α
  minima : ParamDict α
  maxima : ParamDict α
  fixed : List String
  maxCalls : Nat
  tolerance : α
  strategy : Int
  method : String
  maximising : Bool

/-- What is put in the `FitResult`: src/optimise/Minuit.cpp:193-203. -/
structure MinuitResult (α : Type) where
  bestFit : ParamDict α
  valid : Bool
  extremeVal : α
  covariance : Matrix' α

namespace Minuit
variable {α : Type} [Field α] [LinearOrder α]

/-- src/optimise/Minuit.h:22-27 -/
def new : Minuit α := ⟨.new, [], [], [], [], [], 0, 1 / 10, 2, "Migrad", false⟩

/-- src/optimise/Minuit.cpp:50-53 -/
def setUpperContourEdge (m : Minuit α) (v : α) : Minuit α := { m with fcn := { m.fcn with up := v } }

/-- src/optimise/Minuit.cpp:55-59 -/
def getUpperContourEdge (m : Minuit α) : α := m.fcn.up

/-- src/optimise/Minuit.cpp:144-147: a set. -/
def fix (m : Minuit α) (n : String) : Minuit α := { m with fixed := if n ∈ m.fixed then m.fixed else n :: m.fixed }

/-- src/optimise/Minuit.cpp:149-152 -/
def release (m : Minuit α) (n : String) : Minuit α := { m with fixed := m.fixed.filter (· ≠ n) }

/-- One iteration of src/optimise/Minuit.cpp:95-104 (the keys of the two maps are the same). -/
def checkRange (maxima : ParamDict α) (p : String × α) : Res Unit := Res.throwIf (p.2 ≥ (maxima.find p.1).getD 0) .logic

/-- src/optimise/Minuit.cpp:76-104 -/
def checks (m : Minuit α) : Res Unit :=
  if m.minima.keys ≠ m.maxima.keys then .throw .logic
  else if m.initErrs.keys ≠ m.initVals.keys then .throw .logic
  else Res.forFold (fun _ p => checkRange m.maxima p) () m.minima

/-- `operator[]` on the names: src/optimise/Minuit.cpp:125 creates the entries missing as 0. -/
def touch (d : ParamDict α) (names : List String) : ParamDict α := names.foldl (fun (d : ParamDict α) n => d.insertNew n 0) d

/-- src/optimise/Minuit.cpp:119-127: the limits by position, and the maps left behind. -/
def limits (m : Minuit α) (names : List String) : List (α × α) × ParamDict α × ParamDict α :=
  if m.minima.length ≠ 0 ∧ m.maxima.length ≠ 0 then
    let lo := touch m.minima names
    let hi := touch m.maxima names
    (names.map (fun n => ((lo.find n).getD 0, (hi.find n).getD 0)), lo, hi)
  else ([], m.minima, m.maxima)

/-- src/optimise/Minuit.cpp:131-141 -/
def checkMethod (s : String) : Res Unit := Res.throwIf (s ≠ "Migrad" ∧ s ≠ "Minimize" ∧ s ≠ "Simplex") .value

/-- src/optimise/Minuit.cpp:71-142: the optimiser left behind and what the minimiser is set up with (nothing fixed yet). -/
def initialise (m : Minuit α) (t : TestStat α) : Res (Minuit α × MnSetup α) :=
  m.checks >>= fun _ =>
  Histogram.getValues m.initVals m.initErrs.keys >>= fun vals =>
  Histogram.getValues m.initErrs m.initErrs.keys >>= fun errs =>
  checkMethod m.method >>= fun _ =>
    let f := m.fcn.assign (MinuitFCN.make t m.initErrs.keys)
    let f := { f with flip := if m.maximising then true else f.flip }
    let l := m.limits m.initErrs.keys
    Res.ok ({ m with fcn := f, minima := l.2.1, maxima := l.2.2 },
      ⟨vals, errs, l.1, [], m.method, m.strategy, m.maxCalls, m.tolerance, f.up⟩)

/-- One iteration of src/optimise/Minuit.cpp:181-188. -/
def fixOne (names : List String) (n : String) : Res Nat :=
  match findPos names n with
  | some i => .ok i
  | none => .throw .logic

/-- src/optimise/Minuit.cpp:235-245 and src/core/DenseMatrix.cpp:82-115. `(sqrt(8n+1)-1)/2` cut to an integer; the 32-bit overflow of `8n` for
a covariance of more than 2^28 entries is not modelled. -/
def covMatrix (v : List α) : Res (Matrix' α) :=
  let n := (Nat.sqrt (8 * v.length + 1) - 1) / 2
  (Matrix'.mk' n n).setSymmetric v

/-- src/core/ContainerTools.hpp:13-33 -/
def createMap (keys : List String) (vals : List α) : Res (ParamDict α) := MinuitFCN.setValues [] keys vals

/-- src/optimise/Minuit.cpp:165-206 (`RegisterFitComponents` is part of what `TestStat` stands for): the optimiser and the result, with what the
minimiser was set up with and the points it asked for. `mn` is Minuit2. -/
def optimise (m : Minuit α) (t : TestStat α) (mn : MnSetup α → MnRun α) :
    Res (Minuit α × MinuitResult α × MnSetup α × List (List α × α)) :=
  m.initialise t >>= fun i =>
    if t.names ≠ m.initErrs.keys then .throw .logic
    else Res.traverse (fixOne m.initErrs.keys) m.fixed >>= fun fx =>
      let su := { i.2 with fixed := fx }
      (mn su).run i.1.fcn >>= fun r =>
      createMap m.initErrs.keys r.1.params >>= fun best =>
      covMatrix r.1.cov >>= fun c =>
      Res.ok ({ i.1 with fcn := r.2.1 }, ⟨best, r.1.valid, if m.maximising then -r.1.fval else r.1.fval, c⟩, su, r.2.2)

end Minuit
end Oxsx
