import Verif.Model.HistTools
import Verif.Model.AutoCorrelation
import Verif.Model.Parameters
/-
Model of src/optimise/MCMCSamples.{h,cpp}.
-/
namespace Oxsx

/-- A row of the tree of src/optimise/MCMCSamples.cpp:150-164 (the wall-clock step time is left out). -/
structure ChainRow (α : Type) where
  logL : α
  accepted : Bool
  step : Nat
  pars : List α
  deriving DecidableEq

/-- src/optimise/MCMCSamples.h:53-87. `int` counters are unbounded here. `fSample` is never written. `branches` and `chain` are the
parameter branches and rows of the tree. -/
structure MCMCSamples (α : Type) where
  saveFull : Bool
  axes : AxisCollection α
  accepted : Nat
  total : Nat
  burnIn : Int
  thin : Int
  initialised : Bool
  auto : AutoCorr α
  proj1 : SMap (Histogram α)
  proj2 : SMap (Histogram α)
  hist : Histogram α
  saveChain : Bool
  branches : List String
  chain : List (ChainRow α)

/-- What `Fill` reads of the MCMC it belongs to: the bounds and the number of bins `int(pow(maxIter, 1/#params))` of the default binning
(the floating-point power is not modelled). -/
structure MCMCBounds (α : Type) where
  minima : ParamDict α
  maxima : ParamDict α
  nGuess : Nat

namespace MCMCSamples
variable {α : Type} [Field α] [LinearOrder α]

/-- src/optimise/MCMCSamples.h:14-19 -/
def new : MCMCSamples α := ⟨false, .empty, 0, 0, 1000, 1, false, .new 1000, [], [], .empty, false, [], []⟩

/-- `name.find("-")`/`replace` of src/optimise/MCMCSamples.cpp:117-121: the first dash becomes an underscore. -/
def branchName (n : String) : String :=
  String.ofList (go n.toList)
where go : List Char → List Char
  | [] => []
  | c :: cs => if c = '-' then '_' :: cs else c :: go cs

/-- One iteration of src/optimise/MCMCSamples.cpp:77-86; `GetMaxima().at(name)` throws `std::out_of_range`. -/
def guessAxis (b : MCMCBounds α) (c : AxisCollection α) (n : String) : Res (AxisCollection α) :=
  match SMap.find b.maxima n, SMap.find b.minima n with
  | some hi, some lo => do
    let a ← BinAxis.mkEqual n lo (if hi = lo then hi + 1 / 100 else hi) b.nGuess
    c.addAxis a
  | _, _ => .throw .outOfRange

/-- src/optimise/MCMCSamples.cpp:60-87 -/
def histAxes (s : MCMCSamples α) (b : MCMCBounds α) : Res (AxisCollection α) :=
  if s.axes.nDims ≠ 0 then
    if s.axes.nDims ≠ b.minima.length then .throw .dimension else .ok s.axes
  else Res.forFold (guessAxis b) .empty b.minima.keys

/-- src/optimise/MCMCSamples.cpp:88-101 -/
def makeHists (s : MCMCSamples α) (b : MCMCBounds α) (ax : AxisCollection α) : Res (MCMCSamples α) :=
  if s.saveFull then .ok { s with hist := Histogram.ofAxes ax }
  else
    HistTools.makeAll2 ax (Combinations.allCombsNoDiag b.minima.keys) >>= fun p2 =>
    HistTools.makeAll1 ax b.minima.keys >>= fun p1 =>
    Res.ok { s with proj1 := p1, proj2 := p2 }

/-- src/optimise/MCMCSamples.cpp:103-128. Starting a chain makes a new, empty tree. -/
def startChain (s : MCMCSamples α) (b : MCMCBounds α) : MCMCSamples α :=
  if s.saveChain then { s with branches := b.minima.keys.map branchName, chain := [], initialised := true } else { s with initialised := true }

/-- src/optimise/MCMCSamples.cpp:58-129. -/
def initialise (s : MCMCSamples α) (b : MCMCBounds α) : Res (MCMCSamples α) :=
  s.histAxes b >>= fun ax => s.makeHists b ax >>= fun s => Res.ok (s.startChain b)

/-- src/optimise/MCMCSamples.cpp:139-143 -/
def recordHists (s : MCMCSamples α) (p : ParamDict α) : Res (MCMCSamples α) :=
  if s.saveFull then s.hist.fillMap p 1 >>= fun h => Res.ok { s with hist := h }
  else
    HistTools.fillAll s.proj1 p >>= fun p1 => HistTools.fillAll s.proj2 p >>= fun p2 => Res.ok { s with proj1 := p1, proj2 := p2 }

/-- src/optimise/MCMCSamples.cpp:139-145 -/
def record (s : MCMCSamples α) (p : ParamDict α) (v : α) : Res (MCMCSamples α) :=
  s.recordHists p >>= fun s => s.auto.fill v >>= fun a => Res.ok { s with auto := a }

/-- src/optimise/MCMCSamples.cpp:133-134 -/
def ensureInit (s : MCMCSamples α) (b : MCMCBounds α) : Res (MCMCSamples α) := if s.initialised then .ok s else s.initialise b

/-- src/optimise/MCMCSamples.cpp:136-146. `% 0` is undefined. -/
def maybeRecord (s : MCMCSamples α) (p : ParamDict α) (v : α) : Res (MCMCSamples α) :=
  if (s.total : Int) > s.burnIn then
    (if s.thin = 0 then .ub else if (s.total : Int) % s.thin = 0 then s.record p v else .ok s)
  else .ok s

/-- src/optimise/MCMCSamples.cpp:147-148 -/
def countAccepted (s : MCMCSamples α) (acc : Bool) : MCMCSamples α := { s with accepted := if acc then s.accepted + 1 else s.accepted }

/-- src/optimise/MCMCSamples.cpp:150-164. The values are written to the storage reserved, one place per branch, at initialisation (the
vector's size stays 0; the write is taken to work as long as it stays within that storage, which is what implementations do although
`operator[]` past the size is formally undefined). -/
def addRow (s : MCMCSamples α) (p : ParamDict α) (v : α) (acc : Bool) : Res (MCMCSamples α) :=
  if s.saveChain then
    (if s.branches.length < p.length then .ub else .ok { s with chain := s.chain ++ [⟨v, acc, s.total, p.map (·.2)⟩] })
  else .ok s

/-- src/optimise/MCMCSamples.cpp:131-167. An exception is taken to end the use of the store. -/
def fill (s : MCMCSamples α) (b : MCMCBounds α) (p : ParamDict α) (v : α) (acc : Bool) : Res (MCMCSamples α) :=
  s.ensureInit b >>= fun s => s.maybeRecord p v >>= fun s => (s.countAccepted acc).addRow p v acc >>= fun s =>
    Res.ok { s with total := s.total + 1 }

/-- src/optimise/MCMCSamples.cpp:42-46 (`none`: 0/0) -/
def acceptanceRate (s : MCMCSamples α) : Fl α := Fl.div (s.accepted : α) (s.total : α)

/-- src/optimise/MCMCSamples.cpp:36-40 -/
def rejectionRate (s : MCMCSamples α) : Fl α := s.acceptanceRate.map (fun r => 1 - r)

/-- src/optimise/MCMCSamples.cpp:219-229 -/
def clear (s : MCMCSamples α) : MCMCSamples α :=
  { s with accepted := 0, total := 0, proj1 := [], proj2 := [], initialised := false, hist := s.hist.emptyContents, auto := s.auto.clear }

end MCMCSamples
end Oxsx
