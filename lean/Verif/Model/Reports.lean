import Verif.Model.EventSystematic
import Verif.Model.Constraint
set_option linter.unusedSectionVars false
/-
Model of the reports: CutLog with its derived members (src/cut/CutLog.cpp) and CountingResult::AsString (src/count/CountingResult.cpp).
Simplification: the text is modelled by what each line shows (the strings and numbers passed to `<<`), not by their padding and digits;
`int` counters do not overflow. A quotient by zero events is not finite (`none`). Writing the text to a file or to the screen is not modelled.
-/
namespace Oxsx
variable {α : Type} [Field α] [LinearOrder α]

/-- src/cut/CutLog.h:28-34: the counters and the members derived from them, which are only recomputed by `CalculateMeta`. -/
structure CutLogObj (α : Type) where
  log : CutLog
  remCounts : List Int
  cutPercent : List (Fl α)
  remPercent : List (Fl α)

/-- One line of the table of src/cut/CutLog.cpp:90-110. -/
structure CutRow (α : Type) where
  name : String
  cut : Nat
  cutPercent : Fl α
  remaining : Int
  remPercent : Fl α

namespace CutLogObj

/-- src/cut/CutLog.h:9-10: the constructor taking the names (the default constructor is the case of no name). -/
def new (names : List String) : CutLogObj α := ⟨.ofNames names, [], [], []⟩

/-- src/cut/CutLog.cpp:29-32 -/
def logPass (o : CutLogObj α) : CutLogObj α := { o with log := o.log.logPass }

/-- src/cut/CutLog.cpp:34-40 -/
def logCut (o : CutLogObj α) (i : Nat) : Res (CutLogObj α) := o.log.logCut i >>= fun l => Res.ok { o with log := l }

/-- One turn of the loop of src/cut/CutLog.cpp:19-26; the state is `numRemaining` and the object with what was pushed so far. -/
def metaStep (s : Int × CutLogObj α) (c : Nat) : Int × CutLogObj α :=
  (s.1 - c, { s.2 with
    remCounts := s.2.remCounts ++ [s.1 - c]
    cutPercent := s.2.cutPercent ++ [Fl.div ((c : α) * 100) (s.2.log.nEvents : α)]
    remPercent := s.2.remPercent ++ [Fl.div (((s.1 - c : Int) : α) * 100) (s.2.log.nEvents : α)] })

/-- src/cut/CutLog.cpp:8-27 -/
def calculateMeta (o : CutLogObj α) : CutLogObj α :=
  (o.log.counts.foldl metaStep ((o.log.nEvents : Int), { o with remCounts := [], cutPercent := [], remPercent := [] })).2

/-- One turn of the loop of src/cut/CutLog.cpp:90-110. -/
def row (o : CutLogObj α) (i : Nat) : Res (CutRow α) := do
  let n ← at_ o.log.names i
  let c ← at_ o.log.counts i
  let p ← at_ o.cutPercent i
  let r ← at_ o.remCounts i
  let q ← at_ o.remPercent i
  pure ⟨n, c, p, r, q⟩

/-- src/cut/CutLog.cpp:60-112: `none` is the empty string; the derived members of the object are recomputed. -/
def asString (o : CutLogObj α) : Res (Option (List (CutRow α)) × CutLogObj α) :=
  if o.log.counts.length = 0 then .ok (none, o)
  else do
    Res.throwIf (o.log.counts.length ≠ o.log.names.length) .logic
    let rows ← Res.traverse o.calculateMeta.row (List.range o.log.names.length)
    pure (some rows, o.calculateMeta)

/-- src/cut/CutLog.cpp:42-46 -/
def getCutCounts (o : CutLogObj α) : List Nat := o.log.counts

/-- src/cut/CutLog.cpp:48-52 -/
def getCutPercentages (o : CutLogObj α) : List (Fl α) := o.cutPercent

end CutLogObj

/-- One line of the summary of src/count/CountingResult.cpp:151-162. -/
structure SummaryRow (α : Type) where
  name : String
  rate : α
  error : α
  deriving DecidableEq, Repr

/-- What src/count/CountingResult.cpp:108-190 writes. -/
structure CountingReport (α : Type) where
  backgrounds : List (String × Option (List (CutRow α)))
  signal : String × Option (List (CutRow α))
  data : Option (List (CutRow α))
  summary : List (SummaryRow α)
  total : α
  totalError : α
  efficiency : α
  observed : Int

namespace CountingResult

/-- One turn of the loop of src/count/CountingResult.cpp:144-148. -/
def collectStep (r : CountingResult α) (s : List (String × α) × SMap α) (i : Nat) : Res (List (String × α) × SMap α) := do
  let n ← at_ r.bgNames i
  let x ← at_ r.rates i
  let e ← at_ r.rateErrors i
  pure (s.1 ++ [(n, x)], SMap.insert n e s.2)

/-- One turn of the loop of src/count/CountingResult.cpp:151-162: `sortedErrorsByName[name]` is 0 for a name not in the map. -/
def summaryRow (errs : SMap α) (p : String × α) : SummaryRow α := ⟨p.1, p.2, (SMap.find errs p.1).getD 0⟩

/-- src/count/CountingResult.cpp:142-162: `sort` stands for `std::sort` by decreasing rate. -/
def summary (sort : List (String × α) → List (String × α)) (r : CountingResult α) : Res (List (SummaryRow α)) := do
  let s ← Res.forFold r.collectStep ([], []) (List.range r.rates.length)
  pure ((sort s.1).map (summaryRow s.2))

/-- The text of the log of one background, src/count/CountingResult.cpp:113-120. The logs are copied when they are handed to the result, with
derived members which `AsString` computes anew: they start as empty here. -/
def tableOf (l : CutLog) : Res (Option (List (CutRow α))) :=
  CutLogObj.asString (⟨l, [], [], []⟩ : CutLogObj α) >>= fun t => Res.ok t.1

/-- One turn of the loop of src/count/CountingResult.cpp:113-120. -/
def backgroundPart (r : CountingResult α) (i : Nat) : Res (String × Option (List (CutRow α))) := do
  let n ← at_ r.bgNames i
  let l ← at_ r.bgLogs i
  let t ← tableOf l
  pure (n, t)

/-- src/count/CountingResult.cpp:108-190 -/
def asString (sort : List (String × α) → List (String × α)) (sqrt : α → α) (r : CountingResult α) : Res (CountingReport α) := do
  let bs ← Res.traverse r.backgroundPart (List.range r.bgLogs.length)
  let s ← tableOf r.sigLog
  let d ← tableOf r.dataLog
  let rows ← r.summary sort
  pure ⟨bs, (r.sigName, s), d, rows, r.expectedCounts, r.expectedCountError sqrt, r.sigEff, r.observed⟩

/-- src/count/CountingResult.cpp:23-26 -/
def setDataLog (r : CountingResult α) (l : CutLog) : CountingResult α := { r with dataLog := l }
/-- src/count/CountingResult.cpp:28-31 -/
def setObservedCounts (r : CountingResult α) (n : Int) : CountingResult α := { r with observed := n }
/-- src/count/CountingResult.cpp:60-65 -/
def setSignal (r : CountingResult α) (eff : α) (name : String) (l : CutLog) : CountingResult α := { r with sigName := name, sigLog := l, sigEff := eff }

end CountingResult
end Oxsx
