import Verif.Model.Event
import Mathlib.Algebra.Order.Field.Basic
/-
Model of src/cut/: BoxCut, LineCut, BoolCut, CutCollection, CutLog.
Simplifications: the text produced by `CutLog::AsString` is in Model/Reports.lean;
`int` counters do not overflow.
-/
namespace Oxsx
variable {α : Type}

/-- The three concrete cuts (src/cut/BoxCut.h, src/cut/LineCut.h:28-33, src/cut/BoolCut.h). -/
inductive Cut (α : Type) where
  | box (name obs : String) (lower upper : α)
  | line (name obs : String) (val : α) (side : String)
  | bool (name obs : String) (val : α)
  deriving DecidableEq, Repr

namespace Cut

/-- src/cut/LineCut.cpp:48-54 `SetSidedness`, on the side string -/
def checkSide (side : String) : Res String :=
  if side = "upper" ∨ side = "lower" then .ok side else .throw .value

/-- src/cut/LineCut.cpp:5-12: the constructor validates the side. -/
def mkLine (name obs : String) (val : α) (side : String) : Res (Cut α) := do
  let s ← checkSide side
  pure (.line name obs val s)

/-- src/cut/LineCut.cpp:48-54 as a method of an existing line cut (no such method on the other cuts). -/
def setSidedness (c : Cut α) (side : String) : Res (Cut α) :=
  match c with
  | .line n o v _ => do
    let s ← checkSide side
    pure (.line n o v s)
  | c => .ok c

/-- `GetName`: src/cut/BoxCut.cpp:24-28, src/cut/LineCut.cpp:62-66, src/cut/BoolCut.cpp:25-29 -/
def getName : Cut α → String
  | box n _ _ _ => n
  | line n _ _ _ => n
  | bool n _ _ => n

/-- `PassesCut`: src/cut/BoxCut.cpp:4-17, src/cut/LineCut.cpp:19-35, src/cut/BoolCut.cpp:5-18
(the `NotFoundError` is caught and rethrown with another message). -/
def passesCut [LinearOrder α] (c : Cut α) (e : Event α) : Res Bool :=
  match c with
  | box _ obs lo hi => do
    let v ← e.getDatumByName obs
    pure (decide (v < hi) && decide (v > lo))
  | line _ obs x side => do
    let v ← e.getDatumByName obs
    pure (if side = "lower" then decide (v > x) else decide (v < x))
  | bool _ obs x => do
    let v ← e.getDatumByName obs
    pure (decide (v = x))

end Cut

/-- src/cut/CutLog.h:28-34; the derived fields `fRemainderCounts`, `f*Percentages` are computed by `calculateMeta`. -/
structure CutLog where
  counts : List Nat
  names : List String
  nEvents : Nat
  deriving DecidableEq, Repr

namespace CutLog

/-- src/cut/CutLog.h:10 -/
def ofNames (ns : List String) : CutLog := ⟨List.replicate ns.length 0, ns, 0⟩

/-- src/cut/CutLog.cpp:29-32 -/
def logPass (l : CutLog) : CutLog := { l with nEvents := l.nEvents + 1 }

/-- src/cut/CutLog.cpp:34-40 -/
def logCut (l : CutLog) (i : Nat) : Res CutLog :=
  match l.counts[i]? with
  | none => .throw .notFound
  | some n => .ok { l with counts := l.counts.set i (n + 1), nEvents := l.nEvents + 1 }

/-- The running subtraction of src/cut/CutLog.cpp:18-26. -/
def remainders : Int → List Nat → List Int
  | _, [] => []
  | rem, c :: cs => (rem - c) :: remainders (rem - c) cs

/-- src/cut/CutLog.cpp:8-27, remainder counts: `numRemaining` starts at the number of events. -/
def remainderCounts (l : CutLog) : List Int := remainders l.nEvents l.counts

/-- src/cut/CutLog.cpp:24: percentage cut by each cut. -/
def cutPercentages [Field α] (l : CutLog) : List α := l.counts.map (fun (c : Nat) => (c : α) * 100 / (l.nEvents : α))

/-- src/cut/CutLog.cpp:25 -/
def remainderPercentages [Field α] (l : CutLog) : List α :=
  l.remainderCounts.map (fun (r : Int) => (r : α) * 100 / (l.nEvents : α))

end CutLog

/-- src/cut/CutCollection.h:25: the owned cuts (deep copies: l.28-31, 41-59). -/
abbrev CutCollection (α : Type) := List (Cut α)

namespace CutCollection

/-- src/cut/CutCollection.cpp:28-31 -/
def addCut (cs : CutCollection α) (c : Cut α) : CutCollection α := cs ++ [c]

/-- src/cut/CutCollection.cpp:61-68 -/
def getCutNames (cs : CutCollection α) : List String := cs.map Cut.getName

/-- src/cut/CutCollection.cpp:8-14 -/
def passesCuts [LinearOrder α] : CutCollection α → Event α → Res Bool
  | [], _ => .ok true
  | c :: cs, e => do
    let b ← c.passesCut e
    if b then passesCuts cs e else pure false

/-- src/cut/CutCollection.cpp:16-26; `i` is the loop counter. -/
def passesCutsLogFrom [LinearOrder α] (i : Nat) : CutCollection α → Event α → CutLog → Res (Bool × CutLog)
  | [], _, log => .ok (true, log.logPass)
  | c :: cs, e, log => do
    let b ← c.passesCut e
    if b then passesCutsLogFrom (i + 1) cs e log
    else do
      let log' ← log.logCut i
      pure (false, log')

/-- src/cut/CutCollection.cpp:16-26 -/
def passesCutsLog [LinearOrder α] (cs : CutCollection α) (e : Event α) (log : CutLog) : Res (Bool × CutLog) :=
  passesCutsLogFrom 0 cs e log

/-- The client loop over a data set (e.g. src/dist/DistFiller.cpp): one logged test per event. -/
def runAll [LinearOrder α] (cs : CutCollection α) (log : CutLog) : List (Event α) → Res (List Bool × CutLog)
  | [] => .ok ([], log)
  | e :: es => do
    let r ← passesCutsLog cs e log
    let r' ← runAll cs r.2 es
    pure (r.1 :: r'.1, r'.2)

end CutCollection
end Oxsx
