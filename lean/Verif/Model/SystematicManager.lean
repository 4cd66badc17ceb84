import Verif.Model.Systematic
/-
Model of src/fitutil/SystematicManager.{h,cpp}. Systematics are held by pointer: a pointer is a number, `name p` is what
`GetName()` of the object returns, and the objects themselves live in a heap `Nat → σ`. What the manager uses of an object is
its response and its `Construct()`. An exception in the middle of a call returns the exception only. Printing is not modelled.
-/
namespace Oxsx
variable {α : Type} [Field α] [LinearOrder α] {σ : Type}

/-- The part of src/systematic/Systematic.h:21-40 the manager calls. -/
structure SysClass (σ α : Type) where
  response : σ → Matrix' α
  construct : σ → Res σ

/-- src/fitutil/SystematicManager.h:59-64. `nGroups = none`: `fNGroups` is not initialised by the constructor. -/
structure SysManager (α : Type) where
  groups : SMap (List Nat)
  responses : SMap (Matrix' α)
  edGroups : SMap (List String)
  nGroups : Option Nat

namespace SysManager

/-- src/fitutil/SystematicManager.h:24-28 -/
def new : SysManager α := ⟨[("", [])], [], [], none⟩

/-- `fGroups.at(g)` -/
def groupAt (m : SysManager α) (g : String) : Res (List Nat) :=
  match SMap.find m.groups g with
  | some l => .ok l
  | none => .throw .outOfRange

/-- The `find` / `insert` / `throw` loop of src/fitutil/SystematicManager.cpp:79-85 and 90-98: adds each name to the set,
throws `e` at the first name already there. -/
def insertUnique (e : Exc) : List String → List String → Res (List String)
  | seen, [] => .ok seen
  | seen, n :: ns => if n ∈ seen then .throw e else insertUnique e (n :: seen) ns

/-- src/fitutil/SystematicManager.cpp:75-100 -/
def checkAllOtherGroups (name : Nat → String) (m : SysManager α) (p : Nat) : Res Unit := do
  let gl ← m.groupAt ""
  let seen ← insertUnique .notFound [name p] (gl.map name)
  let _ ← Res.forFold (fun (seen : List String) (g : String × List Nat) =>
    if g.1 = "" then pure seen else insertUnique .notFound seen (g.2.map name)) seen m.groups
  pure ()

/-- `fGroups[g].push_back(p); fNGroups = fGroups.size()` -/
def push (m : SysManager α) (p : Nat) (g : String) : SysManager α :=
  let gs := m.groups.insert g (((SMap.find m.groups g).getD []) ++ [p])
  { m with groups := gs, nGroups := some gs.length }

/-- src/fitutil/SystematicManager.cpp:68-73 -/
def add (name : Nat → String) (m : SysManager α) (p : Nat) : Res (SysManager α) := do
  m.checkAllOtherGroups name p
  pure (m.push p "")

/-- src/fitutil/SystematicManager.cpp:56-66 -/
def addTo (name : Nat → String) (m : SysManager α) (p : Nat) (g : String) : Res (SysManager α) :=
  if g = "" then m.add name p else pure (m.push p g)

/-- The inner loop of src/fitutil/SystematicManager.cpp:111-117 for the `i`-th group: the error message itself reads
`group.at(i)`, with the index of the group, so it may throw `std::out_of_range` instead. -/
def insertGroup (size i : Nat) : List String → List String → Res (List String)
  | seen, [] => .ok seen
  | seen, n :: ns =>
    if n ∈ seen then (if i < size then .throw .notFound else .throw .outOfRange)
    else insertGroup size i (n :: seen) ns

/-- One iteration of src/fitutil/SystematicManager.cpp:105-118. -/
def uniqueStep (name : Nat → String) (m : SysManager α) (seen : List String) (g : String × Nat) : Res (List String) :=
  match SMap.find m.groups g.1 with
  | none => .throw .notFound
  | some l => insertGroup l.length g.2 seen (l.map name)

/-- src/fitutil/SystematicManager.cpp:102-132 -/
def uniqueSystematics (name : Nat → String) (m : SysManager α) (syss : List String) : Res Unit := do
  let seen ← Res.forFold (m.uniqueStep name) [] syss.zipIdx
  if syss = [""] then pure ()
  else do
    let _ ← insertUnique .notFound seen (((SMap.find m.groups "").getD []).map name)
    pure ()

/-- src/fitutil/SystematicManager.cpp:134-139 (l.140-143 calls it with one group). Only the distribution's name is used. -/
def addDist (name : Nat → String) (m : SysManager α) (dist : String) (syss : List String) : Res (SysManager α) := do
  m.uniqueSystematics name syss
  pure { m with edGroups := m.edGroups.insert dist syss }

/-- src/fitutil/SystematicManager.cpp:265-278 -/
def countSystematics (m : SysManager α) : Nat := (m.groups.map (fun g => g.2.length)).sum

/-- src/fitutil/SystematicManager.cpp:16-23: `Construct()` on every member of every group. -/
def constructAll (C : SysClass σ α) (m : SysManager α) (h : Nat → σ) : Res (Nat → σ) :=
  Res.forFold (fun (h : Nat → σ) (g : String × List Nat) =>
    Res.forFold (fun (h : Nat → σ) p => do
      let s ← C.construct (h p)
      pure (Function.update h p s)) h g.2) h m.groups

/-- src/fitutil/SystematicManager.cpp:32-37: the product of the responses of one group. -/
def groupResponse (C : SysClass σ α) (h : Nat → σ) (ps : List Nat) : Res (Matrix' α) := do
  let p ← at_ ps 0
  Res.forFold (fun (resp : Matrix' α) q => (C.response (h q)).mulAssign resp) (C.response (h p)) (ps.drop 1)

/-- src/fitutil/SystematicManager.cpp:9-40 -/
def construct (C : SysClass σ α) (m : SysManager α) (h : Nat → σ) : Res (SysManager α × (Nat → σ)) :=
  if m.countSystematics = 0 then pure (m, h)
  else do
    let h ← m.constructAll C h
    let rs ← Res.forFold (fun (rs : SMap (Matrix' α)) (g : String × List Nat) =>
      if g.1 = "" ∧ g.2.length = 0 then pure rs
      else do
        let r ← groupResponse C h g.2
        pure (rs.insert g.1 r)) m.responses m.groups
    pure ({ m with responses := rs }, h)

/-- src/fitutil/SystematicManager.cpp:42-54 -/
def getTotalResponse (m : SysManager α) (g : String) : Res (Matrix' α) :=
  match SMap.find m.responses g with
  | some r => .ok r
  | none => .throw .notFound

/-- `WorkingEDs_[j].SetBinContents(GetTotalResponse(g)(WorkingEDs_.at(j).GetBinContents()))`:
src/fitutil/SystematicManager.cpp:162, 178 -/
def applyGroup (m : SysManager α) (w : BinnedED α) (g : String) : Res (BinnedED α) := do
  let r ← m.getTotalResponse g
  let v ← r.apply w.hist.contents
  let h ← w.hist.setBinContents v
  pure { w with hist := h }

/-- src/fitutil/SystematicManager.cpp:156-179: one registered distribution. -/
def distort (m : SysManager α) (orig : BinnedED α) (gs : List String) : Res (BinnedED α) := do
  let gl ← m.groupAt ""
  let w ← (if "" ∉ gs ∧ gl.length ≠ 0 then m.applyGroup orig "" else pure orig)
  Res.forFold (fun (w : BinnedED α) g =>
    if g = "" ∧ gl.length = 0 then pure w
    else do
      let l ← m.groupAt g
      Res.throwIf (l.length = 0) .logic
      m.applyGroup w g) w gs

/-- src/fitutil/SystematicManager.cpp:145-185. `norms = none` is the null pointer. -/
def distortEDs (m : SysManager α) (orig work : List (BinnedED α)) (norms : Option (List α)) :
    Res (List (BinnedED α) × Option (List α)) :=
  Res.forFold (fun (s : List (BinnedED α) × Option (List α)) j => do
    let o ← at_ orig j
    match SMap.find m.edGroups o.name with
    | none => pure s
    | some gs => do
      let w ← m.distort o gs
      let work ← setIdx s.1 j w
      match s.2 with
      | none => pure (work, none)
      | some ns => do
        let ns ← setIdx ns j w.hist.integral
        pure (work, some ns)) (work, norms) (List.range work.length)

/-- src/fitutil/SystematicManager.cpp:189-200: `find(name)->second` of a missing group dereferences `end()`. -/
def getNSystematicsInGroup (m : SysManager α) (g : String) : Res Nat :=
  match SMap.find m.groups g with
  | some l => .ok l.length
  | none => .ub

/-- src/fitutil/SystematicManager.cpp:202-206 -/
def getGroupNames (m : SysManager α) : List String := m.groups.keys

/-- src/fitutil/SystematicManager.cpp:208-225, 246-257 -/
def getSystematicsNamesInGroup (name : Nat → String) (m : SysManager α) (g : String) : Res (List String) :=
  match SMap.find m.groups g with
  | some l => .ok (l.map name)
  | none => .throw .notFound

/-- src/fitutil/SystematicManager.cpp:280-284: reading an uninitialised member before the first `Add` is undefined. -/
def getNGroups (m : SysManager α) : Res Nat :=
  match m.nGroups with
  | some n => .ok n
  | none => .ub

end SysManager
end Oxsx
