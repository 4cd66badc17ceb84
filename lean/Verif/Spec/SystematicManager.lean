import Verif.Model.SystematicManager
/-
Specification of systematic registration: what the accepted calls say, in terms of the calls only.
-/
namespace Oxsx
variable {α : Type} [Field α] [LinearOrder α] {σ : Type}

/-- A registration call: `Add(p)`, `Add(p, g)`, `AddDist(d, gs)`. -/
inductive ManagerCall where
  | add (p : Nat)
  | addTo (p : Nat) (g : String)
  | addDist (d : String) (gs : List String)
  deriving DecidableEq

namespace ManagerCall

/-- The systematic and the group of an adding call; the empty group name is the global group. -/
def added? : ManagerCall → Option (Nat × String)
  | add p => some (p, "")
  | addTo p g => some (p, g)
  | addDist _ _ => none

end ManagerCall

namespace SysLog

/-- Every systematic added so far, once per time it was added, in the order of the calls. -/
def added (log : List ManagerCall) : List Nat := log.filterMap (fun c => c.added?.map (·.1))

/-- The systematics added to group `g`, in the order added. -/
def members (log : List ManagerCall) (g : String) : List Nat :=
  log.filterMap (fun c => c.added?.bind (fun x => if x.2 = g then some x.1 else none))

/-- The groups given in the latest `AddDist` of a distribution. -/
def assigned : List ManagerCall → String → Option (List String)
  | [], _ => none
  | c :: log, d =>
    match assigned log d with
    | some gs => some gs
    | none => match c with
      | .addDist d' gs => if d' = d then some gs else none
      | _ => none

/-- A group exists if it is the global one or something was added to it. -/
def Known (log : List ManagerCall) (g : String) : Prop := g = "" ∨ members log g ≠ []

instance (log : List ManagerCall) (g : String) : Decidable (Known log g) := by unfold Known; infer_instance

/-- The systematics which act on a distribution assigned to groups `gs`, in the order they act: the global group first
(unless listed), then the listed groups in order. -/
def acting (log : List ManagerCall) (gs : List String) : List Nat :=
  (if "" ∈ gs then [] else members log "") ++ gs.flatMap (members log)

/-- When the manager accepts a call. `Add` to the global group: the new name and the names of all systematics added before, to
any group, must all be different. `AddDist`: all groups exist and no name occurs twice in the groups and the global group
together. -/
def Accepts (name : Nat → String) (log : List ManagerCall) : ManagerCall → Prop
  | .add p => ((p :: added log).map name).Nodup
  | .addTo p g => g = "" → ((p :: added log).map name).Nodup
  | .addDist _ gs => (∀ g ∈ gs, Known log g) ∧
      ((gs.flatMap (members log) ++ if gs = [""] then [] else members log "").map name).Nodup

instance (name : Nat → String) (log : List ManagerCall) (c : ManagerCall) : Decidable (Accepts name log c) := by
  cases c <;> unfold Accepts <;> infer_instance

/-- The accepted calls among the calls made. -/
def ofCalls (name : Nat → String) (calls : List ManagerCall) : List ManagerCall :=
  calls.foldl (fun log c => if Accepts name log c then log ++ [c] else log) []

end SysLog

/-- Applying matrices one after the other, first of the list first. -/
def applyInOrder (ms : List (Matrix' α)) (v : List α) : Res (List α) :=
  Res.forFold (fun (v : List α) (m : Matrix' α) => m.apply v) v ms

namespace SysManager

/-- One registration call on the manager. -/
def exec (name : Nat → String) (m : SysManager α) : ManagerCall → Res (SysManager α)
  | .add p => m.add name p
  | .addTo p g => m.addTo name p g
  | .addDist d gs => m.addDist name d gs

/-- A sequence of calls on a new manager; a call that throws leaves it as it was. -/
def run (name : Nat → String) (calls : List ManagerCall) : SysManager α :=
  calls.foldl (fun m c => match m.exec name c with
    | .ok m' => m'
    | _ => m) .new

end SysManager
end Oxsx
