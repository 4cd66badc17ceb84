import Verif.Model.Histogram
import Verif.Model.Parameters
import Verif.Model.Matrix
/-
Model of src/optimise/FitResult.{h,cpp}: the stored statistic space is owned through a raw pointer, so the heap is modelled.
-/
namespace Oxsx

/-- The statistic spaces allocated with `new`, by address; `none` once deleted. -/
abbrev SpaceHeap (α : Type) := List (Option (Histogram α))

/-- src/optimise/FitResult.h:55-67. `printPrecision` is `none` while it is indeterminate. -/
structure FitResult (α : Type) where
  bestFit : ParamDict α
  statSample : List (List α)
  statSpace : Option Nat
  proj1 : SMap (Histogram α)
  proj2 : SMap (Histogram α)
  extremeVal : α
  covariance : Matrix' α
  printPrecision : Option Nat
  isValid : Bool

namespace FitResult
variable {α : Type} [Field α] [LinearOrder α]

/-- src/optimise/FitResult.h:19 -/
def new : FitResult α := ⟨[], [], none, [], [], 0, ⟨0, 0, .zeros 0 0⟩, some 5, true⟩

/-- `new Histogram(h)`. -/
def alloc (hp : SpaceHeap α) (h : Histogram α) : SpaceHeap α × Nat := (hp ++ [some h], hp.length)

/-- Reading `*p`: undefined for a null pointer and for a deleted object. -/
def deref (hp : SpaceHeap α) (p : Option Nat) : Res (Histogram α) :=
  match p with
  | none => .ub
  | some a =>
    match hp[a]? with
    | some (some h) => .ok h
    | _ => .ub

/-- src/optimise/FitResult.cpp:11-14: `delete` of a null pointer does nothing, of a deleted object is undefined. -/
def destroy (hp : SpaceHeap α) (r : FitResult α) : Res (SpaceHeap α) :=
  match r.statSpace with
  | none => .ok hp
  | some a =>
    match hp[a]? with
    | some (some _) => .ok (hp.set a none)
    | _ => .ub

/-- src/optimise/FitResult.cpp:27-30: the old object is not deleted. -/
def setStatSpace (hp : SpaceHeap α) (r : FitResult α) (h : Histogram α) : SpaceHeap α × FitResult α :=
  ((alloc hp h).1, { r with statSpace := some (alloc hp h).2 })

/-- src/optimise/FitResult.cpp:32-36 -/
def getStatSpace (hp : SpaceHeap α) (r : FitResult α) : Res (Histogram α) := deref hp r.statSpace

/-- src/optimise/FitResult.cpp:55-69: `printPrecision` is left uninitialised. -/
def copy (hp : SpaceHeap α) (o : FitResult α) : Res (SpaceHeap α × FitResult α) :=
  match o.statSpace with
  | none => .ok (hp, { o with printPrecision := none })
  | some _ => deref hp o.statSpace >>= fun h => Res.ok ((alloc hp h).1, { o with statSpace := some (alloc hp h).2, printPrecision := none })

/-- src/optimise/FitResult.cpp:41-44: the test is on the assigned-to object's own pointer. -/
def assignSpace (hp : SpaceHeap α) (r o : FitResult α) : Res (SpaceHeap α × Option Nat) :=
  match r.statSpace with
  | none => .ok (hp, none)
  | some _ => deref hp o.statSpace >>= fun h => Res.ok ((alloc hp h).1, some (alloc hp h).2)

/-- src/optimise/FitResult.cpp:38-53. The copy returned by value is made and destroyed as well (lines 52, 11-14). -/
def assign (hp : SpaceHeap α) (r o : FitResult α) : Res (SpaceHeap α × FitResult α) :=
  assignSpace hp r o >>= fun p =>
    let r' : FitResult α := { o with statSpace := p.2, printPrecision := r.printPrecision }
    copy p.1 r' >>= fun t => destroy t.1 t.2 >>= fun hp' => Res.ok (hp', r')

/-- src/optimise/FitResult.cpp:148-152; reading an indeterminate value is undefined. -/
def getPrintPrecision (r : FitResult α) : Res Nat :=
  match r.printPrecision with
  | none => .ub
  | some n => .ok n

/-- src/optimise/FitResult.cpp:143-146 -/
def setPrintPrecision (r : FitResult α) (n : Nat) : FitResult α := { r with printPrecision := some n }

end FitResult
end Oxsx
