import Verif.Basic
import Mathlib.Logic.Function.Basic
/-
Model of the classes that own objects through plain pointers: what their constructors, copies, assignments, setters and destructors do to
the memory. An object is the list of the pointers it holds; what they point at is a value `V` (itself cloned as a whole by its virtual
`Clone`, see the policies below). `delete` of, or access through, a pointer that is not live is undefined.
A temporary returned by value from `operator=` (JumpPDF, EventConvolution) is a copy destroyed at once and is left out.
-/
namespace Oxsx

/-- The free store: what is live at each address, and the next fresh address. -/
structure FreeStore (V : Type) where
  cell : Nat → Option V
  next : Nat

namespace FreeStore
variable {V : Type}

/-- Nothing allocated. -/
def empty : FreeStore V := ⟨fun _ => none, 0⟩

/-- `new` -/
def alloc (h : FreeStore V) (v : V) : Nat × FreeStore V := (h.next, ⟨Function.update h.cell h.next (some v), h.next + 1⟩)

/-- Access through a pointer. -/
def read (h : FreeStore V) (a : Nat) : Res V :=
  match h.cell a with
  | some v => .ok v
  | none => .ub

/-- Change through a pointer. -/
def write (h : FreeStore V) (a : Nat) (v : V) : Res (FreeStore V) :=
  match h.cell a with
  | some _ => .ok { h with cell := Function.update h.cell a (some v) }
  | none => .ub

/-- `delete` -/
def free (h : FreeStore V) (a : Nat) : Res (FreeStore V) :=
  match h.cell a with
  | some _ => .ok { h with cell := Function.update h.cell a none }
  | none => .ub

/-- `delete` of every pointer of a vector. -/
def freeAll : FreeStore V → List Nat → Res (FreeStore V)
  | h, [] => .ok h
  | h, a :: as => h.free a >>= fun h => freeAll h as

/-- `Clone` of everything a vector points at, in order. -/
def cloneAll : FreeStore V → List Nat → Res (List Nat × FreeStore V)
  | h, [] => .ok ([], h)
  | h, a :: as => h.read a >>= fun v => cloneAll (h.alloc v).2 as >>= fun r => .ok ((h.alloc v).1 :: r.1, r.2)

/-- Access through every pointer of a vector. -/
def readAll : FreeStore V → List Nat → Res (List V)
  | _, [] => .ok []
  | h, a :: as => h.read a >>= fun v => readAll h as >>= fun vs => .ok (v :: vs)

end FreeStore

/-- What the copy constructor or the assignment of a class does with the pointers. -/
inductive CopyKind where
  /-- clones what the other object points at, after deleting its own -/
  | cloneFreeing
  /-- clones what the other object points at, forgetting its own -/
  | cloneForgetting
  /-- takes over the pointers themselves (what the compiler generates) -/
  | pointers
  deriving DecidableEq

/-- How a class treats the pointers it owns. -/
structure OwnerClass where
  copyDeep : Bool
  assign : CopyKind
  /-- the setter of a single owned object deletes the old one -/
  setFrees : Bool

namespace OwnerClass

/-- src/cut/CutCollection.cpp:33-60 -/
def cutCollection : OwnerClass := ⟨true, .cloneFreeing, true⟩

/-- src/dist/AnalyticED.cpp:13-24: a copy constructor, the compiler's assignment (src/dist/AnalyticED.h:11-15). -/
def analyticED : OwnerClass := ⟨true, .pointers, true⟩

/-- src/dist/CompositeED.cpp:26-30: the compiler's copy and assignment (src/dist/CompositeED.h:16-38). -/
def compositeED : OwnerClass := ⟨false, .pointers, true⟩

/-- src/fitutil/EDManager.cpp:6-10: the compiler's copy and assignment (src/fitutil/EDManager.h:10-49). -/
def edManager : OwnerClass := ⟨false, .pointers, true⟩

/-- src/systematic/Convolution.cpp:8-24: the compiler's copy and assignment; `SetFunction`, `SetConditionalPDF` delete the old kernel. -/
def convolution : OwnerClass := ⟨false, .pointers, true⟩

/-- src/function/JumpPDF.cpp:11-46 -/
def jumpPDF : OwnerClass := ⟨true, .cloneForgetting, true⟩

/-- src/eventSystematic/EventConvolution.cpp:13-65: `SetPDF`, `SetConditionalPDF` forget the old kernel. -/
def eventConvolution : OwnerClass := ⟨true, .cloneForgetting, false⟩

/-- The functions of src/function/VaryingCDF.cpp:26-49, 78-81: cloned when added, deleted by the destructor, but the pointers themselves
are taken over by the copy constructor (hence by `Clone`) and the assignment. Its kernel, cloned by both, is not part of this model. -/
def varyingCDF : OwnerClass := ⟨false, .pointers, false⟩

end OwnerClass

/-- What a program does with objects of the class, which it knows by number. -/
inductive OwnCall (V : Type) where
  | construct (o : Nat)
  | add (o : Nat) (v : V)
  | set (o : Nat) (v : V)
  | modify (o i : Nat) (v : V)
  | look (o : Nat)
  | copy (o src : Nat)
  | assign (o src : Nat)
  | destroy (o : Nat)

/-- The store and the objects alive, each the list of its pointers. -/
structure OwnState (V : Type) where
  store : FreeStore V
  objs : Nat → Option (List Nat)

namespace OwnState
variable {V : Type}

/-- The beginning of the program. -/
def start : OwnState V := ⟨.empty, fun _ => none⟩

/-- The pointers of an object that is alive. -/
def get (s : OwnState V) (o : Nat) : Res (List Nat) :=
  match s.objs o with
  | some l => .ok l
  | none => .ub

/-- Give object `o` the pointers `l`, in store `h`. -/
def put (s : OwnState V) (h : FreeStore V) (o : Nat) (l : List Nat) : OwnState V := ⟨h, Function.update s.objs o (some l)⟩

/-- A constructor needs an object that is not alive yet. -/
def unused (s : OwnState V) (o : Nat) : Res Unit :=
  match s.objs o with
  | some _ => .ub
  | none => .ok ()

/-- One call; `look` returns what the object's pointers point at, in order.
construct: empty vector or NULL (src/cut/CutCollection.h:12, src/fitutil/EDManager.h:13, src/systematic/Convolution.h:20,
src/eventSystematic/EventConvolution.h:15, src/function/JumpPDF.h:12). add: src/cut/CutCollection.cpp:28-31, src/fitutil/EDManager.cpp:21,
src/dist/CompositeED.cpp:8-9, 18, src/dist/AnalyticED.cpp:9, src/function/JumpPDF.cpp:15, src/function/VaryingCDF.cpp:80.
set: src/systematic/Convolution.cpp:8-19, src/eventSystematic/EventConvolution.cpp:45-65. modify: any setter forwarded to what is owned,
for example src/function/JumpPDF.cpp:132-138, src/dist/CompositeED.cpp:41-45. look: any reading of what is owned, for example
src/cut/CutCollection.cpp:8-14. copy, assign, destroy: see the classes above. -/
def step (P : OwnerClass) (s : OwnState V) : OwnCall V → Res (OwnState V × Option (List V))
  | .construct o => s.unused o >>= fun _ => .ok (s.put s.store o [], none)
  | .add o v => s.get o >>= fun l => .ok (s.put (s.store.alloc v).2 o (l ++ [(s.store.alloc v).1]), none)
  | .set o v => s.get o >>= fun l => (if P.setFrees then s.store.freeAll l else .ok s.store) >>= fun h =>
      .ok (s.put (h.alloc v).2 o [(h.alloc v).1], none)
  | .modify o i v => s.get o >>= fun l => idx l i >>= fun a => s.store.write a v >>= fun h => .ok (s.put h o l, none)
  | .look o => s.get o >>= fun l => s.store.readAll l >>= fun vs => .ok (s, some vs)
  | .copy o src => s.unused o >>= fun _ => s.get src >>= fun l =>
      if P.copyDeep then s.store.cloneAll l >>= fun r => .ok (s.put r.2 o r.1, none) else .ok (s.put s.store o l, none)
  | .assign o src => s.get o >>= fun l => s.get src >>= fun k =>
      match P.assign with
      | .pointers => .ok (s.put s.store o k, none)
      | .cloneForgetting => s.store.cloneAll k >>= fun r => .ok (s.put r.2 o r.1, none)
      | .cloneFreeing => s.store.freeAll l >>= fun h => (s.put h o []).get src >>= fun k =>
          h.cloneAll k >>= fun r => .ok (s.put r.2 o r.1, none)
  | .destroy o => s.get o >>= fun l => s.store.freeAll l >>= fun h => .ok (⟨h, Function.update s.objs o none⟩, none)

/-- A program: the state left and what was looked at. -/
def run (P : OwnerClass) : OwnState V → List (OwnCall V) → Res (OwnState V × List (List V))
  | s, [] => .ok (s, [])
  | s, c :: cs => s.step P c >>= fun r => run P r.1 cs >>= fun q => .ok (q.1, r.2.toList ++ q.2)

end OwnState
end Oxsx
