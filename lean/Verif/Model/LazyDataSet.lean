import Verif.Model.DataSet
/-
Model of src/data/LazyOXSXDataSet.{h,cpp}: several objects sharing the static registry `fFiles`.
Simplifications: objects are numbered; a call on an object that does not exist (destroyed or never made) is undefined
behaviour; `IO::LoadDataSet` (modelled on its own in Model/IO.lean) is an arbitrary function of the file name, the same
throughout (files do not change while the program runs). Leaked allocations (`operator=` on a loaded object) are not
tracked.
-/
namespace Oxsx

/-- src/data/LazyOXSXDataSet.h:36-37: file name and the loaded data (`none` for NULL). -/
structure LazyObj (α : Type) where
  file : String
  data : Option (DataSet α)
  deriving DecidableEq, Repr

/-- All the objects, and the static list `fFiles` (src/data/LazyOXSXDataSet.cpp:78). -/
structure LazyWorld (α : Type) where
  objs : Nat → Option (LazyObj α)
  registered : List Nat

namespace LazyWorld
variable {α : Type}

/-- No objects. -/
def start : LazyWorld α := ⟨fun _ => none, []⟩

def setObj (w : LazyWorld α) (i : Nat) (o : Option (LazyObj α)) : LazyWorld α :=
  { w with objs := fun j => if j = i then o else w.objs j }

/-- src/data/LazyOXSXDataSet.cpp:56-60 -/
def close (w : LazyWorld α) (i : Nat) : Res (LazyWorld α) :=
  match w.objs i with
  | none => .ub
  | some o => .ok (w.setObj i (some { o with data := none }))

/-- src/data/LazyOXSXDataSet.cpp:51-52 -/
def closeAll (w : LazyWorld α) : Res (LazyWorld α) := Res.forFold (fun w i => close w i) w w.registered

/-- src/data/LazyOXSXDataSet.cpp:49-54. The first component is the state left behind even if loading throws. -/
def load (files : String → Res (DataSet α)) (w : LazyWorld α) (i : Nat) : Res (LazyWorld α × Res (DataSet α)) :=
  match w.closeAll with
  | .ok w' =>
    match w'.objs i with
    | none => .ub
    | some o =>
      match files o.file with
      | .ok d => .ok (w'.setObj i (some { o with data := some d }), .ok d)
      | .throw e => .ok (w', .throw e)
      | .ub => .ub
  | .throw e => .throw e
  | .ub => .ub

/-- The common prefix of the accessors, src/data/LazyOXSXDataSet.cpp:28-29, 36-37, 44-45, 74-75. -/
def ensure (files : String → Res (DataSet α)) (w : LazyWorld α) (i : Nat) : Res (LazyWorld α × Res (DataSet α)) :=
  match w.objs i with
  | none => .ub
  | some o =>
    match o.data with
    | some d => .ok (w, .ok d)
    | none => load files w i

/-- src/data/LazyOXSXDataSet.cpp:72-77 -/
def getEntry (files : String → Res (DataSet α)) (w : LazyWorld α) (i k : Nat) : Res (LazyWorld α × Res (Event α)) := do
  let r ← ensure files w i
  pure (r.1, r.2 >>= fun d => d.getEntry k)

/-- src/data/LazyOXSXDataSet.cpp:25-31 -/
def getNEntries (files : String → Res (DataSet α)) (w : LazyWorld α) (i : Nat) : Res (LazyWorld α × Res Nat) := do
  let r ← ensure files w i
  pure (r.1, r.2 >>= fun d => .ok d.getNEntries)

/-- src/data/LazyOXSXDataSet.h:16 with Register (.cpp:62-65). `i` is a fresh object. -/
def construct (w : LazyWorld α) (i : Nat) (file : String) : LazyWorld α :=
  { w.setObj i (some ⟨file, none⟩) with registered := w.registered ++ [i] }

/-- src/data/LazyOXSXDataSet.cpp:11-15: the copy `i` of `j` is not registered. -/
def copy (w : LazyWorld α) (i j : Nat) : Res (LazyWorld α) :=
  match w.objs j with
  | none => .ub
  | some o => .ok (w.setObj i (some ⟨o.file, none⟩))

/-- src/data/LazyOXSXDataSet.cpp:17-23 -/
def assign (w : LazyWorld α) (i j : Nat) : Res (LazyWorld α) :=
  match w.objs i, w.objs j with
  | some _, some o => .ok (w.setObj i (some ⟨o.file, none⟩))
  | _, _ => .ub

/-- src/data/LazyOXSXDataSet.cpp:67-70 -/
def deregister (w : LazyWorld α) (i : Nat) : LazyWorld α := { w with registered := w.registered.filter (· ≠ i) }

/-- src/data/LazyOXSXDataSet.cpp:5-9 -/
def destroy (w : LazyWorld α) (i : Nat) : Res (LazyWorld α) :=
  match w.objs i with
  | none => .ub
  | some _ => .ok ((w.setObj i none).deregister i)

end LazyWorld
end Oxsx
