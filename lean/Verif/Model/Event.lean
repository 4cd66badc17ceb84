import Verif.Map
import Verif.Model.Histogram
/-
Model of src/data/ObsSet.{h,cpp}, src/data/Event.{h,cpp} and of the parts of src/dist/BinnedED.{h,cpp} which
are more than a forward to the histogram.
-/
namespace Oxsx

/-- src/data/ObsSet.h:35-36: names and the cached inverse map. -/
structure ObsSet where
  names : List String
  inverse : SMap Nat
  deriving DecidableEq, Repr

namespace ObsSet

/-- src/data/ObsSet.cpp:21-27 (and the constructors l.5-13): a repeated name keeps its last position in the
inverse map. -/
def ofNames (names : List String) : ObsSet :=
  ⟨names, names.zipIdx.foldl (fun (m : SMap Nat) p => m.insert p.1 p.2) []⟩

/-- src/data/ObsSet.cpp:29-33: `map::at` -/
def getIndex (o : ObsSet) (n : String) : Res Nat :=
  match o.inverse.find n with
  | some i => .ok i
  | none => .throw .outOfRange

/-- src/data/ObsSet.cpp:41-56 -/
def getRelativeIndices (o other : ObsSet) : Res (List Nat) :=
  if other.names.length < o.names.length then .throw .representation
  else Res.traverse other.getIndex o.names

end ObsSet

/-- src/data/Event.h:42-44. `names = none` is the NULL pointer of a fresh event; the pointed-to vector (owned by
the data set) is represented by its value. -/
structure Event (α : Type) where
  obs : List α
  names : Option (List String)
  deriving DecidableEq, Repr

namespace Event
variable {α : Type}

/-- src/data/Event.cpp:9-14 -/
def ofData (obs : List α) : Event α := ⟨obs, none⟩

/-- src/data/Event.cpp:28-40 -/
def getDatum (e : Event α) (i : Nat) : Res α :=
  (at_ e.obs i).mapExc (fun x => if x = .outOfRange then .notFound else x)

/-- src/data/Event.cpp:42-53: `fObservations[index_]` is unchecked, the `catch` can never run. -/
def setDatum (e : Event α) (i : Nat) (v : α) : Res (Event α) := do
  let o ← setIdx e.obs i v
  pure { e with obs := o }

/-- src/data/Event.cpp:66-76: dereferences the names pointer without checking it. -/
def getDatumByName (e : Event α) (n : String) : Res α :=
  match e.names with
  | none => .ub
  | some ns =>
    match findPos ns n with
    | none => .throw .notFound
    | some i => e.getDatum i

/-- src/data/Event.cpp:55-64 -/
def setDatumByName (e : Event α) (n : String) (v : α) : Res (Event α) :=
  match e.names with
  | none => .ub
  | some ns =>
    match findPos ns n with
    | none => .throw .notFound
    | some i => e.setDatum i v

/-- src/data/Event.cpp:78-89 -/
def toObsSet (e : Event α) (rep : ObsSet) : Res (List α) :=
  Res.traverse e.getDatumByName rep.names

/-- src/data/Event.cpp:96-102 -/
def getObservableNames (e : Event α) : Res (List String) :=
  match e.names with
  | none => .throw .nullPtr
  | some ns => .ok ns

/-- src/data/Event.cpp:22-26 with src/core/ContainerTools.hpp:13-33. With fewer values than names the iterator runs
past the end (UB, the `assert` being off in release builds). -/
def getDataMap (e : Event α) : Res (SMap α) := do
  let ns ← e.getObservableNames
  if e.obs.length < ns.length then .ub
  else pure ((ns.zip e.obs).foldl (fun (m : SMap α) p => m.insert p.1 p.2) [])

end Event

/-- src/dist/BinnedED.h:80-82 -/
structure BinnedED (α : Type) where
  name : String
  hist : Histogram α
  obs : ObsSet
  deriving DecidableEq, Repr

namespace BinnedED
variable {α : Type} [Field α] [LinearOrder α]

/-- src/dist/BinnedED.cpp:7-11 -/
def ofAxes (name : String) (c : AxisCollection α) : BinnedED α := ⟨name, .ofAxes c, ⟨[], []⟩⟩

/-- src/dist/BinnedED.cpp:19-22 -/
def setObservables (d : BinnedED α) (ns : List String) : BinnedED α := { d with obs := .ofNames ns }

/-- src/dist/BinnedED.cpp:41-51 -/
def fillEvent (d : BinnedED α) (e : Event α) (w : α) : Res (BinnedED α) :=
  Res.mapExc (fun x => if x = .dimension then .representation else x)
    (do let vs ← e.toObsSet d.obs
        let h ← d.hist.fill vs w
        pure { d with hist := h })

/-- src/dist/BinnedED.cpp:98-102 -/
def probability (d : BinnedED α) (vs : List α) : Res α := do
  let b ← d.hist.findBin vs
  let c ← d.hist.getBinContent b
  pure (c / d.hist.integral)

/-- src/dist/BinnedED.cpp:104-116 (rethrows what it catches as the same exception type). -/
def probabilityEvent (d : BinnedED α) (e : Event α) : Res α := do
  let vs ← e.toObsSet d.obs
  d.probability vs

end BinnedED
end Oxsx
