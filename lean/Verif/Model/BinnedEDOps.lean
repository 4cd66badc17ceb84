import Verif.Model.PdfManager
set_option linter.unusedSectionVars false
/-
The operations of `BinnedED` that forward to its histogram, and its event interface. The warnings printed when the observables of two
distributions differ are not modelled: nothing else depends on them.
-/
namespace Oxsx
namespace BinnedED
variable {α : Type} [Field α] [LinearOrder α]

/-- src/dist/BinnedED.cpp:13-17; the observables start empty. -/
def ofHistogram (name : String) (h : Histogram α) : BinnedED α := ⟨name, h, ⟨[], []⟩⟩

/-- src/dist/BinnedED.cpp:36-39 -/
def setHistogram (d : BinnedED α) (h : Histogram α) : BinnedED α := { d with hist := h }

/-- src/dist/BinnedED.cpp:77-80 -/
def setName (d : BinnedED α) (n : String) : BinnedED α := { d with name := n }

/-- src/dist/BinnedED.cpp:118-122 -/
def integral (d : BinnedED α) : α := d.hist.integral

/-- src/dist/BinnedED.cpp:124-127 -/
def normalise (d : BinnedED α) : BinnedED α := { d with hist := d.hist.normalise }

/-- src/dist/BinnedED.cpp:129-132 -/
def scale (d : BinnedED α) (s : α) : BinnedED α := { d with hist := d.hist.scale s }

/-- src/dist/BinnedED.cpp:134-137 -/
def fill (d : BinnedED α) (vs : List α) (w : α) : Res (BinnedED α) := d.hist.fill vs w >>= fun h => .ok { d with hist := h }

/-- src/dist/BinnedED.cpp:53-64 -/
def findBinEvent (d : BinnedED α) (e : Event α) : Res Nat :=
  Res.mapExc (fun x => if x = .dimension then .representation else x)
    (e.toObsSet d.obs >>= fun vs => d.hist.findBin vs)

/-- src/dist/BinnedED.cpp:150-154 -/
def getBinContent (d : BinnedED α) (b : Nat) : Res α := d.hist.getBinContent b

/-- src/dist/BinnedED.cpp:272-284; a `ValueError` is rethrown as a `ValueError`. -/
def add (d o : BinnedED α) (w : α) : Res (BinnedED α) := d.hist.add o.hist w >>= fun h => .ok { d with hist := h }

/-- src/dist/BinnedED.cpp:286-298 -/
def multiply (d o : BinnedED α) : Res (BinnedED α) := d.hist.multiply o.hist >>= fun h => .ok { d with hist := h }

/-- src/dist/BinnedED.cpp:300-312 -/
def divide (d o : BinnedED α) : Res (BinnedED α) := d.hist.divide o.hist >>= fun h => .ok { d with hist := h }

/-- src/dist/BinnedED.cpp:314-317 -/
def addPadding (d : BinnedED α) (p : α) : BinnedED α := { d with hist := d.hist.addPadding p }

/-- src/dist/BinnedED.cpp:242-270: one piece of the name, for an axis of the parent. -/
def slicePart (fixed : List (String × Nat)) (n : String) : String :=
  match fixed.lookup n with
  | none => ""
  | some b => "_" ++ n ++ toString b

/-- src/dist/BinnedED.cpp:242-270. `fixed` is the map from axis name to bin in key order. -/
def getSlice (d : BinnedED α) (fixed : List (String × Nat)) : Res (BinnedED α) :=
  d.hist.getSlice fixed >>= fun h =>
    .ok ((ofHistogram (d.name ++ String.join (d.hist.axes.axisNames.map (slicePart fixed)) ++ "_slice") h).setObservables
      (d.hist.axes.axisNames.filter (fun n => (fixed.lookup n).isNone)))

end BinnedED
end Oxsx
