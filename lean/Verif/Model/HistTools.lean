import Verif.Model.Histogram
import Verif.Model.Combinations
import Verif.Map
/-
Model of src/histogram/HistTools.{h,hpp,cpp}.
-/
namespace Oxsx
namespace HistTools
variable {α : Type} [Field α] [LinearOrder α]

/-- src/histogram/HistTools.cpp:5-23. The set of pairs is given as the list of its elements in order; a later pair with the same joined
name overwrites the histogram. -/
def makeAll2 (axes : AxisCollection α) (combs : List (String × String)) : Res (SMap (Histogram α)) :=
  Res.forFold (fun (hs : SMap (Histogram α)) p => do
    let a ← axes.getAxisByName p.1
    let c ← (AxisCollection.empty : AxisCollection α).addAxis a
    let b ← axes.getAxisByName p.2
    let c ← c.addAxis b
    pure (hs.insert (p.1 ++ "_" ++ p.2) (Histogram.ofAxes c))) [] combs

/-- src/histogram/HistTools.hpp:5-20 -/
def makeAll1 (axes : AxisCollection α) (names : List String) : Res (SMap (Histogram α)) :=
  Res.forFold (fun (hs : SMap (Histogram α)) n => do
    let a ← axes.getAxisByName n
    let c ← (AxisCollection.empty : AxisCollection α).addAxis a
    pure (hs.insert n (Histogram.ofAxes c))) [] names

/-- src/histogram/HistTools.cpp:25-31 (weight 1, src/histogram/Histogram.h). -/
def fillAll (hs : SMap (Histogram α)) (vals : SMap α) : Res (SMap (Histogram α)) :=
  Res.traverse (fun p => do
    let h ← p.2.fillMap vals 1
    pure (p.1, h)) hs

/-- src/histogram/HistTools.hpp:22-54 for histograms. The set of axis pairs is visited in its order (pairs of strings, lexicographic);
pairs come from `Combinations::AllCombsNoDiag` and are distinct. -/
def visualisableProjections (h : Histogram α) : Res (List (Histogram α)) := do
  let one ← Res.traverse (fun n => h.marginalise [n]) h.axes.axisNames
  if h.nDims > 2 then do
    let combs := (Combinations.allCombsNoDiag h.axes.axisNames).insertionSort (fun p q => p.1 < q.1 ∨ (p.1 = q.1 ∧ p.2 ≤ q.2))
    let two ← Res.traverse (fun p => h.marginalise [p.1, p.2]) combs
    pure (one ++ two)
  else pure one

/-- One iteration of src/histogram/HistTools.hpp:91-104; `.at` throws. -/
def oneSlice (h : Histogram α) (fixedNames : List String) (comb : List Nat) : Res (Histogram α) := do
  let m ← Res.forFold (fun (m : SMap Nat) i => do
    let n ← at_ fixedNames i
    let b ← at_ comb i
    pure (m.insert n b)) ([] : SMap Nat) (List.range (h.nDims - 1))
  h.getSlice m

/-- src/histogram/HistTools.hpp:56-106. `totalNBins / axisNBins` only sizes a reservation; an axis always has a bin. -/
def get1DSlices (h : Histogram α) (axisName : String) : Res (List (Histogram α)) := do
  let fixedNames := h.axes.axisNames.filter (· ≠ axisName)
  let maxes ← Res.traverse (fun n => do
    let a ← h.axes.getAxisByName n
    pure a.nBins) fixedNames
  let _ ← h.axes.getAxisByName axisName
  let combs ← Combinations.recursive fixedNames.length [] (List.replicate fixedNames.length 0) maxes
  Res.traverse (oneSlice h fixedNames) combs

end HistTools
end Oxsx
