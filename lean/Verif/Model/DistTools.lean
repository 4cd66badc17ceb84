import Verif.Model.Histogram
/-
Model of src/dist/DistTools.cpp. The ROOT classes TH1D, TH2D and TH3D are not code of this repository; what is used of them is `TAxis` and `TH`.
-/
namespace Oxsx

/-- ROOT's `TAxis` made from an array of edges: title and edges; `GetBinLowEdge(i) = edges[i-1]`, `GetBinUpEdge(i) = edges[i]`. -/
structure TAxis (α : Type) where
  title : String
  edges : List α

/-- A ROOT histogram: its axes and the content of the bin with given indices, 0 being the underflow and `nbins + 1` the overflow of an
axis. Names, errors and statistics are left out. -/
structure TH (α : Type) where
  axes : List (TAxis α)
  contents : List Nat → α

namespace TAxis
variable {α : Type} [Field α] [LinearOrder α]

/-- `TAxis::GetNbins()`. -/
def nBins (a : TAxis α) : Nat := a.edges.length - 1

/-- `TAxis::FindBin(x)`: the number of edges not above `x` (0 below the first edge, `nbins + 1` from the last on). -/
def findBin (a : TAxis α) (x : α) : Nat := (a.edges.filter (fun e => decide (e ≤ x))).length

end TAxis

namespace TH
variable {α : Type} [Field α] [LinearOrder α]

/-- `TH1::SetBinContent(bin, x)`. -/
def setBinContent (t : TH α) (is : List Nat) (x : α) : TH α := { t with contents := fun js => if js = is then x else t.contents js }

/-- `Fill(x, y, .., w)`. -/
def fill (t : TH α) (xs : List α) (w : α) : TH α :=
  { t with contents := fun js => if js = List.zipWith TAxis.findBin t.axes xs then t.contents js + w else t.contents js }

/-- An empty histogram over axes. -/
def new (axes : List (TAxis α)) : TH α := ⟨axes, fun _ => 0⟩

end TH

namespace DistTools
variable {α : Type} [Field α] [LinearOrder α]

/-- One iteration of src/dist/DistTools.cpp:24-30. -/
def toHistStep (integral : List α → List α → Res α) (c : AxisCollection α) (h : Histogram α) (bin : Nat) : Res (Histogram α) :=
  c.getBinLowEdges bin c.nDims >>= fun lows =>
  c.getBinHighEdges bin c.nDims >>= fun highs =>
  integral lows highs >>= fun x => h.addBinContent bin x

/-- src/dist/DistTools.cpp:14-33, for a `PDF` of `pdfDims` dimensions with the given `Integral`. -/
def toHistPdf (pdfDims : Nat) (integral : List α → List α → Res α) (c : AxisCollection α) : Res (Histogram α) :=
  if pdfDims ≠ c.nDims then .throw .dimension
  else Res.forFold (toHistStep integral c) (Histogram.ofAxes c) (List.range c.nBins)

/-- src/dist/DistTools.cpp:50-54, 73-77 -/
def th1Step (h : Histogram α) (a : BinAxis α) (widthCorrect : Bool) (t : TH α) (bin : Nat) : Res (TH α) :=
  h.getBinContent bin >>= fun x =>
    if widthCorrect then a.getBinWidth bin >>= fun w => Res.ok (t.setBinContent [bin + 1] (x / w))
    else Res.ok (t.setBinContent [bin + 1] x)

/-- src/dist/DistTools.cpp:35-57 and 59-80 -/
def toTH1 (h : Histogram α) (widthCorrect : Bool) : Res (TH α) :=
  if h.nDims ≠ 1 then .throw .dimension
  else
    h.axes.getAxis 0 >>= fun a =>
    match a.highEdges.getLast? with
    | none => .ub
    | some last => Res.forFold (th1Step h a widthCorrect) (TH.new [⟨a.latexName, a.lowEdges ++ [last]⟩]) (List.range a.nBins)

/-- src/dist/DistTools.cpp:92-96, 136-143: the edges given to ROOT for one axis, with its title. -/
def rootAxis (a : BinAxis α) : TAxis α := ⟨a.latexName, a.lowEdges ++ [a.max]⟩

/-- One iteration of src/dist/DistTools.cpp:105-111 or 154-161; `d` is the number of dimensions. -/
def thStep (d : Nat) (h : Histogram α) (t : TH α) (bin : Nat) : Res (TH α) :=
  Res.traverse (fun k => h.axes.getBinCentre bin k) (List.range d) >>= fun cs =>
  h.getBinContent bin >>= fun x => Res.ok (t.fill cs x)

/-- src/dist/DistTools.cpp:82-113 (`ToTH2D`, `d = 2`) and 124-163 (`ToTH3D`, `d = 3`), which differ only in the number of axes. -/
def toTHn (d : Nat) (h : Histogram α) : Res (TH α) :=
  if h.nDims ≠ d then .throw .dimension
  else
    Res.traverse (fun k => h.axes.getAxis k) (List.range d) >>= fun as =>
    Res.forFold (thStep d h) (TH.new (as.map rootAxis)) (List.range h.nBins)

/-- src/dist/DistTools.cpp:178-181, 198-201, ...: the axis made from a ROOT axis, of equal bins. `GetBinLowEdge(1)` is the first edge and
`GetBinUpEdge(nbins)` the last. -/
def fromAxis (a : TAxis α) : Res (BinAxis α) :=
  match a.edges.head?, a.edges.getLast? with
  | some lo, some hi => BinAxis.mkEqual a.title lo hi a.nBins
  | _, _ => .ub

/-- The index tuples in the order of the nested loops of src/dist/DistTools.cpp:254-268 (first index slowest), counted from 0. -/
def nested : List Nat → List (List Nat)
  | [] => [[]]
  | n :: ns => (List.range n).flatMap (fun i => (nested ns).map (fun is => i :: is))

/-- The body of the nested loops, src/dist/DistTools.cpp:186-189, 217-221, 260-265. -/
def fromStep (t : TH α) (h : Histogram α) (is : List Nat) : Res (Histogram α) :=
  h.axes.flattenIndices is >>= fun b => h.setBinContent b (t.contents (is.map (· + 1)))

/-- src/dist/DistTools.cpp:174-192 (`TH1D`; there `i - 1` is used directly, which is what flattening one index gives), 194-226 (`TH2D`) and
228-271 (`TH3D`). -/
def toHist (t : TH α) : Res (Histogram α) :=
  Res.traverse fromAxis t.axes >>= fun as =>
  (AxisCollection.empty : AxisCollection α).addAxes as >>= fun c =>
  Res.forFold (fromStep t) (Histogram.ofAxes c) (nested (t.axes.map TAxis.nBins))

end DistTools
end Oxsx
