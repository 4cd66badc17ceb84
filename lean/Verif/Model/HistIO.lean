import Verif.Model.IO
import Verif.Model.Histogram
/-
Model of the histogram half of src/data/IO.cpp: `SaveHistogram`, `SaveHistogramH5`, `LoadHistogram`. The HDF5 file is represented by what it
stores. Writing the ROOT file itself is not modelled (the conversion is, in Model/DistTools.lean). `int` is 32 bits; a histogram of 2^31 or more
axes is out of scope.
-/
namespace Oxsx
namespace IO
variable {α : Type} [Field α] [LinearOrder α]

/-- src/data/IO.cpp:344-397: the array "histogram" and its attributes "axis_names", "axis_latex_names" (64 characters each), "n_dims" and, for
every axis, "i_lows" and "i_highs" ("n_bins" is read back but not used). -/
structure H5Hist (α : Type) where
  data : List α
  names : String
  latexNames : String
  nDims : Nat
  edges : List (List α × List α)
  deriving DecidableEq, Repr

/-- src/data/IO.cpp:335-400; `&contents[0]` of an empty vector is undefined, as is `&lowEdges[0]` (no axis is without bins). -/
def saveHistH5 (h : Histogram α) : Res (H5Hist α) := do
  let as ← Res.traverse (fun i => h.axes.getAxis i) (List.range h.nDims)
  let edges ← Res.traverse (fun (a : BinAxis α) => do
    let _ ← idx a.lowEdges 0
    let _ ← idx a.highEdges 0
    pure (a.lowEdges, a.highEdges)) as
  let _ ← idx h.contents 0
  pure ⟨h.contents, cut64 (flatten (as.map (·.name))), cut64 (flatten (as.map (·.latexName))), h.nDims, edges⟩

/-- One iteration of src/data/IO.cpp:450-474 (a missing attribute is an exception of the HDF5 library, here `io`). -/
def loadAxis (f : H5Hist α) (names latexNames : List String) (c : AxisCollection α) (i : Nat) : Res (AxisCollection α) :=
  match f.edges[i]? with
  | none => .throw .io
  | some e => do
    let n ← at_ names i
    let l ← at_ latexNames i
    let a ← BinAxis.mkEdges n e.1 e.2 l
    c.addAxis a

/-- src/data/IO.cpp:402-480, for a file that can be opened. -/
def loadHistH5 (f : H5Hist α) : Res (Histogram α) := do
  let names ← unpack f.names
  let latexNames ← unpack f.latexNames
  let c ← Res.forFold (loadAxis f names latexNames) .empty (List.range f.nDims)
  (Histogram.ofAxes c).setBinContents f.data

/-- src/data/IO.cpp:302-333: the format a histogram is saved in; a ROOT file takes one or two dimensions. -/
def saveHistogramAs (path : String) (nDims : Nat) : Res Format := do
  let f ← chooseFormat path
  match f with
  | .h5 => pure .h5
  | .root => if nDims = 1 ∨ nDims = 2 then pure .root else .throw .io

end IO
end Oxsx
