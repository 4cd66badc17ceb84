import Verif.Spec.Grid
import Verif.Model.Histogram
/-
Specification vocabulary for histograms.
-/
namespace Oxsx
open AxisCollection
variable {α : Type} [Field α] [LinearOrder α]
namespace Histogram

/-- A histogram over the axes `as` (at least one), with one content per bin. -/
structure Valid (h : Histogram α) (as : List (BinAxis α)) : Prop where
  axes : Holds h.axes as
  ne : as ≠ []
  nb : h.nBins = (shape as).prod
  nd : h.nDims = as.length
  len : h.contents.length = (shape as).prod

/-- Same axes in the sense of `operator==`: same edges on every axis. -/
def SameBinning (as bs : List (BinAxis α)) : Prop :=
  List.Forall₂ (fun a b => a.lowEdges = b.lowEdges ∧ a.highEdges = b.highEdges) as bs

/-- Histograms a program can obtain over the axes `as`: construct one over a collection built from
`as`, then call mutating methods in any order. `h'` ranges over successful results. -/
inductive Reachable (as : List (BinAxis α)) : Histogram α → Prop where
  | new (c : AxisCollection α) (hc : (AxisCollection.empty : AxisCollection α).addAxes as = .ok c) :
      Reachable as (ofAxes c)
  | fill (h h' : Histogram α) (vs : List α) (w : α) :
      Reachable as h → h.fill vs w = .ok h' → Reachable as h'
  | fillMap (h h' : Histogram α) (m : List (String × α)) (w : α) :
      Reachable as h → h.fillMap m w = .ok h' → Reachable as h'
  | addBin (h h' : Histogram α) (b : Nat) (x : α) :
      Reachable as h → h.addBinContent b x = .ok h' → Reachable as h'
  | setBin (h h' : Histogram α) (b : Nat) (x : α) :
      Reachable as h → h.setBinContent b x = .ok h' → Reachable as h'
  | setAll (h h' : Histogram α) (cs : List α) :
      Reachable as h → h.setBinContents cs = .ok h' → Reachable as h'
  | scale (h : Histogram α) (s : α) : Reachable as h → Reachable as (h.scale s)
  | normalise (h : Histogram α) : Reachable as h → Reachable as h.normalise
  | clear (h : Histogram α) : Reachable as h → Reachable as h.emptyContents
  | pad (h : Histogram α) (p : α) : Reachable as h → Reachable as (h.addPadding p)
  | combine (h o h' : Histogram α) (f : α → α → α) :
      Reachable as h → h.combine o f = .ok h' → Reachable as h'

/-- What `GetBinContent(b)` returns, `0` if it does not return. -/
def content (h : Histogram α) (b : Nat) : α :=
  match h.getBinContent b with
  | .ok x => x
  | _ => 0

/-- The index of flat bin `b` along each of the named axes. -/
def indicesAlong (h : Histogram α) (names : List String) (b : Nat) : Res (List Nat) :=
  Res.traverse (fun n => do
    let k ← h.axes.getAxisIndex n
    h.axes.unflattenIndex b k) names

end Histogram
end Oxsx
