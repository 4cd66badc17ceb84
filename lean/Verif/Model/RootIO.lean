import Verif.Model.IO
/-
Model of the ROOT side of the data sets: `IO::SaveDataSetROOT` (src/data/IO.cpp:40-79), src/data/ROOTNtuple.{h,cpp},
src/data/ROOTTree.{h,cpp}. A ROOT file is represented by the one tree in it: its name, whether it is a `TNtuple`, for each branch its name and
the name of its leaf, and the rows. Of ROOT itself this assumes: `TNtuple(name, title, list)` makes one branch, with a leaf of the same name,
for each of the pieces of `list` between colons (it looks for colons from the second character on, and an empty list makes none);
`Fill(p)` copies as many floats from `p` as there are branches; `GetArgs` after `GetEntry` points at the values of the row in branch order;
`GetLeaf(name)` gives the first leaf of that name or NULL. Characters with a meaning for ROOT other than the colon (`/`, `[`) are not modelled.
`fl` is the conversion of a double to a float and back.
-/
namespace Oxsx

/-- A tree in a ROOT file. -/
structure RootTree (α : Type) where
  name : String
  ntuple : Bool
  branches : List (String × String)
  rows : List (List α)
  deriving DecidableEq, Repr

namespace RootIO
variable {α : Type}

/-- src/data/IO.cpp:50-55 -/
def branchString : List String → Res String
  | [] => .throw .outOfRange
  | n :: ns => .ok (ns.foldl (fun s x => (s ++ ":") ++ x) n)

/-- The constructor of `TNtuple` (ROOT): the rest of the list, `cur` being the piece read so far. -/
def cutVars (cur : List Char) : List Char → List (List Char)
  | [] => [cur]
  | c :: cs => if c = ':' then cur :: cutVars [] cs else cutVars (cur ++ [c]) cs

/-- The constructor of `TNtuple` (ROOT), as used in src/data/IO.cpp:58. -/
def ntupleVars (list : String) : List String :=
  match list.toList with
  | [] => []
  | c :: cs => (cutVars [c] cs).map String.ofList

/-- src/data/IO.cpp:60-73, one event: the values become floats and the first `n` are copied; fewer than that are read past their end. -/
def ntupleRow (fl : α → α) (d : DataSet α) (n i : Nat) : Res (List α) :=
  d.getEntry i >>= fun e => if e.obs.length < n then .ub else .ok ((e.obs.map fl).take n)

/-- src/data/IO.cpp:40-79. `old` is the file before (`none`: there is none); the value is the file afterwards. The file is written afresh
(`RECREATE`). -/
def save (fl : α → α) (d : DataSet α) (tree : String) (old : Option (RootTree α)) : Res (Option (RootTree α)) :=
  if d.names.length = 0 then .ok old
  else branchString d.names >>= fun s =>
    let vars := ntupleVars s
    Res.traverse (ntupleRow fl d vars.length) (List.range d.getNEntries) >>= fun rows =>
      .ok (some ⟨tree, true, vars.map (fun v => (v, v)), rows⟩)

/-- src/data/ROOTNtuple.cpp:8-26: a file that is not there, no tree of that name, or a tree that is no ntuple. -/
def openNtuple (file : Option (RootTree α)) (tree : String) : Res (RootTree α) :=
  match file with
  | none => .throw .io
  | some t => if t.name = tree ∧ t.ntuple = true then .ok t else .throw .io

/-- src/data/ROOTTree.cpp:9-27: an ntuple is a tree too. -/
def openTree (file : Option (RootTree α)) (tree : String) : Res (RootTree α) :=
  match file with
  | none => .throw .io
  | some t => if t.name = tree then .ok t else .throw .io

/-- src/data/ROOTNtuple.cpp:87-91, src/data/ROOTTree.cpp:99-103: a 64-bit number returned as `unsigned`. -/
def nEntries (t : RootTree α) : Nat := t.rows.length % 2 ^ 32

/-- src/data/ROOTNtuple.cpp:93-97 and src/data/ROOTTree.cpp:105-109 (the number of branches) -/
def nObservables (t : RootTree α) : Nat := t.branches.length

/-- src/data/ROOTNtuple.cpp:35-39 with 63-70; src/data/ROOTTree.cpp:36-40 with 72-85: the names of the branches. -/
def observableNames (t : RootTree α) : List String := t.branches.map (·.1)

/-- src/data/ROOTNtuple.cpp:41-61 -/
def ntupleEntry (t : RootTree α) (i : Nat) : Res (Event α) :=
  if nEntries t ≤ i then .throw .notFound
  else idx t.rows i >>= fun row =>
    if row.length < nObservables t then .ub else .ok ⟨row.take (nObservables t), some (observableNames t)⟩

/-- src/data/ROOTTree.cpp:80-84: the leaf kept for the branch called `n`: the first leaf of that name, or NULL. -/
def leafOf (t : RootTree α) (n : String) : Option Nat := findPos (t.branches.map (·.2)) n

/-- src/data/ROOTTree.cpp:57-60: the value of a leaf; a NULL one is followed. -/
def leafValue (t : RootTree α) (row : List α) (n : String) : Res α :=
  match leafOf t n with
  | none => .ub
  | some k => idx row k

/-- src/data/ROOTTree.cpp:42-70 -/
def treeEntry (t : RootTree α) (i : Nat) : Res (Event α) :=
  if nEntries t ≤ i then .throw .notFound
  else idx t.rows i >>= fun row =>
    Res.traverse (leafValue t row) (observableNames t) >>= fun vals =>
      .ok ⟨vals, some (observableNames t)⟩

end RootIO
end Oxsx
