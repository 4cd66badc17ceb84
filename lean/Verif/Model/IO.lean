import Verif.Model.DataSet
/-
Model of src/data/IO.cpp: the packing of name lists, writing a data set to an HDF5 file in slabs, reading it back,
and the choice by file extension. The HDF5 file is represented by what it stores: one flat array, the packed names
(64 characters at most) and the number of observables. Not modelled: the HDF5 library itself, the ROOT ntuple format (l.40-79),
progress printing.
-/
namespace Oxsx
namespace IO

/-- src/data/IO.cpp:16 -/
def delimiter : Char := ':'

/-- src/data/IO.cpp:266-278 (`fDelimiter + vec_.at(i)` is character plus string). -/
def flatten : List String → String
  | [] => ""
  | v :: vs => vs.foldl (fun s x => s ++ (String.ofList [delimiter] ++ x)) v

/-- One iteration of src/data/IO.cpp:291-297: (strings so far, current string). -/
def unpackStep (s : List (List Char) × Nat) (c : Char) : Res (List (List Char) × Nat) :=
  if c = delimiter then .ok (s.1, s.2 + 1)
  else do
    let cur ← idx s.1 s.2
    let strs ← setIdx s.1 s.2 (cur ++ [c])
    pure (strs, s.2)

/-- src/data/IO.cpp:280-300 -/
def unpack (str : String) : Res (List String) := do
  let count := str.toList.countP (fun c => decide (c = delimiter))
  let r ← Res.forFold unpackStep (List.replicate (count + 1) [], 0) str.toList
  pure (r.1.map String.ofList)

/-- src/data/IO.cpp:18-25, on characters: what follows the last `.` -/
def getExt (path : String) : Res String :=
  if '.' ∈ path.toList then .ok (String.ofList ((path.toList.reverse.takeWhile (fun c => decide (c ≠ '.'))).reverse))
  else .throw .io

/-- src/data/IO.cpp:27-38 and 302-313: which writer is used. -/
inductive Format where
  | h5 | root
  deriving DecidableEq, Repr

/-- src/data/IO.cpp:27-38 -/
def chooseFormat (path : String) : Res Format := do
  let ext ← getExt path
  if ext = "h5" then pure .h5 else if ext = "root" then pure .root else .throw .io

/-- Contents of the HDF5 file: the "observations" array, the attribute "observed_quantities" (a string of at most 64
characters, src/data/IO.cpp:104) and the attribute "n_observables". -/
structure H5File (α : Type) where
  data : List α
  names : String
  nObs : Nat
  deriving DecidableEq, Repr

/-- Writing a fixed-length (64) string attribute: longer strings are cut. -/
def cut64 (s : String) : String := String.ofList (s.toList.take 64)

/-- `selectHyperslab(count, start)` and `write`: elements `start .. start+count-1` of the array are replaced by the
first `count` of the buffer; a buffer that is too short is read past its end. -/
def writeSlab {α : Type} (data : List α) (start count : Nat) (buf : List α) : Res (List α) :=
  if data.length < start + count then .throw .io
  else if buf.length < count then .ub
  else .ok (data.take start ++ buf.take count ++ data.drop (start + count))

/-- Reading `count` elements from `start`. -/
def readSlab {α : Type} (data : List α) (start count : Nat) : Res (List α) :=
  if data.length < start + count then .throw .io else .ok ((data.drop start).take count)

/-- Number of slabs, src/data/IO.cpp:130 -/
def nSlabs (nData : Nat) : Nat := nData / 10000 + 1

/-- The event range of slab `i`, src/data/IO.cpp:134-137 -/
def slabRange (nEntries slabs i : Nat) : Nat × Nat :=
  (i * (nEntries / slabs), if i = slabs - 1 then nEntries else (i + 1) * (nEntries / slabs))

variable {α : Type}

/-- One slab, src/data/IO.cpp:131-156; `flattenedData.at(0)` throws when the slab has no data. -/
def saveSlab (d : DataSet α) (nObs slabs : Nat) (data : List α) (i : Nat) : Res (List α) := do
  let r := slabRange d.getNEntries slabs i
  let rows ← Res.traverse (fun k => do
    let e ← d.getEntry (r.1 + k)
    pure e.obs) (List.range (r.2 - r.1))
  let flat := rows.flatten
  let _ ← at_ flat 0
  writeSlab data (r.1 * nObs) ((r.2 - r.1) * nObs) flat

/-- src/data/IO.cpp:81-157 `SaveDataSetH5`. A new HDF5 array is filled with zeros. -/
def saveH5 [Zero α] (d : DataSet α) : Res (H5File α) := do
  let nData := d.nObs * d.getNEntries
  Res.throwIf (d.names.length ≠ d.nObs) .io
  let data ← Res.forFold (saveSlab d d.nObs (nSlabs nData)) (List.replicate nData 0) (List.range (nSlabs nData))
  pure ⟨data, cut64 (flatten d.names), d.nObs⟩

/-- The loops of src/data/IO.cpp:204-210, 232-239, 253-259: `n` events of `nObs` values are read off a flat buffer and
added. -/
def addEvents (nObs n : Nat) (flat : List α) (out : DataSet α) : Res (DataSet α) :=
  Res.forFold (fun (o : DataSet α) i => do
    let row ← Res.traverse (fun j => at_ flat (i * nObs + j)) (List.range nObs)
    o.addEntry (Event.ofData row)) out (List.range n)

/-- 32-bit unsigned arithmetic of `i * 100000 * nObs` (src/data/IO.cpp:227: `unsigned` times `int` times `unsigned`). -/
def chunkOffset (i nObs : Nat) : Nat := ((i * 100000) % 2 ^ 32 * nObs) % 2 ^ 32

/-- src/data/IO.cpp:214-262, files of at least a million events. The chunk length `100000 * nObs` is computed in 32 bits too
(l.217-223). -/
def loadChunks (f : H5File α) (nEntries : Nat) (out : DataSet α) : Res (DataSet α) := do
  let len := (100000 * f.nObs) % 2 ^ 32
  let out ← Res.forFold (fun (o : DataSet α) i => do
    let flat ← readSlab f.data (chunkOffset i f.nObs) len
    let _ ← at_ flat 0
    addEvents f.nObs 100000 flat o) out (List.range (nEntries / 100000))
  let left := nEntries % 100000
  if left = 0 then pure out
  else do
    let flat ← readSlab f.data (100000 * (nEntries / 100000) * f.nObs) (f.nObs * left)
    addEvents f.nObs left flat out

/-- src/data/IO.cpp:159-264 `LoadDataSet`: `nData / nObs` with `nObs = 0` is a division by zero; `flatData.at(0)`
throws when there is no data. -/
def loadH5 (f : H5File α) : Res (DataSet α) := do
  let names ← unpack f.names
  let out := DataSet.empty.setObservableNames names
  if f.nObs = 0 then .ub
  else do
    let nEntries := f.data.length / f.nObs
    if nEntries < 1000000 then do
      let _ ← at_ f.data 0
      addEvents f.nObs nEntries f.data out
    else loadChunks f nEntries out

end IO
end Oxsx
