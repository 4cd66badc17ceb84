import Verif.Basic
/-
Model of src/config/ini.hpp (reading) and src/config/ConfigLoader.{hh,hpp,cpp}. Strings are lists of characters. `Parser::dump` (printing) is
not modelled.
-/
namespace Oxsx
namespace Ini

/-- A string of the file. -/
abbrev Str := List Char

/-- The characters for which `strchr(" \t\r\n", c)` is not null, src/config/ini.hpp:92-99: the four in the text and its terminating zero. -/
def blank (c : Char) : Bool := c = ' ' || c = '\t' || c = '\r' || c = '\n' || c = Char.ofNat 0

/-- `std::string::substr(pos, n)` for `pos ≤ size()`, with `n : size_t` computed as `a - b`, which wraps to a huge number when `a < b`. -/
def substr (s : Str) (pos a b : Nat) : Str := if a < b then s.drop pos else (s.drop pos).take (a - b)

/-- src/config/ini.hpp:90-102. `sp` is the first non-blank position (the length if there is none); the second loop leaves `ep + 1` at the end
of the last non-blank (0 if there is none). -/
def trim (s : Str) : Str :=
  let sp := (s.takeWhile blank).length
  let ep1 := s.length - (s.reverse.takeWhile blank).length
  substr s sp ep1 sp

/-- src/config/ini.hpp:112-121, applied to the trimmed line: name and depth. -/
def parseSLine (line : Str) : Str × Nat :=
  let depth := (line.takeWhile (· = '[')).length
  (substr line depth line.length (2 * depth), depth)

/-- src/config/ini.hpp:40-58. The value map as a list, first inserted last; of the section map only the keys are here (the levels themselves
are in `State.levels`); the parent pointer of a level is its path without the last name. `ordered_values` and `ordered_sections` are used only
for printing. -/
structure Level where
  values : List (Str × Str)
  sections : List Str
  depth : Nat
  deriving DecidableEq

/-- A default-constructed level, src/config/ini.hpp:42. -/
def Level.new : Level := ⟨[], [], 0⟩

/-- The levels made so far, by path from the top, and the path of the level that `parse` is working on. -/
structure State where
  levels : List Str → Level
  cur : List Str

/-- Before the first line. -/
def State.init : State := ⟨fun _ => Level.new, []⟩

/-- Replace one level. -/
def State.put (st : State) (p : List Str) (l : Level) : State := { st with levels := fun q => if q = p then l else st.levels q }

/-- `Level::parent`; following the null parent of the top level is undefined. -/
def parentOf (p : List Str) : Res (List Str) := if p = [] then .ub else .ok p.dropLast

/-- src/config/ini.hpp:147-150 -/
def climb : Nat → List Str → Res (List Str)
  | 0, p => parentOf p
  | n + 1, p => parentOf p >>= climb n

/-- `sections[sname]` on the level at `base`, src/config/ini.hpp:144, 152: made if it was not there. -/
def State.section (st : State) (base : List Str) (sname : Str) : State :=
  if sname ∈ (st.levels base).sections then st
  else (st.put base { st.levels base with sections := sname :: (st.levels base).sections }).put (base ++ [sname]) Level.new

/-- src/config/ini.hpp:154-162. The parent pointer is null exactly as long as the depth is 0, since both are set together (l.158-159). -/
def enter (st : State) (base : List Str) (sname : Str) (depth : Nat) : Res State :=
  let st1 := st.section base sname
  let l := st1.levels (base ++ [sname])
  if l.depth ≠ 0 then .throw .runtime
  else .ok { st1.put (base ++ [sname]) { l with depth := depth } with cur := base ++ [sname] }

/-- src/config/ini.hpp:136-162 -/
def header (st : State) (line : Str) : Res State :=
  let r := parseSLine line
  let l := st.levels st.cur
  if r.2 > l.depth + 1 then .throw .runtime
  else if l.depth = r.2 - 1 then enter st st.cur r.1 r.2
  else climb (l.depth - r.2) st.cur >>= fun base => enter st base r.1 r.2

/-- src/config/ini.hpp:166-174 -/
def assign (st : State) (line : Str) : Res State :=
  match findPos line '=' with
  | none => .throw .runtime
  | some n =>
    let k := trim (line.take n)
    let v := trim (line.drop (n + 1))
    let l := st.levels st.cur
    if (l.values.lookup k).isSome then .throw .runtime
    else .ok (st.put st.cur { l with values := (k, v) :: l.values })

/-- One turn of the loop src/config/ini.hpp:126-176. -/
def line (st : State) (s : Str) : Res State :=
  if s.head? = some '#' ∨ s.head? = some ';' then .ok st
  else
    let t := trim s
    if t = [] then .ok st
    else if t.head? = some '[' then header st t
    else assign st t

/-- src/config/ini.hpp:123-177: the recursive call of l.162 goes on reading the same stream up to its end, so that nothing is left for the
callers to do: it is a change of the current level. -/
def parse (lines : List Str) : Res State := Res.forFold line State.init lines

/-- `std::getline` until the end of the stream. -/
def getLines : Str → Str → List Str
  | [], acc => if acc = [] then [] else [acc.reverse]
  | c :: r, acc => if c = '\n' then acc.reverse :: getLines r [] else getLines r (c :: acc)

end Ini

/-- Outcome of `ConfigLoader::Load`; the two exceptions of src/config/ConfigLoader.cpp:42-50 with the names they carry. -/
inductive Loaded where
  | value (v : Ini.Str)
  | sectionMissing (section_ : Ini.Str)
  | fieldMissing (field_ section_ : Ini.Str)
  | ub
  deriving DecidableEq

/-- src/config/ConfigLoader.cpp:6: the static parser pointer: null, to a parser, or to a parser that has been deleted. -/
inductive ConfigLoader where
  | null
  | open_ (st : Ini.State)
  | deleted

namespace ConfigLoader

/-- src/config/ConfigLoader.cpp:8-13 with CheckExists, l.42-50. Reading `operator()`/`operator[]` after the checks inserts nothing. -/
def load : ConfigLoader → Ini.Str → Ini.Str → Loaded
  | open_ st, s, k =>
    if s ∈ (st.levels []).sections then
      match (st.levels [s]).values.lookup k with
      | some v => .value v
      | none => .fieldMissing k s
    else .sectionMissing s
  | _, _, _ => .ub

/-- src/config/ConfigLoader.cpp:15-25: state afterwards and outcome. `contents = none` is a file that cannot be opened. When the constructor of
the parser throws, the old parser has been deleted but the pointer still points to it. -/
def open' (c : ConfigLoader) (contents : Option (List Ini.Str)) : ConfigLoader × Res Unit :=
  match c, contents with
  | c, none => (c, .throw .io)
  | deleted, some _ => (deleted, .ub)
  | c, some lines =>
    match Ini.parse lines with
    | .ok st => (open_ st, .ok ())
    | .throw e => (match c with | null => (null, .throw e) | _ => (deleted, .throw e))
    | .ub => (c, .ub)

/-- src/config/ConfigLoader.cpp:27-31 -/
def close : ConfigLoader → ConfigLoader × Res Unit
  | deleted => (deleted, .ub)
  | _ => (null, .ok ())

/-- src/config/ConfigLoader.cpp:33-40; the order of the set is dropped. -/
def listSections : ConfigLoader → Res (List Ini.Str)
  | null => .ok []
  | open_ st => .ok (st.levels []).sections
  | deleted => .ub

end ConfigLoader
end Oxsx
