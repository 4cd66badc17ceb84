import Mathlib.Data.List.Basic
/-
What a configuration text means, stated without the parser.
-/
namespace Oxsx
namespace ConfigSpec

/-- Space, tab, carriage return, line feed or zero. -/
def Blank (c : Char) : Prop := c = ' ' ∨ c = '\t' ∨ c = '\r' ∨ c = '\n' ∨ c = Char.ofNat 0

/-- `t` is `s` without the blanks at both ends. -/
def Trims (s t : List Char) : Prop :=
  ∃ pre post, s = pre ++ t ++ post ∧ (∀ c ∈ pre, Blank c) ∧ (∀ c ∈ post, Blank c) ∧ (∀ c, t.head? = some c → ¬ Blank c) ∧ (∀ c, t.getLast? = some c → ¬ Blank c)

/-- What one line says. -/
inductive Kind where
  | ignored
  | header (depth : Nat) (name : List Char)
  | assign (key value : List Char)
  | malformed
  deriving DecidableEq

def Comment (s : List Char) : Prop := ∃ c r, s = c :: r ∧ (c = '#' ∨ c = ';')

/-- How a line is read. A header is some opening brackets, a name, and as many further characters (not looked at; a line too short for that is
all name). -/
inductive Reads : List Char → Kind → Prop
  | comment (s) : Comment s → Reads s .ignored
  | blank (s) : (∀ c ∈ s, Blank c) → Reads s .ignored
  | header (s n pad d) : ¬ Comment s → Trims s (List.replicate d '[' ++ (n ++ pad)) → 0 < d → (n ++ pad).head? ≠ some '[' → pad.length = d → Reads s (.header d n)
  | headerShort (s n d) : ¬ Comment s → Trims s (List.replicate d '[' ++ n) → 0 < d → n.head? ≠ some '[' → n.length < d → Reads s (.header d n)
  | assign (s k v k' v') : ¬ Comment s → Trims s (k' ++ '=' :: v') → '=' ∉ k' → k'.head? ≠ some '[' → Trims k' k → Trims v' v → Reads s (.assign k v)
  | malformed (s t) : ¬ Comment s → Trims s t → t ≠ [] → t.head? ≠ some '[' → '=' ∉ t → Reads s .malformed

/-- The section in force after some lines, as a path from the top: a header of depth `d` keeps the first `d - 1` names and adds its own. -/
def path : List Kind → List (List Char) → List (List Char)
  | [], p => p
  | .header d n :: ks, p => path ks (p.take (d - 1) ++ [n])
  | _ :: ks, p => path ks p

/-- The section in force before line `i`. -/
def before (ks : List Kind) (i : Nat) : List (List Char) := path (ks.take i) []

/-- A text is legal if every line is, no header is more than one level below the section in force, no section is opened twice and no key is
given twice in a section. -/
structure Legal (ks : List Kind) : Prop where
  lines : Kind.malformed ∉ ks
  depth : ∀ i d n, ks[i]? = some (.header d n) → d ≤ (before ks i).length + 1
  sections : ∀ i j d n d' n', i < j → ks[i]? = some (.header d n) → ks[j]? = some (.header d' n') → before ks (i + 1) ≠ before ks (j + 1)
  keys : ∀ i j k v v', i < j → ks[i]? = some (.assign k v) → ks[j]? = some (.assign k v') → before ks i ≠ before ks j

/-- The text gives `v` for `k` in section `s` (of depth one). -/
def Gives (ks : List Kind) (s k v : List Char) : Prop := ∃ i, ks[i]? = some (.assign k v) ∧ before ks i = [s]

/-- The text has a section `s` of depth one. -/
def HasSection (ks : List Kind) (s : List Char) : Prop := ∃ i d n, ks[i]? = some (.header d n) ∧ before ks (i + 1) = [s]

end ConfigSpec
end Oxsx
