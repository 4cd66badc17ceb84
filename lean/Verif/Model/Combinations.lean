import Verif.Basic
/-
Model of src/core/Combinations.{hpp,cpp} and of the string splitting of src/core/ContainerTools.{hpp,cpp}.
-/
namespace Oxsx

namespace Combinations

/-- src/core/Combinations.cpp:9-25. `combs` is the output vector passed by reference, `vec` and `maxes` are passed by
value; the subscripts are unchecked. -/
def recursive : (depth : Nat) → List (List Nat) → List Nat → List Nat → Res (List (List Nat))
  | 0, combs, vec, _ => .ok (combs ++ [vec])
  | depth + 1, combs, vec, maxes => do
    let m ← idx maxes depth
    let s ← Res.forFold (fun (s : List (List Nat) × List Nat) i => do
      let v ← setIdx s.2 depth i
      let c ← recursive depth s.1 v maxes
      pure (c, v)) (combs, vec) (List.range m)
    pure s.1

/-- src/core/Combinations.hpp:12-30 for a container listing `l` in order: `it1` runs over the container, `it2` over
the elements strictly before it. The result is a `std::set`, represented by the list of insertions. -/
def allCombsNoDiag {β : Type} (l : List β) : List (β × β) :=
  (List.range l.length).flatMap (fun i =>
    match l[i]? with
    | none => []
    | some a => (l.take i).map (fun b => (a, b)))

end Combinations

namespace ContainerTools

/-- `std::getline(ss, item, delim)` on the remaining characters: fails at the end of the stream, otherwise reads up to
the delimiter (which is dropped) or the end. -/
def getline (delim : Char) : List Char → Option (List Char × List Char)
  | [] => none
  | c :: cs => some ((c :: cs).takeWhile (· ≠ delim), ((c :: cs).dropWhile (· ≠ delim)).tail)

/-- src/core/ContainerTools.hpp:151-162, the reading loop; every successful read consumes a character so `fuel` = length
is enough. -/
def splitLoop (delim : Char) : Nat → List Char → List (List Char)
  | 0, _ => []
  | fuel + 1, s =>
    match getline delim s with
    | none => []
    | some (item, rest) => if item.isEmpty then splitLoop delim fuel rest else item :: splitLoop delim fuel rest

/-- src/core/ContainerTools.cpp:3-9 -/
def split (s : String) (delim : Char) : List String :=
  (splitLoop delim s.toList.length s.toList).map String.ofList

end ContainerTools
end Oxsx
