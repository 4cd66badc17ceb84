/-
Outcomes of modelled C++ calls and the container accessors used throughout the model.
No file of /repo is modelled here except src/core/Exceptions.h (the exception classes)
and the standard-library accessors `vector::at`, `vector::operator[]`, `std::find`,
`std::lower_bound`.
-/
namespace Oxsx

/-- Exception classes of src/core/Exceptions.h:6-96 plus the standard ones that escape from
the library (`std::out_of_range` from `.at()`, `std::runtime_error`, `std::logic_error`). Messages are dropped. -/
inductive Exc where
  | dimension | value | notFound | logic | parameter | representation | io | nullPtr
  | oxsx | config | outOfRange | runtime | badAlloc | stdLogic
  deriving DecidableEq, Repr

/-- Outcome of a C++ call: a value, an exception, or undefined behaviour. -/
inductive Res (α : Type u) where
  | ok (a : α)
  | throw (e : Exc)
  | ub
  deriving DecidableEq, Repr

namespace Res

@[inline] protected def bind {α : Type u} {β : Type v} (x : Res α) (f : α → Res β) : Res β :=
  match x with
  | ok a => f a
  | throw e => throw e
  | ub => ub

instance : Monad Res where
  pure := ok
  bind := Res.bind

@[simp] theorem pure_eq {α : Type u} (a : α) : (pure a : Res α) = ok a := rfl
@[simp] theorem ok_bind {α β : Type u} (a : α) (f : α → Res β) : (ok a >>= f) = f a := rfl
@[simp] theorem throw_bind {α β : Type u} (e : Exc) (f : α → Res β) :
    ((throw e : Res α) >>= f) = throw e := rfl
@[simp] theorem ub_bind {α β : Type u} (f : α → Res β) : ((ub : Res α) >>= f) = ub := rfl
@[simp] theorem map_ok {α β : Type u} (f : α → β) (a : α) : (f <$> (ok a : Res α)) = ok (f a) := rfl

instance : LawfulMonad Res := LawfulMonad.mk'
  (id_map := fun x => by cases x <;> rfl)
  (pure_bind := fun _ _ => rfl)
  (bind_assoc := fun x _ _ => by cases x <;> rfl)

theorem bind_eq_ok {α β : Type u} {x : Res α} {f : α → Res β} {b : β} :
    (x >>= f) = ok b ↔ ∃ a, x = ok a ∧ f a = ok b := by
  cases x <;> simp

/-- The value if the call succeeded. -/
def toOption {α : Type u} : Res α → Option α
  | ok a => some a
  | _ => none

def isOk {α : Type u} : Res α → Bool
  | ok _ => true
  | _ => false

/-- `if (cond) throw e;` -/
def throwIf (c : Prop) [Decidable c] (e : Exc) : Res Unit := if c then throw e else ok ()

/-- `try { x } catch (E) { throw E' }`. -/
def mapExc {α : Type u} (f : Exc → Exc) : Res α → Res α
  | ok a => ok a
  | throw e => throw (f e)
  | ub => ub

/-- A loop filling one output element per input element, in order. -/
def traverse {α : Type u} {β : Type v} (f : α → Res β) : List α → Res (List β)
  | [] => ok []
  | a :: as =>
    match f a with
    | ok b => match traverse f as with
      | ok bs => ok (b :: bs)
      | throw e => throw e
      | ub => ub
    | throw e => throw e
    | ub => ub

/-- A loop threading a state through a list of iterations. -/
def forFold {σ : Type u} {α : Type v} (f : σ → α → Res σ) : σ → List α → Res σ
  | s, [] => ok s
  | s, a :: as =>
    match f s a with
    | ok s' => forFold f s' as
    | throw e => throw e
    | ub => ub

end Res

/-- `vec.at(i)` -/
def at_ {α : Type u} (l : List α) (i : Nat) : Res α :=
  match l[i]? with
  | some a => .ok a
  | none => .throw .outOfRange

/-- `vec[i]`, reading: out of bounds is undefined behaviour. -/
def idx {α : Type u} (l : List α) (i : Nat) : Res α :=
  match l[i]? with
  | some a => .ok a
  | none => .ub

/-- `vec[i] = a`: out of bounds is undefined behaviour. -/
def setIdx {α : Type u} (l : List α) (i : Nat) (a : α) : Res (List α) :=
  if i < l.length then .ok (l.set i a) else .ub

/-- `vec.resize(n, a)`: truncates or pads, keeping the existing prefix. -/
def resize {α : Type u} (l : List α) (n : Nat) (a : α) : List α :=
  l.take n ++ List.replicate (n - l.length) a

/-- `std::find(v.begin(), v.end(), x) - v.begin()`, `none` when it is `end()`. -/
def findPos {α : Type u} [DecidableEq α] (l : List α) (x : α) : Option Nat :=
  l.findIdx? (fun y => decide (y = x))

/-- `std::lower_bound(first, first+len, val, comp)` as implemented by libstdc++ (binary search
for the partition point of `fun x => comp x val`); `below x` stands for `comp(x, val)`.
`fuel` bounds the number of halvings: with `len ≤ fuel` the `0` branch is only met at `len = 0`.
The `none` branch cannot be reached when `first + len ≤ l.length`. -/
def lowerBoundFrom {α : Type u} (l : List α) (below : α → Bool) :
    (fuel first len : Nat) → Nat
  | 0, first, _ => first
  | fuel + 1, first, len =>
    if len = 0 then first
    else
      match l[first + len / 2]? with
      | none => first
      | some x =>
        if below x then lowerBoundFrom l below fuel (first + len / 2 + 1) (len - len / 2 - 1)
        else lowerBoundFrom l below fuel first (len / 2)

/-- `std::lower_bound(v.begin(), v.end(), val, comp) - v.begin()`. -/
def lowerBound {α : Type u} (l : List α) (below : α → Bool) : Nat :=
  lowerBoundFrom l below l.length 0 l.length

end Oxsx
