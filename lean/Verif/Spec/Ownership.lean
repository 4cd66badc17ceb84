import Verif.Model.Ownership
/-
What objects that own their parts should behave like: values. An object is the list of the values it owns; copying and assigning copy
the list, no object affects another.
-/
namespace Oxsx
variable {V : Type}

/-- The objects alive, as values. -/
abbrev ValueState (V : Type) := Nat → Option (List V)

/-- The value of an object that is alive. -/
def ValueState.get (s : ValueState V) (o : Nat) : Res (List V) :=
  match s o with
  | some l => .ok l
  | none => .ub

/-- One call on values; using an object that is not alive, or constructing one that is, is no legal program. -/
def ValueState.step (s : ValueState V) : OwnCall V → Res (ValueState V × Option (List V))
  | .construct o => if (s o).isSome then .ub else .ok (Function.update s o (some []), none)
  | .add o v => s.get o >>= fun l => .ok (Function.update s o (some (l ++ [v])), none)
  | .set o v => s.get o >>= fun _ => .ok (Function.update s o (some [v]), none)
  | .modify o i v => s.get o >>= fun l => if i < l.length then .ok (Function.update s o (some (l.set i v)), none) else .ub
  | .look o => s.get o >>= fun l => .ok (s, some l)
  | .copy o src => if (s o).isSome then .ub else s.get src >>= fun l => .ok (Function.update s o (some l), none)
  | .assign o src => s.get o >>= fun _ => s.get src >>= fun l => .ok (Function.update s o (some l), none)
  | .destroy o => s.get o >>= fun _ => .ok (Function.update s o none, none)

/-- A program on values. -/
def ValueState.run : ValueState V → List (OwnCall V) → Res (ValueState V × List (List V))
  | s, [] => .ok (s, [])
  | s, c :: cs => ValueState.step s c >>= fun r => ValueState.run r.1 cs >>= fun q => .ok (q.1, r.2.toList ++ q.2)

/-- The program begins with no objects. -/
def ValueState.start : ValueState V := fun _ => none

/-- The class copies in this call by cloning (and does not assign an object to itself where that deletes first). -/
def OwnerClass.Clones (P : OwnerClass) : OwnCall V → Prop
  | .copy _ _ => P.copyDeep = true
  | .assign o src => P.assign = .cloneForgetting ∨ (P.assign = .cloneFreeing ∧ o ≠ src)
  | _ => True

/-- Nothing the class owned is forgotten in this call. -/
def OwnerClass.Frees (P : OwnerClass) : OwnCall V → Prop
  | .set _ _ => P.setFrees = true
  | .assign _ _ => P.assign = .cloneFreeing
  | _ => True

/-- Everything still allocated belongs to an object that is alive. -/
def OwnState.NoLeak (s : OwnState V) : Prop :=
  ∀ a, s.store.cell a ≠ none → ∃ o l, s.objs o = some l ∧ a ∈ l

end Oxsx
