import Verif.Model.MCMC
/-
Model of src/optimise/GridSearch.{h,cpp}.
-/
namespace Oxsx

/-- src/optimise/GridSearch.h:27-38. `fParamVals` and `fMinVal` are set afresh by `Optimise` and are arguments below. -/
structure GridSearch (α : Type) where
  minima : ParamDict α
  maxima : ParamDict α
  steps : ParamDict α
  maximising : Bool

/-- What is put in the `FitResult`: src/optimise/GridSearch.cpp:125-126. -/
structure GridResult (α : Type) where
  bestFit : ParamDict α
  extremeVal : α

namespace GridSearch
variable {α : Type} [Field α] [LinearOrder α]

/-- src/optimise/GridSearch.h:12 -/
def new : GridSearch α := ⟨[], [], [], false⟩

/-- src/optimise/GridSearch.cpp:130-155. The first argument is the part of `fStepSizes` (its names) from `it_` on; `i` and `e` are the
positions of `it_` and `end_`, counted from the beginning. Dereferencing the end and decrementing the beginning are undefined.
`p` is `fParamVals`. -/
def increment (g : GridSearch α) : List String → Nat → Nat → ParamDict α → Res (Bool × ParamDict α)
  | [], _, _, _ => .ub
  | n :: rest, i, e, p =>
    if g.minima = g.maxima then .ok (false, p)
    else
      MCMC.dictAt g.steps n >>= fun st =>
        let p₁ := p.insert n ((p.find n).getD 0 + st)
        MCMC.dictAt g.maxima n >>= fun hi =>
          if hi < (p₁.find n).getD 0 then
            MCMC.dictAt g.minima n >>= fun lo =>
              let p₂ := p₁.insert n lo
              if e = 0 then .ub
              else if i = e then .ok (false, p₂)
              else increment g rest (i + 1) (e - 1) p₂
          else .ok (true, p₁)

/-- src/optimise/GridSearch.cpp:112-123: one evaluation. `s` is (`fMinVal`, `bestFit`). -/
def consider (g : GridSearch α) (s : α × ParamDict α) (p : ParamDict α) (v : α) : α × ParamDict α :=
  let c := if g.maximising then -v else v
  if c < s.1 ∨ s.1 = 0 then (c, p) else s

/-- src/optimise/GridSearch.cpp:100-124 (the messages left out): the result and the points evaluated, in order. `none`: the loop is still
running after this many calls of `Increment`. -/
def loop (g : GridSearch α) (t : TestStat α) : Nat → ParamDict α → α × ParamDict α → Option (Res ((α × ParamDict α) × List (ParamDict α)))
  | 0, _, _ => none
  | fuel + 1, p, s =>
    match g.increment g.steps.keys 0 g.steps.keys.length p with
    | .ub => some .ub
    | .throw e => some (.throw e)
    | .ok (false, _) => some (.ok (s, []))
    | .ok (true, p') =>
      match t.eval p' with
      | .ub => some .ub
      | .throw e => some (.throw e)
      | .ok v => (loop g t fuel p' (g.consider s p' v)).map (fun r => r >>= fun x => Res.ok (x.1, p' :: x.2))

/-- One iteration of src/optimise/GridSearch.cpp:77-82: the counts are only printed, but converting to `size_t` a number it cannot hold
is undefined. -/
def countOne (g : GridSearch α) (q : String × α) : Res Unit :=
  let r := ((g.maxima.find q.1).getD 0 - q.2) / (g.steps.find q.1).getD 0
  if (g.steps.find q.1).getD 0 ≠ 0 ∧ -1 < r ∧ r < 2 ^ 64 then .ok () else .ub

/-- src/optimise/GridSearch.cpp:48-128 -/
def optimise (g : GridSearch α) (t : TestStat α) (fuel : Nat) : Option (Res (GridResult α × List (ParamDict α))) :=
  if g.steps.keys ≠ g.maxima.keys ∨ g.steps.keys ≠ g.minima.keys then some (.throw .logic)
  else match Res.forFold (fun _ q => g.countOne q) () g.minima with
    | .ub => some .ub
    | .throw e => some (.throw e)
    | .ok _ => (g.loop t fuel g.minima (0, [])).map (fun r => r >>= fun x => Res.ok (⟨x.1.2, x.1.1⟩, x.2))

end GridSearch
end Oxsx
