import Verif.Props.Systematic
import Verif.Props.Configured
set_option linter.unusedSectionVars false
set_option linter.unusedSimpArgs false
set_option linter.unusedVariables false
/-
C20 for the systematic with a user's function, and the parameters of the systematics that keep their own (C15, C16, C23).
-/
namespace Oxsx
variable {α : Type} [Field α] [LinearOrder α] [IsStrictOrderedRing α]
open AxisCollection

/-- C20 (user's function): without a function `Construct` is a `LogicError`; with a function that is strictly increasing at the present parameters it
gives the response of that function at those parameters: from bin `b` to a bin `b'` that agrees with it on the other axes, the share of the image of
`b`'s interval lying in that of `b'`. A systematic that does not transform exactly one observable is refused. -/
theorem C20_scale_function (as : List (BinAxis α)) (c : AxisCollection α)
    (hbuild : (empty : AxisCollection α).addAxes as = .ok c) (hc : ∀ a ∈ as, a.Contiguous)
    (k : Nat) (a : BinAxis α) (hk : as[k]? = some a) (hw : a.PosWidths)
    (tn : String) (dn : List String) (hd : dn.Nodup) (htn : dn[k]? = some tn)
    (g : ParamDict α → α → α) (pd : ParamDict α) :
    (freshAxisSys tn dn c).constructScaleFunction none pd = .throw .logic ∧
    (∀ (s : AxisSys α) f, s.base.transObs.names.length ≠ 1 → s.constructScaleFunction f pd = .throw .representation) ∧
    (StrictMono (g pd) → ∃ s', (freshAxisSys tn dn c).constructScaleFunction (some g) pd = .ok s' ∧
      ∀ b b', b < c.nBins → b' < c.nBins → ∀ is is' : List Nat, c.unpackIndices b = .ok is → c.unpackIndices b' = .ok is' →
        (AgreeOff k is is' → ∀ i j lo hi lo' hi', is[k]? = some i → is'[k]? = some j → a.BinIs i lo hi → a.BinIs j lo' hi' →
          s'.base.response.getComponent b' b = .ok (overlapFrac (g pd lo) (g pd hi) lo' hi')) ∧
        (¬ AgreeOff k is is' → s'.base.response.getComponent b' b = .ok 0)) := by
  have h1 : (freshAxisSys tn dn c).base.transObs.names.length = 1 := rfl
  refine ⟨?_, ?_, ?_⟩
  · unfold AxisSys.constructScaleFunction
    rw [Res.throwIf_false_of (by simp [h1])]; rfl
  · intro s f hs
    unfold AxisSys.constructScaleFunction
    rw [Res.throwIf_true_of hs]; rfl
  · intro hm
    obtain ⟨s', e, _, _, _, h⟩ := C20_response as c hbuild hc k a hk hw tn dn hd htn (g pd) hm
    refine ⟨s', ?_, h⟩
    unfold AxisSys.constructScaleFunction
    rw [Res.throwIf_false_of (by simp [h1])]
    exact e

/-- C20: a strictly decreasing function is accepted, and the events of a bin whose image covers several bins within the range are lost: here the four
bins [0,1] ... [3,4] under x ↦ 4 - 2x, where the image [2,4] of the first bin lies within the axis. -/
theorem C20_decreasing_loses : StrictAnti (fun x : ℚ => 4 - 2 * x) ∧
    (do let ax ← BinAxis.mkEqual "e" 0 4 4
        let c ← (empty : AxisCollection ℚ).addAxes [ax]
        let s ← (freshAxisSys "e" ["e"] c).constructScaleFunction (some (fun _ x => 4 - 2 * x)) []
        Res.traverse (fun b' => s.base.response.getComponent b' 0) (List.range c.nBins)) = .ok [0, 0, 0, 0] := by
  refine ⟨fun x y h => by simp only; linarith, by decide +kernel⟩

/-- C15, C23: the function of a shape systematic brings its own parameters: exactly the names given with it, all zero, whatever was there before; a
parameter can be set and read if and only if it is one of them, and setting one leaves the others. -/
theorem C23_function_parameters (s : Shape α) (f : ParamDict α → List α → α) (names : List String) :
    (s.setShapeFunction f names).func = some f ∧
    (∀ n, OwnParams.getParameter (s.setShapeFunction f names).params n = if n ∈ names then .ok 0 else .throw .parameter) ∧
    (∀ n v, n ∉ names → OwnParams.setParameter (s.setShapeFunction f names).params n v = .throw .parameter) ∧
    (∀ n v, n ∈ names → ∃ d, OwnParams.setParameter (s.setShapeFunction f names).params n v = .ok d ∧
      ∀ m, OwnParams.getParameter d m = if m = n then .ok v else OwnParams.getParameter (s.setShapeFunction f names).params m) := by
  have find : ∀ (l : List String) (d : ParamDict α) n, SMap.find (l.foldl (fun (d : ParamDict α) n => d.insert n 0) d) n =
      if n ∈ l then some 0 else SMap.find d n := by
    intro l
    induction l with
    | nil => intro d n; simp
    | cons x l ih =>
      intro d n
      rw [List.foldl_cons, ih, SMap.find_insert]
      by_cases h1 : n ∈ l
      · simp [h1]
      · by_cases h2 : x = n
        · subst h2; simp
        · simp [h1, h2, Ne.symm h2]
  have hf : ∀ n, SMap.find (s.setShapeFunction f names).params n = if n ∈ names then some 0 else none := fun n => find names [] n
  refine ⟨rfl, ?_, ?_, ?_⟩
  · intro n
    unfold OwnParams.getParameter
    rw [hf]
    by_cases h : n ∈ names <;> simp [h]
  · intro n v h
    unfold OwnParams.setParameter
    rw [hf, if_neg h]
  · intro n v h
    refine ⟨SMap.insert n v (s.setShapeFunction f names).params, ?_, ?_⟩
    · unfold OwnParams.setParameter
      rw [hf, if_pos h]
    · intro m
      unfold OwnParams.getParameter
      rw [SMap.find_insert]
      by_cases e : n = m
      · subst e; simp
      · simp [e, Ne.symm e]

-- a second function replaces the parameters of the first
example : OwnParams.getParameter ((Shape.new (α := ℚ)).setShapeFunction (fun _ _ => 1) ["a"] |>.setShapeFunction (fun _ _ => 2) ["b", "c"]).params "a" = .throw .parameter ∧
    OwnParams.getParameter ((Shape.new (α := ℚ)).setShapeFunction (fun _ _ => 1) ["a"] |>.setShapeFunction (fun _ _ => 2) ["b", "c"]).params "c" = .ok 0 := by
  constructor <;> decide +kernel

-- an increasing function of one parameter
example : StrictMono ((fun (pd : ParamDict ℚ) x => x * (1 + (SMap.find pd "s").getD 0)) [("s", 1/10)]) := by
  intro x y h
  simp only [SMap.find, if_true, Option.getD_some]
  linarith

end Oxsx
