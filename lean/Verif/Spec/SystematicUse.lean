import Verif.Spec.Axis
import Verif.Spec.Systematic
import Verif.Spec.BinnedNLLH
/-
Specification side of a systematic used in a fit.
-/
namespace Oxsx
variable {σ α : Type} [Field α] [LinearOrder α]

/-- What calls make of a systematic: parameters set (successfully or not) and responses constructed, any number of times in any
order. -/
inductive FitSys.Used (C : FitSys σ α) (s0 : σ) : σ → Prop
  | start : Used C s0 s0
  | set {s} (d : ParamDict α) : Used C s0 s → Used C s0 (C.setParameters s d).1
  | construct {s s'} : Used C s0 s → C.construct s = .ok s' → Used C s0 s'

/-- `m` moves contents along axis `k` as the map `t` moves the observable: from bin `b` to bin `b'`, which agree on all other axes,
goes the fraction of the image under `t` of the interval of `b` that lies in the interval of `b'`; between other bins nothing. -/
def MovesBins (c : AxisCollection α) (k : Nat) (a : BinAxis α) (t : α → α) (m : Matrix' α) : Prop :=
  m.nRows = c.nBins ∧ m.nCols = c.nBins ∧
  ∀ b b', b < c.nBins → b' < c.nBins → ∀ is is' : List Nat, c.unpackIndices b = .ok is → c.unpackIndices b' = .ok is' →
    (AgreeOff k is is' → ∀ i j lo hi lo' hi', is[k]? = some i → is'[k]? = some j → a.BinIs i lo hi → a.BinIs j lo' hi' →
      m.getComponent b' b = .ok (overlapFrac (t lo) (t hi) lo' hi')) ∧
    (¬ AgreeOff k is is' → m.getComponent b' b = .ok 0)

/-- `ps'` is `ps` with the values of `d` put in. -/
def Updated (ps d ps' : ParamDict α) : Prop := ∀ k, SMap.find ps' k = (SMap.find d k).or (SMap.find ps k)

end Oxsx
