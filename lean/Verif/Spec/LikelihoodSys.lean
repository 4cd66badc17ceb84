import Verif.Spec.BinnedNLLH
import Verif.Spec.SystematicManager
/-
Specification side of a likelihood with systematics: histories of calls with a record of what was added.
-/
namespace Oxsx
variable {σ α : Type} [Field α] [LinearOrder α]

/-- `AddSystematic(p)` or `AddSystematic(p, g)`. -/
def ManagerCall.addSys (p : Nat) : Option String → ManagerCall
  | none => .add p
  | some g => .addTo p g

/-- As `NLLH.Reached`, recording the systematics added and the groups each distribution was given (`calls`), and the distributions
added with their fitting statuses (`log`), in the order of the calls. -/
inductive NLLH.Recorded (name : Nat → String) (C : FitSys σ α) (M : CMath α) :
    List ManagerCall → List (BinnedED α × NormStatus) → NLLH σ α → Prop
  | new (objs) : Recorded name C M [] [] (.new objs)
  | addPdf {calls log L L'} (pdf : BinnedED α) (groups : Option (List String)) (rate st) : Recorded name C M calls log L →
      L.addPdf name pdf groups rate st = .ok L' →
      Recorded name C M (calls ++ [.addDist pdf.name (groups.getD [""])]) (log ++ [(pdf, st)]) L'
  | addSystematic {calls log L L'} (p : Nat) (g : Option String) : Recorded name C M calls log L →
      L.addSystematic name p g = .ok L' → Recorded name C M (calls ++ [.addSys p g]) log L'
  | setNormalisations {calls log L L'} (ns) : Recorded name C M calls log L → L.setNormalisations ns = .ok L' →
      Recorded name C M calls log L'
  | setDataDist {calls log L} (d) : Recorded name C M calls log L → Recorded name C M calls log (L.setDataDist d)
  | setDataSet {calls log L} (d) : Recorded name C M calls log L → Recorded name C M calls log (L.setDataSet d)
  | setBarlowBeeston {calls log L} (b) : Recorded name C M calls log L → Recorded name C M calls log (L.setBarlowBeeston b)
  | setBuffer {calls log L} (dim lower upper) : Recorded name C M calls log L →
      Recorded name C M calls log (L.setBuffer dim lower upper)
  | setBufferAsOverflow {calls log L} (b) : Recorded name C M calls log L → Recorded name C M calls log (L.setBufferAsOverflow b)
  | registerFitComponents {calls log L} : Recorded name C M calls log L → Recorded name C M calls log (L.registerFitComponents name)
  | setParameters {calls log L} (d) : Recorded name C M calls log L → Recorded name C M calls log (L.setParameters C d).1
  | setObjects {calls log L} (objs) : Recorded name C M calls log L → Recorded name C M calls log { L with objs := objs }
  | setConstraints {calls log L} (c) : Recorded name C M calls log L → Recorded name C M calls log { L with constraints := c }
  | setCuts {calls log L} (c) : Recorded name C M calls log L → Recorded name C M calls log { L with cuts := c }
  | evaluate {calls log L L' v} : Recorded name C M calls log L → L.evaluate C M = .ok (v, L') → Recorded name C M calls log L'

/-- `R p` is the response systematic number `p` has at its current parameters. -/
def NLLH.CurrentResponse (C : FitSys σ α) (L : NLLH σ α) (p : Nat) (r : Matrix' α) : Prop :=
  ∃ s, C.construct (L.objs p) = .ok s ∧ C.response s = r

/-- `v` is what the systematics acting on a distribution of contents `c`, assigned to groups `gs`, make of it: their responses `R`
applied one after the other (global group first, then the groups in the order given, in each the order added). -/
def Distorts (calls : List ManagerCall) (R : Nat → Matrix' α) (gs : List String) (c v : List α) : Prop :=
  applyInOrder ((SysLog.acting calls gs).map R) c = .ok v

/-- The expected rate in a bin, from the distorted contents of each distribution. -/
def distortedRate (value : String → α) (log : List (BinnedED α × NormStatus)) (cs : List (List α)) (bin : Nat) : α :=
  ((log.zip cs).map (fun q => normOf value q.1 * q.2.getD bin 0)).sum

end Oxsx
