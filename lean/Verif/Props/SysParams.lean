import Verif.Props.Shape
import Verif.Props.Parameters
/-
Property C16 for the systematics which manage their own parameters, and C71: the response follows the fit parameters.
-/
set_option linter.unusedSectionVars false
set_option linter.unusedSimpArgs false
set_option linter.unusedVariables false
namespace Oxsx
open AxisCollection

section
variable {α : Type}

/-- C16 (systematics with their own dictionary: shape, renormalisation, scale function): renaming an absent parameter is
a `ParameterError`; renaming to an unused name moves the value and leaves every other parameter and the count alone.
Missing: renaming onto an existing name, `C16_own_rename_wrong`. -/
theorem C16_own_rename_partial (d : OwnParams α) (hs : SMap.Sorted d) (old new : String) :
    (SMap.find d old = none → d.renameParameter old new = .throw .parameter) ∧
    (∀ v, SMap.find d old = some v → SMap.find d new = none → ∃ d', d.renameParameter old new = .ok d' ∧
      SMap.Sorted d' ∧ List.length d' = List.length d ∧ d'.getParameter new = .ok v ∧
      d'.getParameter old = .throw .parameter ∧
      ∀ k, k ≠ old → k ≠ new → d'.getParameter k = d.getParameter k) := by
  unfold OwnParams.renameParameter
  constructor
  · intro h; rw [h]
  · intro v hv hn
    rw [hv]
    have hne : new ≠ old := by rintro rfl; rw [hv] at hn; cases hn
    have hsort := SMap.sorted_erase (SMap.sorted_insert hs new v) old
    have hfind : ∀ k, SMap.find ((SMap.insert new v d).erase old) k
        = if old = k then none else if new = k then some v else SMap.find d k := by
      intro k; rw [SMap.find_erase, SMap.find_insert]
    have ho : old ∈ SMap.keys d := (SMap.find_isSome_iff d old).1 (by rw [hv]; rfl)
    have hn' : new ∉ SMap.keys d := (SMap.find_none_iff d new).1 hn
    refine ⟨_, rfl, hsort, ?_, ?_, ?_, ?_⟩
    · have hp : (SMap.keys ((SMap.insert new v d).erase old)).Perm (new :: (SMap.keys d).erase old) := by
        apply (List.perm_ext_iff_of_nodup (SMap.sorted_nodup hsort) ?_).2
        · intro k
          rw [← SMap.find_isSome_iff, hfind, List.mem_cons, (SMap.sorted_nodup hs).mem_erase_iff,
            ← SMap.find_isSome_iff]
          by_cases h1 : old = k
          · subst h1; simp [Ne.symm hne]
          · by_cases h2 : new = k
            · subst h2; simp [h1]
            · simp [h1, h2, Ne.symm h1, Ne.symm h2]
        · rw [List.nodup_cons]
          exact ⟨fun h => hn' (List.mem_of_mem_erase h), (SMap.sorted_nodup hs).erase _⟩
      have := hp.length_eq
      rw [List.length_cons, List.length_erase_of_mem ho] at this
      have hpos : 0 < (SMap.keys d).length := List.length_pos_of_mem ho
      simp only [SMap.keys, List.length_map] at this hpos
      omega
    · unfold OwnParams.getParameter; rw [hfind]; simp [Ne.symm hne]
    · unfold OwnParams.getParameter; rw [hfind]; simp
    · intro k h1 h2
      unfold OwnParams.getParameter; rw [hfind]; simp [Ne.symm h1, Ne.symm h2]

/-- The part of C16 that is false of those systematics, for every dictionary: renaming a parameter to its own name
deletes it, and renaming onto another existing name is accepted and loses that parameter's value. -/
theorem C16_own_rename_wrong (d : OwnParams α) (old new : String) (v w : α) (ho : SMap.find d old = some v)
    (hn : SMap.find d new = some w) :
    (∃ d', d.renameParameter old old = .ok d' ∧ d'.getParameter old = .throw .parameter) ∧
    (old ≠ new → ∃ d', d.renameParameter old new = .ok d' ∧ d'.getParameter new = .ok v) := by
  unfold OwnParams.renameParameter
  rw [ho]
  constructor
  · refine ⟨_, rfl, ?_⟩
    unfold OwnParams.getParameter; rw [SMap.find_erase]; simp
  · intro h
    refine ⟨_, rfl, ?_⟩
    unfold OwnParams.getParameter; rw [SMap.find_erase, SMap.find_insert]; simp [h]

example : SMap.Sorted ([("a", 1), ("b", 2)] : OwnParams ℚ) ∧
    OwnParams.renameParameter ([("a", 1), ("b", 2)] : OwnParams ℚ) "a" "b" = .ok [("b", 1)] ∧
    OwnParams.renameParameter ([("a", 1), ("b", 2)] : OwnParams ℚ) "a" "a" = .ok [("b", 2)] ∧
    OwnParams.renameParameter ([("a", 1), ("b", 2)] : OwnParams ℚ) "a" "c" = .ok [("b", 2), ("c", 1)] := by
  decide +kernel

/-- C16 (scale and shift, one parameter): rename keeps the value, an unknown old name is a `ParameterError`. -/
theorem C16_one_rename (p : OneParam α) (old new : String) :
    (old ≠ p.name → p.renameParameter old new = .throw .parameter) ∧
    (old = p.name → ∃ p', p.renameParameter old new = .ok p' ∧ p'.getParameter new = .ok p.val ∧
      (new ≠ old → p'.getParameter old = .throw .parameter)) := by
  unfold OneParam.renameParameter OneParam.getParameter
  constructor
  · intro h; rw [if_pos h]
  · rintro rfl
    rw [if_neg (by simp)]
    exact ⟨_, rfl, by simp, fun h => by simp [Ne.symm h]⟩

example : OneParam.renameParameter (⟨"scale", 3⟩ : OneParam ℚ) "scale" "s2" = .ok ⟨"s2", 3⟩ := by decide +kernel
end

/-! ### C71 -/

variable {α : Type} [Field α] [LinearOrder α] [IsStrictOrderedRing α]

/-- C71 (scale, shift): setting the parameters and constructing gives exactly the response for the value under the
systematic's parameter name, whatever was set before; a dictionary without the name is a `ParameterError`. -/
theorem C71_scale_shift (s : AxisSys α) (n : String) (old : α) (pd : ParamDict α) :
    (SMap.find pd n = none → (ScaleSys.mk s ⟨n, old⟩).setAndConstruct pd = .throw .parameter ∧
      (ShiftSys.mk s ⟨n, old⟩).setAndConstruct pd = .throw .parameter) ∧
    (∀ v, SMap.find pd n = some v →
      (ScaleSys.mk s ⟨n, old⟩).setAndConstruct pd = (s.constructScale v >>= fun y => .ok ⟨y, ⟨n, v⟩⟩) ∧
      (ShiftSys.mk s ⟨n, old⟩).setAndConstruct pd = (s.constructShift v >>= fun y => .ok ⟨y, ⟨n, v⟩⟩)) := by
  unfold ScaleSys.setAndConstruct ShiftSys.setAndConstruct OneParam.setParameters
  constructor
  · intro h; simp only [h]; exact ⟨rfl, rfl⟩
  · intro v h; simp only [h, Res.ok_bind]; exact ⟨rfl, rfl⟩

/-- What an update does to a dictionary. -/
theorem find_foldl_insert {β : Type} (pd : SMap β) (hs : SMap.Sorted pd) (d : SMap β) (k : String) :
    SMap.find (pd.foldl (fun (m : SMap β) p => SMap.insert p.1 p.2 m) d) k =
      match SMap.find pd k with
      | some v => some v
      | none => SMap.find d k := by
  induction pd generalizing d with
  | nil => rfl
  | cons p r ih =>
    obtain ⟨k', v⟩ := p
    have hs' : SMap.Sorted r := (List.pairwise_cons.1 hs).2
    simp only [List.foldl_cons]
    rw [ih hs', SMap.find_cons]
    by_cases h : k' = k
    · subst h
      have : SMap.find r k' = none := by
        rw [SMap.find_none_iff]
        intro hm
        obtain ⟨q, hq, he⟩ := List.mem_map.1 hm
        have := (List.pairwise_cons.1 hs).1 q hq
        simp only at this
        rw [he] at this
        exact lt_irrefl _ this
      simp [this, SMap.find_insert]
    · simp only [h, if_false]
      rw [SMap.find_insert, if_neg h]

/-- C71 (shape): after setting parameters, the dictionary handed to the shape function has each given value under its
name and keeps the others; the response is the one of C23 with that dictionary. -/
theorem C71_shape (s : Shape α) (pd : ParamDict α) (hs : SMap.Sorted pd) :
    ∃ d, (∀ k, SMap.find d k = match SMap.find pd k with
        | some v => some v
        | none => SMap.find s.params k) ∧
      s.setAndConstruct pd = ({ s with params := d } : Shape α).construct :=
  ⟨_, fun k => find_foldl_insert pd hs s.params k, rfl⟩

/-- C71 is false of the renormalisation systematic: whatever the fit sets, the response is unchanged — it depends only on
the factor given to `SetScaleFactor`, and if that was never called, reading it is undefined behaviour. -/
theorem C71_renorm_ignores_parameters_wrong (r : Renorm α) (pd : ParamDict α) :
    ((r.setAndConstruct pd) >>= fun q => .ok q.base.response) = (r.construct >>= fun q => .ok q.base.response) ∧
    (r.scaleFactor = none → 0 < r.base.axes.nBins → r.base.response.nRows = r.base.axes.nBins →
      r.base.response.nCols = r.base.axes.nBins → r.setAndConstruct pd = .ub) := by
  unfold Renorm.setAndConstruct Renorm.construct Renorm.setParameters
  constructor
  · simp only
    by_cases h : r.base.axes.nBins = 0
    · rw [Res.throwIf_true_of h]; rfl
    · rw [Res.throwIf_false_of h]
      simp only [Res.ok_bind]
      cases r.base.response.setToIdentity with
      | ok m =>
        simp only [Res.ok_bind]
        cases r.scaleFactor <;> rfl
      | throw e => rfl
      | ub => rfl
  · intro h hp h1 h2
    simp only
    rw [Res.throwIf_false_of (by omega)]
    simp only [Res.ok_bind]
    unfold Matrix'.setToIdentity
    rw [if_neg (by omega)]
    simp only [Res.ok_bind, h]

/-- Renorm with the factor given by `SetScaleFactor`: every entry `(i, j)` of the response is the factor on the diagonal
and zero elsewhere. -/
theorem C71_renorm_partial (r : Renorm α) (f : α) (hn : 0 < r.base.axes.nBins) (hs : r.base.response.Sized)
    (h1 : r.base.response.nRows = r.base.axes.nBins) (h2 : r.base.response.nCols = r.base.axes.nBins) :
    ∃ r', (r.setScaleFactor f).construct = .ok r' ∧ ∀ i j, i < r.base.axes.nBins → j < r.base.axes.nBins →
      r'.base.response.getComponent i j = .ok (if i = j then f else 0) := by
  have : (r.setScaleFactor f).construct = .ok { r with
      scaleFactor := some f,
      base := { r.base with response := ({ r.base.response with arma := r.base.response.arma.eye } : Matrix' α).scale f } } := by
    unfold Renorm.construct Renorm.setScaleFactor
    simp only
    rw [Res.throwIf_false_of (by omega)]
    simp only [Res.ok_bind]
    unfold Matrix'.setToIdentity
    rw [if_neg (by omega)]
    rfl
  refine ⟨_, this, ?_⟩
  intro i j hi hj
  simp only
  unfold Matrix'.getComponent ArmaMat.get
  simp only [Matrix'.scale, ArmaMat.eye]
  have e1 : ¬ (j ≥ r.base.response.nCols ∨ i ≥ r.base.response.nRows) := by omega
  have e2 : i < r.base.response.arma.rows ∧ j < r.base.response.arma.cols := by rw [hs.1, hs.2]; omega
  simp only [e1, e2, if_false, if_true, and_self]
  by_cases h : i = j <;> simp [h]

example : ((ScaleSys.mk (freshAxisSys "r" ["e", "r", "t"] exColl) ⟨"s", 1⟩).setAndConstruct [("a", 5), ("s", 11/10)] >>=
    fun q => q.sys.base.response.getComponent 2 0) = .ok (1/11) := by decide +kernel

end Oxsx
