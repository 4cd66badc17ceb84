import Verif.Spec.SystematicUse
import Verif.Lemmas.FitSystematics
import Verif.Props.SysParams
/-
Property C71 for the systematics of src/systematic as they are used in a fit: any number of parameter settings and constructions.
-/
set_option linter.unusedSectionVars false
set_option linter.unusedSimpArgs false
set_option linter.unusedVariables false
namespace Oxsx
open AxisCollection AxisSys
variable {α : Type} [Field α] [LinearOrder α] [IsStrictOrderedRing α]

namespace AnySys

theorem fit_construct (s : AnySys α) : (fit (α := α)).construct s = s.construct := rfl
theorem fit_set (s : AnySys α) (d : ParamDict α) : (fit (α := α)).setParameters s d = s.setParameters d := rfl

theorem used_scale {y : AxisSys α} {n : String} {v0 : α} {s : AnySys α} (h : (fit (α := α)).Used (.scale ⟨y, ⟨n, v0⟩⟩) s) :
    ∃ z w, s = .scale ⟨z, ⟨n, w⟩⟩ ∧ ∀ f, z.constructWith f = y.constructWith f := by
  induction h with
  | start => exact ⟨y, v0, rfl, fun _ => rfl⟩
  | set d _ ih =>
    obtain ⟨z, w, rfl, hz⟩ := ih
    rw [fit_set]
    simp only [setParameters, OneParam.setParameters]
    cases SMap.find d n with
    | none => exact ⟨z, w, rfl, hz⟩
    | some v => exact ⟨z, v, rfl, hz⟩
  | construct _ hc ih =>
    obtain ⟨z, w, rfl, hz⟩ := ih
    rw [fit_construct] at hc
    obtain ⟨q, hq, hc⟩ := Res.bind_eq_ok.1 hc
    cases hc
    unfold AxisSys.constructScale at hq
    obtain ⟨_, _, hq⟩ := Res.bind_eq_ok.1 hq
    exact ⟨q, w, rfl, fun f => (AxisSys.constructWith_again hq f).trans (hz f)⟩

theorem used_shift {y : AxisSys α} {n : String} {v0 : α} {s : AnySys α} (h : (fit (α := α)).Used (.shift ⟨y, ⟨n, v0⟩⟩) s) :
    ∃ z w, s = .shift ⟨z, ⟨n, w⟩⟩ ∧ ∀ f, z.constructWith f = y.constructWith f := by
  induction h with
  | start => exact ⟨y, v0, rfl, fun _ => rfl⟩
  | set d _ ih =>
    obtain ⟨z, w, rfl, hz⟩ := ih
    rw [fit_set]
    simp only [setParameters, OneParam.setParameters]
    cases SMap.find d n with
    | none => exact ⟨z, w, rfl, hz⟩
    | some v => exact ⟨z, v, rfl, hz⟩
  | construct _ hc ih =>
    obtain ⟨z, w, rfl, hz⟩ := ih
    rw [fit_construct] at hc
    obtain ⟨q, hq, hc⟩ := Res.bind_eq_ok.1 hc
    cases hc
    exact ⟨q, w, rfl, fun f => (AxisSys.constructWith_again hq f).trans (hz f)⟩

theorem used_scaleFunction {y : AxisSys α} {g : ParamDict α → α → α} {ps0 : OwnParams α} {s : AnySys α}
    (h : (fit (α := α)).Used (.scaleFunction y (some g) ps0) s) :
    ∃ z ps, s = .scaleFunction z (some g) ps ∧ z.base.transObs = y.base.transObs ∧ ∀ f, z.constructWith f = y.constructWith f := by
  induction h with
  | start => exact ⟨y, ps0, rfl, rfl, fun _ => rfl⟩
  | set d _ ih =>
    obtain ⟨z, ps, rfl, ho, hz⟩ := ih
    exact ⟨z, _, rfl, ho, hz⟩
  | construct _ hc ih =>
    obtain ⟨z, ps, rfl, ho, hz⟩ := ih
    rw [fit_construct] at hc
    obtain ⟨q, hq, hc⟩ := Res.bind_eq_ok.1 hc
    cases hc
    unfold AxisSys.constructScaleFunction at hq
    obtain ⟨_, _, hq⟩ := Res.bind_eq_ok.1 hq
    exact ⟨q, ps, rfl, (constructWith_obs hq).trans ho, fun f => (AxisSys.constructWith_again hq f).trans (hz f)⟩

theorem used_shape {y : Shape α} {s : AnySys α} (h : (fit (α := α)).Used (.shape y) s) :
    ∃ z, s = .shape z ∧ ∀ ps, ({ z with params := ps } : Shape α).construct = ({ y with params := ps } : Shape α).construct := by
  induction h with
  | start => exact ⟨y, rfl, fun _ => rfl⟩
  | set d _ ih =>
    obtain ⟨z, rfl, hz⟩ := ih
    exact ⟨_, rfl, fun ps => hz ps⟩
  | construct _ hc ih =>
    obtain ⟨z, rfl, hz⟩ := ih
    rw [fit_construct] at hc
    obtain ⟨q, hq, hc⟩ := Res.bind_eq_ok.1 hc
    cases hc
    exact ⟨q, rfl, fun ps => (Shape.construct_again hq ps).trans (hz ps)⟩

theorem used_renorm {y : Renorm α} {s : AnySys α} (h : (fit (α := α)).Used (.renorm y) s) :
    ∃ z, s = .renorm z ∧ ∀ ps, ({ z with params := ps } : Renorm α).construct = ({ y with params := ps } : Renorm α).construct := by
  induction h with
  | start => exact ⟨y, rfl, fun _ => rfl⟩
  | set d _ ih =>
    obtain ⟨z, rfl, hz⟩ := ih
    exact ⟨_, rfl, fun ps => hz ps⟩
  | construct _ hc ih =>
    obtain ⟨z, rfl, hz⟩ := ih
    rw [fit_construct] at hc
    obtain ⟨q, hq, hc⟩ := Res.bind_eq_ok.1 hc
    cases hc
    exact ⟨q, rfl, fun ps => (Renorm.construct_again hq ps).trans (hz ps)⟩

end AnySys

theorem updated_set (ps d : ParamDict α) (hs : SMap.Sorted d) : Updated ps d (OwnParams.setParameters ps d) := by
  intro k
  have := find_foldl_insert d hs ps k
  unfold OwnParams.setParameters
  rw [this]
  cases SMap.find d k <;> rfl

/-- C71 (scale, any history): whatever parameters were set and responses constructed before, setting a dictionary without the name is a
`ParameterError` that changes nothing; with it, constructing is a `ValueError` for a value that is not positive, and otherwise gives the
response of multiplying the observable by that value. -/
theorem C71_scale_history (as : List (BinAxis α)) (c : AxisCollection α)
    (hbuild : (empty : AxisCollection α).addAxes as = .ok c) (hc : ∀ a ∈ as, a.Contiguous)
    (k : Nat) (a : BinAxis α) (hk : as[k]? = some a) (hw : a.PosWidths)
    (tn : String) (dn : List String) (hd : dn.Nodup) (htn : dn[k]? = some tn) (n : String) (v0 : α)
    {s : AnySys α} (hu : AnySys.fit.Used (.scale ⟨freshAxisSys tn dn c, ⟨n, v0⟩⟩) s) (d : ParamDict α) :
    (SMap.find d n = none → AnySys.fit.setParameters s d = (s, .throw .parameter)) ∧
    ∀ v, SMap.find d n = some v → ∃ s1, AnySys.fit.setParameters s d = (s1, .ok ()) ∧
      AnySys.fit.getParameters s1 = .ok [(n, v)] ∧
      (v ≤ 0 → AnySys.fit.construct s1 = .throw .value) ∧
      (0 < v → ∃ s2, AnySys.fit.construct s1 = .ok s2 ∧ MovesBins c k a (fun x => x * v) (AnySys.fit.response s2)) := by
  obtain ⟨z, w, rfl, hz⟩ := AnySys.used_scale hu
  constructor
  · intro h
    rw [AnySys.fit_set]
    simp only [AnySys.setParameters, OneParam.setParameters, h]
  · intro v h
    refine ⟨.scale ⟨z, ⟨n, v⟩⟩, ?_, rfl, ?_, ?_⟩
    · rw [AnySys.fit_set]
      simp only [AnySys.setParameters, OneParam.setParameters, h]
    · intro hv
      rw [AnySys.fit_construct]
      simp only [AnySys.construct, (C20_scale_shift z v).1 hv]
      rfl
    · intro hv
      obtain ⟨e, hm⟩ := (C20_scale_shift z v).2.1 hv
      obtain ⟨q, q1, q2, q3, q4, q5⟩ := C20_response as c hbuild hc k a hk hw tn dn hd htn _ hm
      refine ⟨.scale ⟨q, ⟨n, v⟩⟩, ?_, q2, q3, q5⟩
      rw [AnySys.fit_construct]
      simp only [AnySys.construct, e, hz, q1]
      rfl

/-- C71 (shift, any history): as `C71_scale_history`, for any value, adding it to the observable. -/
theorem C71_shift_history (as : List (BinAxis α)) (c : AxisCollection α)
    (hbuild : (empty : AxisCollection α).addAxes as = .ok c) (hc : ∀ a ∈ as, a.Contiguous)
    (k : Nat) (a : BinAxis α) (hk : as[k]? = some a) (hw : a.PosWidths)
    (tn : String) (dn : List String) (hd : dn.Nodup) (htn : dn[k]? = some tn) (n : String) (v0 : α)
    {s : AnySys α} (hu : AnySys.fit.Used (.shift ⟨freshAxisSys tn dn c, ⟨n, v0⟩⟩) s) (d : ParamDict α) :
    (SMap.find d n = none → AnySys.fit.setParameters s d = (s, .throw .parameter)) ∧
    ∀ v, SMap.find d n = some v → ∃ s1 s2, AnySys.fit.setParameters s d = (s1, .ok ()) ∧
      AnySys.fit.getParameters s1 = .ok [(n, v)] ∧ AnySys.fit.construct s1 = .ok s2 ∧
      MovesBins c k a (fun x => x + v) (AnySys.fit.response s2) := by
  obtain ⟨z, w, rfl, hz⟩ := AnySys.used_shift hu
  constructor
  · intro h
    rw [AnySys.fit_set]
    simp only [AnySys.setParameters, OneParam.setParameters, h]
  · intro v h
    obtain ⟨e, hm⟩ := (C20_scale_shift z v).2.2
    obtain ⟨q, q1, q2, q3, q4, q5⟩ := C20_response as c hbuild hc k a hk hw tn dn hd htn _ hm
    refine ⟨.shift ⟨z, ⟨n, v⟩⟩, .shift ⟨q, ⟨n, v⟩⟩, ?_, rfl, ?_, q2, q3, q5⟩
    · rw [AnySys.fit_set]
      simp only [AnySys.setParameters, OneParam.setParameters, h]
    · rw [AnySys.fit_construct]
      simp only [AnySys.construct, e, hz, q1]
      rfl

/-- C71 (scale function, any history): the parameters after setting `d` are those of before with the values of `d` put in, and if the
user's function is strictly increasing at them, constructing gives its response. -/
theorem C71_function_history (as : List (BinAxis α)) (c : AxisCollection α)
    (hbuild : (empty : AxisCollection α).addAxes as = .ok c) (hc : ∀ a ∈ as, a.Contiguous)
    (k : Nat) (a : BinAxis α) (hk : as[k]? = some a) (hw : a.PosWidths)
    (tn : String) (dn : List String) (hd : dn.Nodup) (htn : dn[k]? = some tn) (g : ParamDict α → α → α) (ps0 : OwnParams α)
    {s : AnySys α} (hu : AnySys.fit.Used (.scaleFunction (freshAxisSys tn dn c) (some g) ps0) s) (d : ParamDict α)
    (hs : SMap.Sorted d) :
    ∃ ps ps' s1, AnySys.fit.getParameters s = .ok ps ∧ AnySys.fit.setParameters s d = (s1, .ok ()) ∧
      AnySys.fit.getParameters s1 = .ok ps' ∧ Updated ps d ps' ∧
      (StrictMono (g ps') → ∃ s2, AnySys.fit.construct s1 = .ok s2 ∧ MovesBins c k a (g ps') (AnySys.fit.response s2)) := by
  obtain ⟨z, ps, rfl, ho, hz⟩ := AnySys.used_scaleFunction hu
  refine ⟨ps, OwnParams.setParameters ps d, _, rfl, rfl, rfl, updated_set ps d hs, ?_⟩
  intro hm
  obtain ⟨q, q1, q2, q3, q4, q5⟩ := C20_response as c hbuild hc k a hk hw tn dn hd htn _ hm
  refine ⟨.scaleFunction q (some g) (OwnParams.setParameters ps d), ?_, q2, q3, q5⟩
  show AnySys.construct (.scaleFunction z (some g) (OwnParams.setParameters ps d)) = _
  simp only [AnySys.construct, AxisSys.constructScaleFunction, ho]
  rw [Res.throwIf_false_of (by simp [freshAxisSys, AxisSys.setAxes, AxisSys.setObs, SysBase.setAxes, SysBase.setTransformationObs,
    SysBase.setDistributionObs, ObsSet.ofNames])]
  simp only [Res.ok_bind, hz, q1]
  rfl

/-- C71 (shape, any history): the parameters after setting `d` are those of before with the values of `d` put in; constructing is a
`ValueError` if the function at them is negative at the centre of some bin, and otherwise gives the diagonal response whose entry for
bin `b` is the function at the centre of `b`. -/
theorem C71_shape_history (as : List (BinAxis α)) (c : AxisCollection α)
    (hbuild : (empty : AxisCollection α).addAxes as = .ok c) (hne : as ≠ []) (hc : ∀ a ∈ as, a.Contiguous)
    (f : ParamDict α → List α → α) (pnames tns dn : List String) (hdn : dn.Nodup) (hlen : dn.length = as.length)
    (htn : tns.Nodup) (htne : tns ≠ []) (hsub : ∀ n ∈ tns, n ∈ dn)
    {s : AnySys α} (hu : AnySys.fit.Used (.shape (freshShape f pnames tns dn c)) s) (d : ParamDict α) (hs : SMap.Sorted d) :
    ∃ ps ps' s1, AnySys.fit.getParameters s = .ok ps ∧ AnySys.fit.setParameters s d = (s1, .ok ()) ∧
      AnySys.fit.getParameters s1 = .ok ps' ∧ Updated ps d ps' ∧
      ((∃ b xs, b < c.nBins ∧ centresAlong c dn tns b = .ok xs ∧ f ps' xs < 0) → AnySys.fit.construct s1 = .throw .value) ∧
      ((∀ b xs, b < c.nBins → centresAlong c dn tns b = .ok xs → 0 ≤ f ps' xs) → ∃ s2, AnySys.fit.construct s1 = .ok s2 ∧
        ∀ b b' xs, b < c.nBins → b' < c.nBins → centresAlong c dn tns b = .ok xs →
          (AnySys.fit.response s2).getComponent b' b = .ok (if b' = b then f ps' xs else 0)) := by
  obtain ⟨z, rfl, hz⟩ := AnySys.used_shape hu
  refine ⟨z.params, OwnParams.setParameters z.params d, _, rfl, rfl, rfl, updated_set _ d hs, ?_⟩
  obtain ⟨_, h1, h2⟩ := C23_shape as c hbuild hne hc f pnames tns dn hdn hlen htn htne hsub [] _ rfl
    (OwnParams.setParameters z.params d)
  constructor
  · intro h
    rw [AnySys.fit_construct]
    simp only [AnySys.construct]
    rw [hz, h1 h]
    rfl
  · intro h
    obtain ⟨s', e1, e2, _⟩ := h2 h
    refine ⟨.shape s', ?_, e2⟩
    rw [AnySys.fit_construct]
    simp only [AnySys.construct]
    rw [hz, e1]
    rfl

/-- Non-vacuity: a scale that was constructed at 2, refused a dictionary and is then set to 11/10. -/
example : ∃ s : AnySys ℚ, AnySys.fit.Used (.scale ⟨freshAxisSys "r" ["e", "r", "t"] exColl, ⟨"s", 1⟩⟩) s ∧
    AnySys.fit.getParameters s = .ok [("s", 2)] ∧
    (AnySys.fit.construct (AnySys.fit.setParameters s [("a", 5), ("s", 11/10)]).1 >>= fun q =>
      (AnySys.fit.response q).getComponent 2 0) = .ok (1/11) := by
  have h : (AnySys.construct (AnySys.setParameters (.scale ⟨freshAxisSys "r" ["e", "r", "t"] exColl, ⟨"s", (1 : ℚ)⟩⟩) [("s", 2)]).1 >>=
      fun s => (AnySys.getParameters s >>= fun p =>
      (AnySys.construct (AnySys.setParameters (AnySys.setParameters s [("x", 3)]).1 [("a", 5), ("s", 11/10)]).1 >>= fun q =>
        (AnySys.response q).getComponent 2 0) >>= fun x => Res.ok (p, x))) = .ok ([("s", 2)], 1/11) := by decide +kernel
  obtain ⟨s, hs, h⟩ := Res.bind_eq_ok.1 h
  obtain ⟨p, hp, h⟩ := Res.bind_eq_ok.1 h
  obtain ⟨x, hx, h⟩ := Res.bind_eq_ok.1 h
  have hfin := Prod.mk.inj (Res.ok.inj h)
  have hu : AnySys.fit.Used (.scale ⟨freshAxisSys "r" ["e", "r", "t"] exColl, ⟨"s", (1 : ℚ)⟩⟩) s :=
    .construct (.set [("s", 2)] .start) hs
  obtain ⟨z, w, hzw, _⟩ := AnySys.used_scale hu
  subst hzw
  refine ⟨_, .set [("x", 3)] hu, ?_, ?_⟩
  · rw [hfin.1] at hp; exact hp
  · rw [hfin.2] at hx; exact hx

end Oxsx
