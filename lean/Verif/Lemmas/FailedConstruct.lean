import Verif.Model.FailedConstruct
import Verif.Lemmas.FailedCalls
import Verif.Lemmas.FitSystematics
/- A call of `Construct`, failing or not, leaves a systematic that behaves as before. -/
set_option linter.unusedSectionVars false
set_option linter.unusedSimpArgs false
set_option linter.unusedVariables false
namespace Oxsx
variable {α : Type} [Field α] [LinearOrder α]

theorem Res.bind_assoc' {A B D : Type} (x : Res A) (f : A → Res B) (g : B → Res D) : ((x >>= f) >>= g) = (x >>= fun a => f a >>= g) := by
  cases x <;> rfl

namespace AxisSys

theorem done_fillResponse (s : AxisSys α) (vals : List (List (Nat × α))) : Res.done (s.fillResponseLeft vals) = s.fillResponse vals := by
  unfold fillResponseLeft fillResponse
  cases s.base.response.setZeros with
  | throw e => rfl
  | ub => rfl
  | ok m0 =>
    simp only [Res.ok_bind]
    rw [Res.done_map (fun (m : Matrix' α) => ({ s with base := { s.base with response := m } } : AxisSys α)), Res.done_forLeft]
    congr 1
    congr 1
    funext m b
    cases at_ s.distTrans b with
    | throw e => rfl
    | ub => rfl
    | ok k =>
      simp only [Res.ok_bind]
      cases at_ vals k with
      | throw e => rfl
      | ub => rfl
      | ok ps =>
        simp only
        rw [Res.done_forLeft]
        simp only [Res.done_keep]
        rfl

theorem done_constructWith (s : AxisSys α) (t : α → α) : Res.done (s.constructWithLeft t) = s.constructWith t := by
  unfold constructWithLeft constructWith
  by_cases h1 : s.base.transObs.names.length ≠ 1
  · rw [if_pos h1, Res.throwIf_true_of h1]; rfl
  · rw [if_neg h1, Res.throwIf_false_of h1]
    simp only [Res.ok_bind]
    by_cases h2 : s.base.axes.nBins = 0
    · rw [if_pos h2, Res.throwIf_true_of h2]; rfl
    · rw [if_neg h2, Res.throwIf_false_of h2]
      simp only [Res.ok_bind]
      rw [Res.done_andThen']
      have e : Res.done (if s.cached = true then (s, Res.ok ()) else Res.keep s s.cacheBinMapping) =
          (if s.cached = true then pure s else s.cacheBinMapping) := by
        split
        · rfl
        · exact Res.done_keep _ _
      rw [e]
      congr 1
      funext c
      cases transIndex c.base with
      | throw e => rfl
      | ub => rfl
      | ok ti =>
        simp only [Res.ok_bind]
        cases c.base.axes.getAxis ti with
        | throw e => rfl
        | ub => rfl
        | ok ax =>
          simp only [Res.ok_bind]
          cases Res.traverse (valsOfBin ax t) (List.range ax.nBins) with
          | throw e => rfl
          | ub => rfl
          | ok vals =>
            simp only [Res.ok_bind]
            exact done_fillResponse c vals

/-- The mapping cached or not, the response overwritten or not. -/
theorem constructWith_left {s c : AxisSys α} (hc : c = s ∨ (s.cached = false ∧ s.cacheBinMapping = .ok c)) {r : Matrix' α}
    (h1 : r.nRows = s.base.response.nRows) (h2 : r.nCols = s.base.response.nCols) (t : α → α) :
    ({ c with base := { c.base with response := r } } : AxisSys α).constructWith t = s.constructWith t := by
  have hcb : c.base = s.base := by
    rcases hc with rfl | ⟨_, hc⟩
    · rfl
    · exact (cache_base hc).1
  unfold constructWith
  simp only
  rw [hcb]
  congr 1
  funext _
  congr 1
  funext _
  have tail : ∀ (c : AxisSys α), c.base = s.base →
      (do
        let ti ← transIndex { s.base with response := r }
        let ax ← s.base.axes.getAxis ti
        let vals ← Res.traverse (valsOfBin ax t) (List.range ax.nBins)
        ({ c with base := { s.base with response := r } } : AxisSys α).fillResponse vals) =
      (do
        let ti ← transIndex c.base
        let ax ← c.base.axes.getAxis ti
        let vals ← Res.traverse (valsOfBin ax t) (List.range ax.nBins)
        c.fillResponse vals) := by
    intro c hb
    have : transIndex { s.base with response := r } = transIndex c.base := by rw [hb]; rfl
    rw [this, ← hb]
    congr 1
    funext ti
    congr 1
    funext ax
    congr 1
    funext vals
    exact fill_again (by rw [hb]; exact h1) (by rw [hb]; exact h2) vals
  rcases hc with rfl | ⟨hn, hc⟩
  · by_cases hs : c.cached = true
    · rw [if_pos hs, if_pos hs]
      simp only [Res.pure_eq, Res.ok_bind]
      exact tail c rfl
    · rw [if_neg hs, if_neg hs]
      have e : ({ c with base := { c.base with response := r } } : AxisSys α).cacheBinMapping =
          (c.cacheBinMapping >>= fun k => pure { k with base := { k.base with response := r } }) := by
        unfold cacheBinMapping
        simp only [Res.bind_assoc', Res.ok_bind, Res.pure_eq]
        rfl
      rw [e]
      cases hk : c.cacheBinMapping with
      | throw e => rfl
      | ub => rfl
      | ok k =>
        simp only [Res.pure_eq, Res.ok_bind]
        have := (cache_base hk).1
        rw [this]
        have t := tail k this
        rw [this] at t
        exact t
  · obtain ⟨hb, hct⟩ := cache_base hc
    rw [if_pos hct, if_neg (by simp [hn]), hc]
    simp only [Res.pure_eq, Res.ok_bind]
    exact tail c hb

theorem constructWithLeft_shape (s : AxisSys α) (t : α → α) : ∃ c r, (s.constructWithLeft t).1 = { c with base := { c.base with response := r } } ∧
    (c = s ∨ (s.cached = false ∧ s.cacheBinMapping = .ok c)) ∧
    r.nRows = s.base.response.nRows ∧ r.nCols = s.base.response.nCols := by
  have triv : ∃ c r, s = { c with base := { c.base with response := r } } ∧ (c = s ∨ (s.cached = false ∧ s.cacheBinMapping = .ok c)) ∧
    r.nRows = s.base.response.nRows ∧ r.nCols = s.base.response.nCols := ⟨s, s.base.response, rfl, .inl rfl, rfl, rfl⟩
  have fill : ∀ (c : AxisSys α) vals, (c = s ∨ (s.cached = false ∧ s.cacheBinMapping = .ok c)) →
      ∃ c' r, (c.fillResponseLeft vals).1 = { c' with base := { c'.base with response := r } } ∧
      (c' = s ∨ (s.cached = false ∧ s.cacheBinMapping = .ok c')) ∧
      r.nRows = s.base.response.nRows ∧ r.nCols = s.base.response.nCols := by
    intro c vals hc
    have hcb : c.base = s.base := by
      rcases hc with rfl | ⟨_, hc⟩
      · rfl
      · exact (cache_base hc).1
    unfold fillResponseLeft
    cases h0 : c.base.response.setZeros with
    | throw e => exact ⟨c, c.base.response, rfl, hc, by rw [hcb], by rw [hcb]⟩
    | ub => exact ⟨c, c.base.response, rfl, hc, by rw [hcb], by rw [hcb]⟩
    | ok m0 =>
      refine ⟨c, _, rfl, hc, ?_⟩
      have e0 : m0.nRows = s.base.response.nRows ∧ m0.nCols = s.base.response.nCols := by
        unfold Matrix'.setZeros at h0
        split at h0
        · cases h0
        · cases h0; rw [hcb]; exact ⟨rfl, rfl⟩
      refine Res.forLeft_inv (fun (m : Matrix' α) => m.nRows = s.base.response.nRows ∧ m.nCols = s.base.response.nCols) e0 ?_
      intro m b hm _
      split
      · exact hm
      · exact hm
      · refine Res.forLeft_inv (fun (m : Matrix' α) => m.nRows = s.base.response.nRows ∧ m.nCols = s.base.response.nCols) hm ?_
        intro m p hm _
        refine Res.keep_inv (fun (m : Matrix' α) => m.nRows = s.base.response.nRows ∧ m.nCols = s.base.response.nCols) hm ?_
        intro m' hm'
        unfold fillStep at hm'
        obtain ⟨_, _, hm'⟩ := Res.bind_eq_ok.1 hm'
        have := Matrix'.setComponent_size hm'
        exact ⟨this.1.trans hm.1, this.2.1.trans hm.2⟩
  unfold constructWithLeft
  split
  · exact triv
  · split
    · exact triv
    · have step : ∀ (c : AxisSys α), (c = s ∨ (s.cached = false ∧ s.cacheBinMapping = .ok c)) →
          ∃ c' r, (match (do
            let ti ← transIndex c.base
            let ax ← c.base.axes.getAxis ti
            Res.traverse (valsOfBin ax t) (List.range ax.nBins) : Res (List (List (Nat × α)))) with
          | .throw e => (c, .throw e)
          | .ub => (c, .ub)
          | .ok vals => c.fillResponseLeft vals : AxisSys α × Res Unit).1 = { c' with base := { c'.base with response := r } } ∧
          (c' = s ∨ (s.cached = false ∧ s.cacheBinMapping = .ok c')) ∧
          r.nRows = s.base.response.nRows ∧ r.nCols = s.base.response.nCols := by
        intro c hc
        have hcb : c.base = s.base := by
          rcases hc with rfl | ⟨_, hc⟩
          · rfl
          · exact (cache_base hc).1
        split
        · exact ⟨c, c.base.response, rfl, hc, by rw [hcb], by rw [hcb]⟩
        · exact ⟨c, c.base.response, rfl, hc, by rw [hcb], by rw [hcb]⟩
        · exact fill c _ hc
      by_cases hs : s.cached = true
      · rw [if_pos hs]
        exact step s (.inl rfl)
      · rw [if_neg hs]
        cases hk : s.cacheBinMapping with
        | throw e => exact ⟨s, s.base.response, rfl, .inl rfl, rfl, rfl⟩
        | ub => exact ⟨s, s.base.response, rfl, .inl rfl, rfl, rfl⟩
        | ok c =>
          have := step c (.inr ⟨by simpa using hs, hk⟩)
          rw [hk] at this
          exact this

theorem constructWithLeft_again (s : AxisSys α) (t t' : α → α) : (s.constructWithLeft t).1.constructWith t' = s.constructWith t' := by
  obtain ⟨c, r, e, hc, h1, h2⟩ := constructWithLeft_shape s t
  rw [e]
  exact constructWith_left hc h1 h2 t'

theorem constructWithLeft_obs (s : AxisSys α) (t : α → α) : (s.constructWithLeft t).1.base.transObs = s.base.transObs := by
  obtain ⟨c, r, e, hc, h1, h2⟩ := constructWithLeft_shape s t
  rw [e]
  rcases hc with rfl | ⟨_, hc⟩
  · rfl
  · show c.base.transObs = _
    rw [(cache_base hc).1]

end AxisSys

namespace Shape

theorem done_construct (s : Shape α) : Res.done s.constructLeft = s.construct := by
  unfold constructLeft construct
  cases s.func with
  | none => rfl
  | some f =>
    simp only
    by_cases h2 : s.base.axes.nBins = 0
    · rw [if_pos h2, Res.throwIf_true_of h2]; rfl
    · rw [if_neg h2, Res.throwIf_false_of h2]
      simp only [Res.ok_bind]
      rw [Res.done_andThen']
      have e : Res.done (if s.cached = true then (s, Res.ok ()) else Res.keep s s.cacheBinMapping) =
          (if s.cached = true then pure s else s.cacheBinMapping) := by
        split
        · rfl
        · exact Res.done_keep _ _
      rw [e]
      congr 1
      funext c
      cases Res.traverse (c.shapeVal f) (List.range c.transAxes.nBins) with
      | throw e => rfl
      | ub => rfl
      | ok vals =>
        simp only [Res.ok_bind]
        rw [Res.done_map (fun (m : Matrix' α) => ({ c with base := { c.base with response := m } } : Shape α)), Res.done_forLeft]
        simp only [Res.done_keep]

theorem construct_left {s c : Shape α} (hc : c = s ∨ (s.cached = false ∧ s.cacheBinMapping = .ok c)) {r : Matrix' α}
    (hr : Off s.base.axes.nBins 0 r s.base.response) (ps : ParamDict α) :
    ({ c with base := { c.base with response := r }, params := ps } : Shape α).construct = ({ s with params := ps } : Shape α).construct := by
  have hcb : c.base = s.base ∧ c.func = s.func := by
    rcases hc with rfl | ⟨_, hc⟩
    · exact ⟨rfl, rfl⟩
    · exact ⟨(cache_facts hc).1, (cache_facts hc).2.2.1⟩
  rw [construct_eq, construct_eq]
  simp only
  rw [hcb.1, hcb.2]
  cases hf : s.func with
  | none => rfl
  | some f =>
    simp only
    congr 1
    funext _
    have tail : ∀ (c : Shape α), c.base = s.base →
        (do
          let vals ← Res.traverse (({ c with base := { s.base with response := r }, params := ps } : Shape α).shapeVal f) (List.range c.transAxes.nBins)
          let m ← Res.forFold (diagStep c.distTrans vals) r (List.range s.base.axes.nBins)
          pure ({ c with base := { s.base with response := m }, params := ps } : Shape α)) =
        (do
          let vals ← Res.traverse (({ c with params := ps } : Shape α).shapeVal f) (List.range c.transAxes.nBins)
          let m ← Res.forFold (diagStep c.distTrans vals) c.base.response (List.range c.base.axes.nBins)
          pure ({ c with base := { c.base with response := m }, params := ps } : Shape α)) := by
      intro c hb
      have : (({ c with base := { s.base with response := r }, params := ps } : Shape α).shapeVal f) = (({ c with params := ps } : Shape α).shapeVal f) := rfl
      rw [this, hb]
      congr 1
      funext vals
      rw [Res.Rel.eq (diag_rel c.distTrans vals s.base.axes.nBins hr)]
    rcases hc with rfl | ⟨hn, hc⟩
    · by_cases hs : c.cached = true
      · rw [if_pos hs, if_pos hs]
        simp only [Res.pure_eq, Res.ok_bind]
        have := tail c rfl
        rw [hf] at this
        exact this
      · rw [if_neg hs, if_neg hs]
        have e : ({ c with base := { c.base with response := r }, func := some f, params := ps } : Shape α).cacheBinMapping =
            (c.cacheBinMapping >>= fun k => pure { k with base := { k.base with response := r }, func := some f, params := ps }) := by
          unfold cacheBinMapping
          simp only [Res.bind_assoc', Res.ok_bind, Res.pure_eq]
        have e' : ({ c with func := some f, params := ps } : Shape α).cacheBinMapping =
            (c.cacheBinMapping >>= fun k => pure { k with func := some f, params := ps }) := by
          unfold cacheBinMapping
          simp only [Res.bind_assoc', Res.ok_bind, Res.pure_eq]
        rw [e, e']
        cases hk : c.cacheBinMapping with
        | throw e => rfl
        | ub => rfl
        | ok k =>
          simp only [Res.pure_eq, Res.ok_bind]
          obtain ⟨f1, f2, f3, f4, f5⟩ := cache_facts hk
          have t := tail k f1
          rw [f3, hf, f1] at t
          rw [f1]
          exact t
    · obtain ⟨f1, f2, f3, f4, f5⟩ := cache_facts hc
      have f5 := f5 ps
      rw [if_pos f2, if_neg (by simp [hn])]
      rw [hf, f3, hf] at f5
      rw [f5]
      simp only [Res.pure_eq, Res.ok_bind]
      have t := tail c f1
      rw [f3, hf] at t
      exact t

theorem constructLeft_shape (s : Shape α) : ∃ c r, s.constructLeft.1 = { c with base := { c.base with response := r } } ∧
    (c = s ∨ (s.cached = false ∧ s.cacheBinMapping = .ok c)) ∧ Off s.base.axes.nBins 0 r s.base.response := by
  have refl : Off s.base.axes.nBins 0 s.base.response s.base.response := ⟨⟨rfl, rfl, rfl, rfl⟩, fun i j => .inl rfl⟩
  have triv : ∃ c r, s = { c with base := { c.base with response := r } } ∧ (c = s ∨ (s.cached = false ∧ s.cacheBinMapping = .ok c)) ∧
    Off s.base.axes.nBins 0 r s.base.response := ⟨s, s.base.response, rfl, .inl rfl, refl⟩
  unfold constructLeft
  cases s.func with
  | none => exact triv
  | some f =>
    simp only
    split
    · exact triv
    · have step : ∀ (c : Shape α), (c = s ∨ (s.cached = false ∧ s.cacheBinMapping = .ok c)) →
          ∃ c' r, (match Res.traverse (c.shapeVal f) (List.range c.transAxes.nBins) with
          | .throw e => (c, .throw e)
          | .ub => (c, .ub)
          | .ok vals =>
            let r := Res.forLeft (fun (m : Matrix' α) b => Res.keep m (do
              let k ← at_ c.distTrans b
              let v ← at_ vals k
              m.setComponent b b v)) c.base.response (List.range c.base.axes.nBins)
            ({ c with base := { c.base with response := r.1 } }, r.2) : Shape α × Res Unit).1 = { c' with base := { c'.base with response := r } } ∧
          (c' = s ∨ (s.cached = false ∧ s.cacheBinMapping = .ok c')) ∧ Off s.base.axes.nBins 0 r s.base.response := by
        intro c hc
        have hcb : c.base = s.base := by
          rcases hc with rfl | ⟨_, hc⟩
          · rfl
          · exact (cache_facts hc).1
        split
        · exact ⟨c, c.base.response, rfl, hc, by rw [hcb]; exact refl⟩
        · exact ⟨c, c.base.response, rfl, hc, by rw [hcb]; exact refl⟩
        · refine ⟨c, _, rfl, hc, ?_⟩
          refine Res.forLeft_inv (fun (m : Matrix' α) => Off s.base.axes.nBins 0 m s.base.response) (by rw [hcb]; exact refl) ?_
          intro m b hm hb
          refine Res.keep_inv (fun (m : Matrix' α) => Off s.base.axes.nBins 0 m s.base.response) hm ?_
          intro m' hs
          obtain ⟨_, _, hs⟩ := Res.bind_eq_ok.1 hs
          obtain ⟨v, _, hs⟩ := Res.bind_eq_ok.1 hs
          refine ⟨(Matrix'.setComponent_size hs).trans hm.1, ?_⟩
          intro i j
          unfold Matrix'.setComponent ArmaMat.set at hs
          split at hs
          · cases hs
          · split at hs
            · cases hs
              simp only
              by_cases hij : i = b ∧ j = b
              · refine .inr ⟨by omega, by omega, ?_⟩
                rw [hij.1, ← hcb]; exact List.mem_range.1 hb
              · rw [if_neg hij]; exact hm.2 i j
            · cases hs
      by_cases hs : s.cached = true
      · rw [if_pos hs]
        exact step s (.inl rfl)
      · rw [if_neg hs]
        cases hk : s.cacheBinMapping with
        | throw e => exact ⟨s, s.base.response, rfl, .inl rfl, refl⟩
        | ub => exact ⟨s, s.base.response, rfl, .inl rfl, refl⟩
        | ok c =>
          have := step c (.inr ⟨by simpa using hs, hk⟩)
          rw [hk] at this
          exact this

end Shape

namespace AnySys

/-- The model with the object left behind agrees with the one without it. -/
theorem done_construct (s : AnySys α) : Res.done s.constructLeft = s.construct := by
  cases s with
  | scale s =>
    simp only [constructLeft, construct, AxisSys.constructScale]
    by_cases h : s.param.val ≤ 0
    · rw [if_pos h, Res.throwIf_true_of h]; rfl
    · rw [if_neg h, Res.throwIf_false_of h, Res.ok_bind, ← AxisSys.done_constructWith]
      exact Res.done_map (fun y => AnySys.scale { s with sys := y }) _
  | shift s =>
    simp only [constructLeft, construct, AxisSys.constructShift]
    rw [← AxisSys.done_constructWith]
    exact Res.done_map (fun y => AnySys.shift { s with sys := y }) _
  | scaleFunction s f ps =>
    simp only [constructLeft, construct, AxisSys.constructScaleFunction]
    by_cases h : s.base.transObs.names.length ≠ 1
    · rw [if_pos h, Res.throwIf_true_of h]; rfl
    · rw [if_neg h, Res.throwIf_false_of h, Res.ok_bind]
      cases f with
      | none => rfl
      | some g =>
        simp only
        rw [← AxisSys.done_constructWith]
        exact Res.done_map (fun y => AnySys.scaleFunction y (some g) ps) _
  | shape s =>
    simp only [constructLeft, construct]
    rw [← Shape.done_construct]
    exact Res.done_map AnySys.shape _
  | renorm r => exact Res.done_keep _ _

/-- Whatever the outcome of `Construct`, the systematic left behaves as the one before. -/
theorem left_alike (s : AnySys α) (h : ∀ s', s.construct ≠ .ok s') : Alike s.left s := by
  cases s with
  | scale s =>
    simp only [left, constructLeft]
    split
    · exact .scale _ (fun _ => rfl)
    · exact .scale _ (AxisSys.constructWithLeft_again _ _)
  | shift s => exact .shift _ (AxisSys.constructWithLeft_again _ _)
  | scaleFunction s f ps =>
    simp only [left, constructLeft]
    split
    · exact .scaleFunction _ _ rfl (fun _ => rfl)
    · cases f with
      | none => exact .scaleFunction _ _ rfl (fun _ => rfl)
      | some g => exact .scaleFunction _ _ (AxisSys.constructWithLeft_obs _ _) (AxisSys.constructWithLeft_again _ _)
  | shape s =>
    obtain ⟨c, r, e, hc, hr⟩ := Shape.constructLeft_shape s
    simp only [left, constructLeft]
    refine .shape ?_ ?_
    · rw [e]
      rcases hc with rfl | ⟨_, hc⟩
      · rfl
      · exact (Shape.cache_facts hc).2.2.2.1
    · intro ps
      rw [e]
      exact Shape.construct_left hc hr ps
  | renorm r =>
    simp only [left, constructLeft]
    have : ∀ s', (do
      let y ← r.construct
      pure (AnySys.renorm y) : Res (AnySys α)) ≠ .ok s' := h
    generalize (do
      let y ← r.construct
      pure (AnySys.renorm y) : Res (AnySys α)) = R at this
    cases R with
    | ok s' => exact absurd rfl (this s')
    | throw e => exact .renorm rfl (fun _ => rfl)
    | ub => exact .renorm rfl (fun _ => rfl)

theorem left_equiv (s : AnySys α) (e : Exc) (h : s.construct = .throw e) : (fit (α := α)).Equiv s.left s :=
  (left_alike s (by rw [h]; simp)).equiv

end AnySys
end Oxsx
