import Verif.Model.FitSystematics
import Verif.Spec.BinnedNLLH
import Verif.Lemmas.Rel
/- Constructing a systematic again recomputes the response from the parameters. -/
set_option linter.unusedSectionVars false
set_option linter.unusedSimpArgs false
set_option linter.unusedVariables false
namespace Oxsx
variable {α : Type} [Field α] [LinearOrder α]

/-- The same declared and actual sizes. -/
def Matrix'.SameSize {β : Type} (m n : Matrix' β) : Prop :=
  m.nRows = n.nRows ∧ m.nCols = n.nCols ∧ m.arma.rows = n.arma.rows ∧ m.arma.cols = n.arma.cols

theorem Matrix'.setComponent_size {β : Type} {m m' : Matrix' β} {r c : Nat} {v : β} (h : m.setComponent r c v = .ok m') : m'.SameSize m := by
  unfold Matrix'.setComponent at h
  split at h
  · cases h
  · obtain ⟨a, ha, h⟩ := Res.bind_eq_ok.1 h
    cases h
    unfold ArmaMat.set at ha
    split at ha
    · cases ha; exact ⟨rfl, rfl, rfl, rfl⟩
    · cases ha

theorem Matrix'.SameSize.trans {β : Type} {m n k : Matrix' β} (h : m.SameSize n) (h' : n.SameSize k) : m.SameSize k :=
  ⟨h.1.trans h'.1, h.2.1.trans h'.2.1, h.2.2.1.trans h'.2.2.1, h.2.2.2.trans h'.2.2.2⟩

namespace AxisSys

theorem cache_base {s s' : AxisSys α} (h : s.cacheBinMapping = .ok s') : s'.base = s.base ∧ s'.cached = true := by
  unfold cacheBinMapping at h
  obtain ⟨_, _, h⟩ := Res.bind_eq_ok.1 h
  obtain ⟨_, _, h⟩ := Res.bind_eq_ok.1 h
  obtain ⟨_, _, h⟩ := Res.bind_eq_ok.1 h
  obtain ⟨_, _, h⟩ := Res.bind_eq_ok.1 h
  obtain ⟨_, _, h⟩ := Res.bind_eq_ok.1 h
  obtain ⟨_, _, h⟩ := Res.bind_eq_ok.1 h
  cases h
  exact ⟨rfl, rfl⟩

theorem fill_facts {s s' : AxisSys α} {vals : List (List (Nat × α))} (h : s.fillResponse vals = .ok s') :
    ∃ r, s' = { s with base := { s.base with response := r } } ∧ r.nRows = s.base.response.nRows ∧ r.nCols = s.base.response.nCols := by
  unfold fillResponse at h
  obtain ⟨m0, h0, h⟩ := Res.bind_eq_ok.1 h
  obtain ⟨m, hm, h⟩ := Res.bind_eq_ok.1 h
  cases h
  refine ⟨m, rfl, ?_⟩
  have e0 : m0.nRows = s.base.response.nRows ∧ m0.nCols = s.base.response.nCols := by
    unfold Matrix'.setZeros at h0
    split at h0
    · cases h0
    · cases h0; exact ⟨rfl, rfl⟩
  refine Res.forFold_inv (fun (m : Matrix' α) => m.nRows = s.base.response.nRows ∧ m.nCols = s.base.response.nCols) e0 hm ?_
  intro a b c ha _ hc
  obtain ⟨_, _, hc⟩ := Res.bind_eq_ok.1 hc
  obtain ⟨_, _, hc⟩ := Res.bind_eq_ok.1 hc
  refine Res.forFold_inv (fun (m : Matrix' α) => m.nRows = s.base.response.nRows ∧ m.nCols = s.base.response.nCols) ha hc ?_
  intro x y z hx _ hz
  unfold fillStep at hz
  obtain ⟨_, _, hz⟩ := Res.bind_eq_ok.1 hz
  have := Matrix'.setComponent_size hz
  exact ⟨this.1.trans hx.1, this.2.1.trans hx.2⟩

theorem fill_again {s : AxisSys α} {r : Matrix' α} (h1 : r.nRows = s.base.response.nRows) (h2 : r.nCols = s.base.response.nCols)
    (vals : List (List (Nat × α))) :
    ({ s with base := { s.base with response := r } } : AxisSys α).fillResponse vals = s.fillResponse vals := by
  have e : r.setZeros = s.base.response.setZeros := by
    unfold Matrix'.setZeros
    rw [h1, h2]
  unfold fillResponse
  simp only
  rw [e]
  rfl

theorem constructWith_again {s s' : AxisSys α} {t : α → α} (h : s.constructWith t = .ok s') (t' : α → α) :
    s'.constructWith t' = s.constructWith t' := by
  unfold constructWith at h
  obtain ⟨_, e1, h⟩ := Res.bind_eq_ok.1 h
  obtain ⟨_, e2, h⟩ := Res.bind_eq_ok.1 h
  obtain ⟨c, hc, h⟩ := Res.bind_eq_ok.1 h
  obtain ⟨ti, e3, h⟩ := Res.bind_eq_ok.1 h
  obtain ⟨ax, e4, h⟩ := Res.bind_eq_ok.1 h
  obtain ⟨vals, e5, h⟩ := Res.bind_eq_ok.1 h
  obtain ⟨r, rfl, h1, h2⟩ := fill_facts h
  have hcb : c.base = s.base ∧ c.cached = true := by
    by_cases hs : s.cached = true
    · rw [if_pos hs] at hc; cases hc; exact ⟨rfl, hs⟩
    · rw [if_neg hs] at hc; exact cache_base hc
  unfold constructWith
  simp only
  rw [e1, if_pos hcb.2, hc]
  have et : (c.base.transObs.names.length ≠ 1) = (s.base.transObs.names.length ≠ 1) := by rw [hcb.1]
  have en : (c.base.axes.nBins = 0) = (s.base.axes.nBins = 0) := by rw [hcb.1]
  have e1' : Res.throwIf (c.base.transObs.names.length ≠ 1) .representation = .ok () := by
    rw [hcb.1]; exact e1
  have e2' : Res.throwIf (c.base.axes.nBins = 0) .logic = .ok () := by rw [hcb.1]; exact e2
  rw [e1', e2', e2]
  simp only [Res.ok_bind, Res.pure_eq]
  have e3' : transIndex { c.base with response := r } = .ok ti := e3
  rw [e3', e3]
  simp only [Res.ok_bind]
  rw [e4]
  simp only [Res.ok_bind]
  cases Res.traverse (valsOfBin ax t') (List.range ax.nBins) with
  | throw e => rfl
  | ub => rfl
  | ok vals' =>
    simp only [Res.ok_bind]
    exact fill_again h1 h2 vals'

end AxisSys

namespace Shape

theorem cache_facts {s s' : Shape α} (h : s.cacheBinMapping = .ok s') :
    s'.base = s.base ∧ s'.cached = true ∧ s'.func = s.func ∧ s'.params = s.params ∧
    ∀ ps, ({ s with params := ps } : Shape α).cacheBinMapping = .ok { s' with params := ps } := by
  unfold cacheBinMapping at h
  obtain ⟨rel, h1, h⟩ := Res.bind_eq_ok.1 h
  obtain ⟨ta, h2, h⟩ := Res.bind_eq_ok.1 h
  obtain ⟨dt, h3, h⟩ := Res.bind_eq_ok.1 h
  cases h
  refine ⟨rfl, rfl, rfl, rfl, ?_⟩
  intro ps
  unfold cacheBinMapping
  simp only
  rw [h1]
  simp only [Res.ok_bind]
  rw [h2]
  simp only [Res.ok_bind]
  rw [h3]
  rfl

/-- One write of the diagonal. -/
def diagStep (dt : List Nat) (vals : List α) (m : Matrix' α) (b : Nat) : Res (Matrix' α) := do
  let k ← at_ dt b
  let v ← at_ vals k
  m.setComponent b b v

/-- The writing loop with its cached bin map. -/
theorem construct_eq (s : Shape α) : s.construct = (match s.func with
  | none => .throw .logic
  | some f => do
    Res.throwIf (s.base.axes.nBins = 0) .logic
    let s ← (if s.cached then pure s else s.cacheBinMapping)
    let vals ← Res.traverse (s.shapeVal f) (List.range s.transAxes.nBins)
    let m ← Res.forFold (diagStep s.distTrans vals) s.base.response (List.range s.base.axes.nBins)
    pure { s with base := { s.base with response := m } }) := rfl

/-- Equal sizes and equal entries except on the diagonal from `k` to `n`. -/
def Off (n k : Nat) (a b : Matrix' α) : Prop :=
  a.SameSize b ∧ ∀ i j, a.arma.entry i j = b.arma.entry i j ∨ (i = j ∧ k ≤ i ∧ i < n)

theorem diag_rel (dt : List Nat) (vals : List α) (n : Nat) {a b : Matrix' α} (h : Off n 0 a b) :
    Res.Rel Eq (Res.forFold (diagStep dt vals) a (List.range n)) (Res.forFold (diagStep dt vals) b (List.range n)) := by
  refine Res.Rel.mono (Res.Rel.forFold_range (fun k a b => Off n k a b) n h ?_) ?_
  · intro k a b hk hab
    obtain ⟨⟨r1, r2, r3, r4⟩, he⟩ := hab
    unfold diagStep
    cases at_ dt k with
    | throw e => exact rfl
    | ub => exact trivial
    | ok q =>
      simp only [Res.ok_bind]
      cases at_ vals q with
      | throw e => exact rfl
      | ub => exact trivial
      | ok v =>
        simp only [Res.ok_bind]
        unfold Matrix'.setComponent ArmaMat.set
        rw [r1, r2, r3, r4]
        split
        · exact rfl
        · split
          · refine ⟨⟨rfl, rfl, rfl, rfl⟩, ?_⟩
            intro i j
            simp only
            by_cases hij : i = k ∧ j = k
            · rw [if_pos hij, if_pos hij]; exact .inl rfl
            · rw [if_neg hij, if_neg hij]
              rcases he i j with h | ⟨h1, h2, h3⟩
              · exact .inl h
              · refine .inr ⟨h1, ?_, h3⟩
                subst h1
                rcases Nat.lt_or_ge k i with h | h
                · exact h
                · exact absurd ⟨by omega, by omega⟩ hij
          · exact rfl
  · intro a b _ _ hab
    obtain ⟨⟨r1, r2, r3, r4⟩, he⟩ := hab
    obtain ⟨_, _, _, _, ae⟩ := a
    obtain ⟨_, _, _, _, be⟩ := b
    simp only at r1 r2 r3 r4 he
    subst r1 r2 r3 r4
    congr 2
    funext i j
    rcases he i j with h | ⟨_, h2, h3⟩
    · exact h
    · omega

theorem construct_again {s s' : Shape α} (h : s.construct = .ok s') (ps : ParamDict α) :
    ({ s' with params := ps } : Shape α).construct = ({ s with params := ps } : Shape α).construct := by
  rw [construct_eq] at h
  obtain ⟨base, func, params, ta, dt, cached⟩ := s
  cases func with
  | none => cases h
  | some f =>
    generalize hS : (⟨base, some f, params, ta, dt, cached⟩ : Shape α) = s at h ⊢
    have hf : s.func = some f := by rw [← hS]
    have h := h
    rw [hf] at h
    simp only at h
    obtain ⟨_, e1, h⟩ := Res.bind_eq_ok.1 h
    obtain ⟨c, hc, h⟩ := Res.bind_eq_ok.1 h
    obtain ⟨vals, hv, h⟩ := Res.bind_eq_ok.1 h
    obtain ⟨m, hm, h⟩ := Res.bind_eq_ok.1 h
    cases h
    have facts : c.base = s.base ∧ c.cached = true ∧ c.func = s.func ∧
        (if s.cached then (pure { s with params := ps } : Res (Shape α)) else ({ s with params := ps } : Shape α).cacheBinMapping)
          = .ok { c with params := ps } := by
      by_cases hs : s.cached = true
      · rw [if_pos hs] at hc ⊢
        cases hc
        exact ⟨rfl, hs, rfl, rfl⟩
      · rw [if_neg hs] at hc ⊢
        obtain ⟨h1, h2, h3, h4, h5⟩ := cache_facts hc
        exact ⟨h1, h2, h3, h5 ps⟩
    obtain ⟨fb, fc, ff, fe⟩ := facts
    rw [construct_eq, construct_eq]
    simp only
    rw [ff]
    rw [hf, ff, hf] at fe
    rw [hf]
    simp only
    rw [if_pos fc, fe, e1]
    have e1' : Res.throwIf (c.base.axes.nBins = 0) .logic = .ok () := by rw [fb]; exact e1
    rw [e1']
    simp only [Res.ok_bind, Res.pure_eq]
    have hoff : Off c.base.axes.nBins 0 m c.base.response := by
      refine Res.forFold_inv (fun (m : Matrix' α) => Off c.base.axes.nBins 0 m c.base.response)
        ⟨⟨rfl, rfl, rfl, rfl⟩, fun i j => .inl rfl⟩ hm ?_
      intro a b a' ha hb hs
      unfold diagStep at hs
      obtain ⟨_, _, hs⟩ := Res.bind_eq_ok.1 hs
      obtain ⟨v, _, hs⟩ := Res.bind_eq_ok.1 hs
      refine ⟨(Matrix'.setComponent_size hs).trans ha.1, ?_⟩
      intro i j
      unfold Matrix'.setComponent ArmaMat.set at hs
      split at hs
      · cases hs
      · split at hs
        · cases hs
          simp only
          by_cases hij : i = b ∧ j = b
          · exact .inr ⟨by omega, by omega, by rw [hij.1]; exact List.mem_range.1 hb⟩
          · rw [if_neg hij]; exact ha.2 i j
        · cases hs
    have hsv : ∀ b b' : SysBase α, (⟨b, some f, ps, c.transAxes, c.distTrans, c.cached⟩ : Shape α).shapeVal f =
        (⟨b', some f, ps, c.transAxes, c.distTrans, c.cached⟩ : Shape α).shapeVal f := fun _ _ => rfl
    rw [hsv _ c.base]
    cases Res.traverse ((⟨c.base, some f, ps, c.transAxes, c.distTrans, c.cached⟩ : Shape α).shapeVal f)
      (List.range c.transAxes.nBins) with
    | throw e => rfl
    | ub => rfl
    | ok vals' =>
      simp only [Res.ok_bind]
      rw [Res.Rel.eq (diag_rel c.distTrans vals' c.base.axes.nBins hoff)]

end Shape

namespace Renorm

theorem construct_again {r r' : Renorm α} (h : r.construct = .ok r') (ps : OwnParams α) :
    ({ r' with params := ps } : Renorm α).construct = ({ r with params := ps } : Renorm α).construct := by
  unfold construct at h
  obtain ⟨_, e1, h⟩ := Res.bind_eq_ok.1 h
  obtain ⟨m, e2, h⟩ := Res.bind_eq_ok.1 h
  cases hs : r.scaleFactor with
  | none => rw [hs] at h; cases h
  | some v =>
    rw [hs] at h
    simp only at h
    cases h
    unfold construct
    simp only
    rw [e1, e2]
    simp only [Res.ok_bind]
    have : (m.scale v).setToIdentity = .ok m := by
      unfold Matrix'.setToIdentity at e2 ⊢
      split at e2
      · cases e2
      · rename_i hn
        cases e2
        exact if_neg hn
    rw [this]
    rfl

end Renorm

namespace AnySys

/-- The systematics that behave alike whatever happens next. -/
inductive Alike : AnySys α → AnySys α → Prop
  | scale {s t : AxisSys α} (p : OneParam α) : (∀ f, s.constructWith f = t.constructWith f) → Alike (.scale ⟨s, p⟩) (.scale ⟨t, p⟩)
  | shift {s t : AxisSys α} (p : OneParam α) : (∀ f, s.constructWith f = t.constructWith f) → Alike (.shift ⟨s, p⟩) (.shift ⟨t, p⟩)
  | scaleFunction {s t : AxisSys α} (f) (ps) : s.base.transObs = t.base.transObs → (∀ f, s.constructWith f = t.constructWith f) →
      Alike (.scaleFunction s f ps) (.scaleFunction t f ps)
  | shape {s t : Shape α} : s.params = t.params → (∀ ps, ({ s with params := ps } : Shape α).construct = ({ t with params := ps } : Shape α).construct) →
      Alike (.shape s) (.shape t)
  | renorm {s t : Renorm α} : s.params = t.params → (∀ ps, ({ s with params := ps } : Renorm α).construct = ({ t with params := ps } : Renorm α).construct) →
      Alike (.renorm s) (.renorm t)

theorem Alike.construct {s t : AnySys α} (h : Alike s t) : s.construct = t.construct := by
  cases h with
  | scale p h => simp only [AnySys.construct, AxisSys.constructScale, h]
  | shift p h => simp only [AnySys.construct, AxisSys.constructShift, h]
  | scaleFunction f ps ho h => simp only [AnySys.construct, AxisSys.constructScaleFunction, h, ho]
  | @shape s t hp h =>
    have := h s.params
    simp only [AnySys.construct]
    have e : ({ t with params := s.params } : Shape α) = t := by rw [hp]
    rw [show s.construct = t.construct from e ▸ this]
  | @renorm s t hp h =>
    have := h s.params
    simp only [AnySys.construct]
    have e : ({ t with params := s.params } : Renorm α) = t := by rw [hp]
    rw [show s.construct = t.construct from e ▸ this]

theorem Alike.get {s t : AnySys α} (h : Alike s t) : s.getParameters = t.getParameters := by
  cases h with
  | scale p h => rfl
  | shift p h => rfl
  | scaleFunction f ps ho h => rfl
  | shape hp h => simp only [getParameters, hp]
  | renorm hp h => simp only [getParameters, hp]

theorem Alike.set {s t : AnySys α} (h : Alike s t) (d : ParamDict α) :
    Alike (s.setParameters d).1 (t.setParameters d).1 ∧ (s.setParameters d).2 = (t.setParameters d).2 := by
  cases h with
  | scale p h =>
    simp only [setParameters]
    cases p.setParameters d with
    | ok q => exact ⟨.scale q h, rfl⟩
    | throw e => exact ⟨.scale p h, rfl⟩
    | ub => exact ⟨.scale p h, rfl⟩
  | shift p h =>
    simp only [setParameters]
    cases p.setParameters d with
    | ok q => exact ⟨.shift q h, rfl⟩
    | throw e => exact ⟨.shift p h, rfl⟩
    | ub => exact ⟨.shift p h, rfl⟩
  | scaleFunction f ps ho h => exact ⟨.scaleFunction f _ ho h, rfl⟩
  | @shape s t hp h => exact ⟨.shape (by simp only [hp]) h, rfl⟩
  | @renorm s t hp h => exact ⟨.renorm (by simp only [Renorm.setParameters, hp]) h, rfl⟩

theorem Alike.equiv {s t : AnySys α} (h : Alike s t) : (fit (α := α)).Equiv s t := by
  intro ds
  have hs : Alike ((fit (α := α)).sets s ds) ((fit (α := α)).sets t ds) := by
    unfold FitSys.sets
    induction ds generalizing s t with
    | nil => exact h
    | cons d ds ih => exact ih (h.set d).1
  exact ⟨hs.construct, fun d => (hs.set d).2, hs.get⟩

theorem constructWith_obs {s s' : AxisSys α} {t : α → α} (h : s.constructWith t = .ok s') : s'.base.transObs = s.base.transObs := by
  unfold AxisSys.constructWith at h
  obtain ⟨_, e1, h⟩ := Res.bind_eq_ok.1 h
  obtain ⟨_, e2, h⟩ := Res.bind_eq_ok.1 h
  obtain ⟨c, hc, h⟩ := Res.bind_eq_ok.1 h
  obtain ⟨ti, e3, h⟩ := Res.bind_eq_ok.1 h
  obtain ⟨ax, e4, h⟩ := Res.bind_eq_ok.1 h
  obtain ⟨vals, e5, h⟩ := Res.bind_eq_ok.1 h
  obtain ⟨r, rfl, h1, h2⟩ := AxisSys.fill_facts h
  have hcb : c.base = s.base := by
    by_cases hs : s.cached = true
    · rw [if_pos hs] at hc; cases hc; rfl
    · rw [if_neg hs] at hc; exact (AxisSys.cache_base hc).1
  simp only [hcb]

/-- Every systematic of src/systematic recomputes its response from the parameters at every construction. -/
theorem refreshing : (fit (α := α)).Refreshing := by
  intro s s' h
  refine Alike.equiv ?_
  have h : AnySys.construct s = .ok s' := h
  cases s with
  | scale s =>
    obtain ⟨y, hy, h⟩ := Res.bind_eq_ok.1 h
    cases h
    unfold AxisSys.constructScale at hy
    obtain ⟨_, _, hy⟩ := Res.bind_eq_ok.1 hy
    exact .scale _ (AxisSys.constructWith_again hy)
  | shift s =>
    obtain ⟨y, hy, h⟩ := Res.bind_eq_ok.1 h
    cases h
    exact .shift _ (AxisSys.constructWith_again hy)
  | scaleFunction s f ps =>
    obtain ⟨y, hy, h⟩ := Res.bind_eq_ok.1 h
    cases h
    unfold AxisSys.constructScaleFunction at hy
    obtain ⟨_, _, hy⟩ := Res.bind_eq_ok.1 hy
    cases f with
    | none => cases hy
    | some f => exact .scaleFunction _ _ (constructWith_obs hy) (AxisSys.constructWith_again hy)
  | shape s =>
    obtain ⟨y, hy, h⟩ := Res.bind_eq_ok.1 h
    cases h
    refine .shape ?_ (Shape.construct_again hy)
    rw [Shape.construct_eq] at hy
    cases hf : s.func with
    | none => rw [hf] at hy; cases hy
    | some f =>
      rw [hf] at hy
      simp only at hy
      obtain ⟨_, e1, hy⟩ := Res.bind_eq_ok.1 hy
      obtain ⟨c, hc, hy⟩ := Res.bind_eq_ok.1 hy
      obtain ⟨vals, hv, hy⟩ := Res.bind_eq_ok.1 hy
      obtain ⟨m, hm, hy⟩ := Res.bind_eq_ok.1 hy
      cases hy
      by_cases hs : s.cached = true
      · rw [if_pos hs] at hc; cases hc; rfl
      · rw [if_neg hs] at hc; exact (Shape.cache_facts hc).2.2.2.1
  | renorm r =>
    obtain ⟨y, hy, h⟩ := Res.bind_eq_ok.1 h
    cases h
    refine .renorm ?_ (Renorm.construct_again hy)
    unfold Renorm.construct at hy
    obtain ⟨_, e1, hy⟩ := Res.bind_eq_ok.1 hy
    obtain ⟨m, e2, hy⟩ := Res.bind_eq_ok.1 hy
    cases hs : r.scaleFactor with
    | none => rw [hs] at hy; cases hy
    | some v => rw [hs] at hy; cases hy; rfl

end AnySys
end Oxsx
