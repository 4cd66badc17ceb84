import Verif.Props.Converge
import Verif.Props.MCMCSamples
import Verif.Props.HistTools
import Verif.Props.AxisCollection
set_option linter.unusedSectionVars false
set_option linter.unusedSimpArgs false
set_option linter.unusedVariables false
/-
The histogram that a chain's run fills, in terms of the points it visits.
-/
namespace Oxsx
open MeasureTheory ProbabilityTheory Spec
open scoped ENNReal NNReal

/-- The coordinates of a point along the axes. -/
noncomputable def axisCoords (as : List (BinAxis ℝ)) (ks : List String) (x : Fin ks.length → ℝ) : List ℝ := as.map fun a => dval (pointDict ks x) a.name

/-- The points that the lookup puts into bin `b`. -/
def binRegion (c : AxisCollection ℝ) (as : List (BinAxis ℝ)) (ks : List String) (b : Nat) : Set (Fin ks.length → ℝ) := {x | c.findBin (axisCoords as ks x) = .ok b}

theorem dval_measurable {ks : List String} (hk : NamesSorted ks) (k : String) : Measurable fun x : Fin ks.length → ℝ => dval (pointDict ks x) k := by
  unfold dval
  by_cases h : k ∈ ks
  · obtain ⟨i, rfl⟩ := names_get h
    simp only [pointDict_find hk, Option.getD_some]
    exact measurable_pi_apply i
  · have : ∀ x : Fin ks.length → ℝ, (pointDict ks x).find k = none := fun x => (SMap.find_none_iff _ k).2 (by rw [pointDict_keys]; exact h)
    simp only [this, Option.getD_none]
    exact measurable_const

theorem binRegion_measurable {ks : List String} (hk : NamesSorted ks) {as : List (BinAxis ℝ)} {c : AxisCollection ℝ}
    (hb : (AxisCollection.empty : AxisCollection ℝ).addAxes as = .ok c) (hn : as ≠ []) (hc : ∀ a ∈ as, a.Contiguous) {b : Nat} (hbn : b < c.nBins) :
    MeasurableSet (binRegion c as ks b) := by
  have hpos : ∀ a ∈ as, 0 < a.nBins := fun a ha => Nat.lt_of_le_of_lt (Nat.zero_le _) (C03_findBin a (hc a ha) 0).1
  obtain ⟨L, hL, hL2, hL3⟩ := (C04_flatten_bijection as c hb hn hpos).2 b hbn
  have hset : binRegion c as ks b = {x | List.zipWith (fun a v => a.findBin v) as (axisCoords as ks x) = L} := by
    ext x
    obtain ⟨b', h1, h2, h3, _⟩ := (C05_findBin as c hb hn hc (axisCoords as ks x)).2 (by simp [axisCoords])
    show c.findBin _ = .ok b ↔ _
    constructor
    · intro h
      cases Res.ok.inj (h1.symm.trans h)
      exact Res.ok.inj (h3.symm.trans hL)
    · intro h
      have h : List.zipWith (fun a v => a.findBin v) as (axisCoords as ks x) = L := h
      obtain ⟨L', e1, _, e3⟩ := (C04_flatten_bijection as c hb hn hpos).2 b' h2
      have : L' = L := (Res.ok.inj (e1.symm.trans h3)).trans h
      rw [this] at e3
      rw [h1, Res.ok.inj (e3.symm.trans hL3)]
  rw [hset]
  clear hset hL hL2 hL3 hpos hbn hn hb
  induction as generalizing L with
  | nil => simp [axisCoords]
  | cons a as ih =>
    have ih := fun L => ih (fun a ha => hc a (List.mem_cons_of_mem _ ha)) L
    rcases L with _ | ⟨l, L⟩
    · simp [axisCoords]
    · have hm : Measurable a.findBin := Monotone.measurable fun v w h => C03_findBin_mono a (hc a List.mem_cons_self) v w h
      have h1 : MeasurableSet {x : Fin ks.length → ℝ | a.findBin (dval (pointDict ks x) a.name) = l} :=
        (hm.comp (dval_measurable hk a.name)) (measurableSet_singleton l)
      have : {x : Fin ks.length → ℝ | List.zipWith (fun a v => a.findBin v) (a :: as) (axisCoords (a :: as) ks x) = l :: L} =
          {x | a.findBin (dval (pointDict ks x) a.name) = l} ∩ {x | List.zipWith (fun a v => a.findBin v) as (axisCoords as ks x) = L} := by
        ext x
        show List.zipWith (fun a v => BinAxis.findBin a v) (a :: as) (axisCoords (a :: as) ks x) = l :: L ↔ _
        simp only [axisCoords, List.map_cons, List.zipWith_cons_cons, List.cons.injEq]
        exact Iff.rfl
      rw [this]
      exact h1.inter (ih L)

theorem MCMC.stepAccepted_samples {ex : ℝ → ℝ} {st : MCMC ℝ} {t : TestStat ℝ} {p : ParamDict ℝ} {corr u : ℝ} {r : MCMC ℝ × Bool}
    (h : st.stepAccepted ex t p corr u = .ok r) (sm : MCMCSamples ℝ) :
    ({ st with samples := sm } : MCMC ℝ).stepAccepted ex t p corr u = .ok ({ r.1 with samples := sm }, r.2) ∧ r.1.bounds = st.bounds := by
  unfold MCMC.stepAccepted at *
  obtain ⟨b, h1, h2⟩ := Res.bind_eq_ok.1 h
  have hin : ∀ l, ({ st with samples := sm } : MCMC ℝ).inBounds p l = st.inBounds p l := by
    intro l
    induction l with
    | nil => rfl
    | cons a l ih => unfold MCMC.inBounds; simp only [ih]
  rw [hin, h1, Res.ok_bind]
  cases b
  · simp only [Bool.false_eq_true, if_false] at h2 ⊢
    cases Res.ok.inj h2
    exact ⟨rfl, rfl⟩
  · simp only [if_true] at h2 ⊢
    obtain ⟨v, h3, h4⟩ := Res.bind_eq_ok.1 h2
    have hv : ({ st with samples := sm } : MCMC ℝ).value t p = .ok v := h3
    rw [hv, Res.ok_bind]
    have e := Res.ok.inj h4
    have hn : ({ st with samples := sm } : MCMC ℝ).noteBest = { st.noteBest with samples := sm } := by
      unfold MCMC.noteBest
      split <;> rfl
    rw [hn]
    subst e
    have hb : st.noteBest.bounds = st.bounds := by unfold MCMC.noteBest; split <;> rfl
    have hdec : ∀ q : MCMC ℝ, ({ q with samples := sm } : MCMC ℝ).decideStep ex p v corr u =
        ({ (q.decideStep ex p v corr u).1 with samples := sm }, (q.decideStep ex p v corr u).2) ∧ (q.decideStep ex p v corr u).1.bounds = q.bounds := by
      intro q
      unfold MCMC.decideStep
      by_cases ha : MCMC.accepts ex q.logged v q.curVal corr u = true
      · simp only [ha, if_true]; exact ⟨trivial, rfl⟩
      · simp only [ha, if_false]; exact ⟨rfl, rfl⟩
    obtain ⟨g1, g2⟩ := hdec st.noteBest
    exact ⟨by rw [g1], g2.trans hb⟩

/-- The run of the loop, in terms of the points visited. -/
theorem MCMC.run_points {m : MCMC ℝ} {t : TestStat ℝ} {ks : List String} (hk : NamesSorted ks) {lo hi : Fin ks.length → ℝ} (hl : HasLimits m ks lo hi)
    {V : (Fin ks.length → ℝ) → ℝ} (hV : ∀ x ∈ limitBox lo hi, t.eval (pointDict ks x) = .ok (V x))
    {s : MetropolisSampler ℝ} (hs : ∀ i : Fin ks.length, ks[i] ∉ s.fixed → (s.sigmas.find ks[i]).isSome)
    (ws : List ((Fin ks.length → ℝ) × ℝ)) (x : Fin ks.length → ℝ) (st : MCMC ℝ) (hx : ChainAt m st ks V x) :
    ∃ h : List (ChainStep ℝ), h.map (·.params) = (Ergodic.points (metroStep m lo hi V (stepWidth s ks)) x ws).map (pointDict ks) ∧
      ∀ sm s', sm.fillAll st.bounds h = .ok s' → ∃ st',
        Res.forFold (MCMC.iterate Real.exp t) ({ st with samples := sm } : MCMC ℝ) (ws.map fun w => s.input (fun k sg => sg * dval (pointDict ks w.1) k) w.2) = .ok st' ∧
        st'.samples = s' := by
  induction ws generalizing x st with
  | nil => exact ⟨[], rfl, fun sm s' h => ⟨{ st with samples := sm }, rfl, Res.ok.inj h⟩⟩
  | cons w ws ih =>
    obtain ⟨d, r, h1, h2, h3, _⟩ := metropolis_step hk hl hV hs x w.1 w.2 st hx
    obtain ⟨h, e1, e2⟩ := ih _ r.1 h3
    refine ⟨⟨r.1.curStep, r.1.curVal, r.2⟩ :: h, ?_, fun sm s' hf => ?_⟩
    · rw [List.map_cons, e1, Ergodic.points, List.map_cons, h3.step]; rfl
    · obtain ⟨s1, f1, f2⟩ := Res.forFold_cons_eq_ok.1 hf
      have f1 : sm.fill st.bounds r.1.curStep r.1.curVal r.2 = .ok s1 := f1
      have hb := (MCMC.stepAccepted_samples h2 sm).2
      have f2 : s1.fillAll r.1.bounds h = .ok s' := by rw [hb]; exact f2
      obtain ⟨st', g1, g2⟩ := e2 s1 s' f2
      refine ⟨st', ?_, g2⟩
      rw [List.map_cons]
      refine Res.forFold_cons_eq_ok.2 ⟨{ r.1 with samples := s1 }, ?_, g1⟩
      unfold MCMC.iterate
      rw [show ({ st with samples := sm } : MCMC ℝ).curStep = st.curStep from rfl, h1, Res.ok_bind]
      have h2' := (MCMC.stepAccepted_samples h2 sm).1
      have hu : (s.input (fun k sg => sg * dval (pointDict ks w.1) k) w.2).unif = w.2 := rfl
      rw [hu, h2', Res.ok_bind]
      show (sm.fill r.1.bounds r.1.curStep r.1.curVal r.2 >>= _) = _
      rw [hb, f1]; rfl

/-- What filling steps puts into a bin. -/
theorem fillSteps_content {as : List (BinAxis ℝ)} {h : Histogram ℝ} (hv : h.Valid as) (hc : ∀ a ∈ as, a.Contiguous) {ks : List String} (hk : NamesSorted ks)
    (hnm : ∀ a ∈ as, a.name ∈ ks) (l : List (ChainStep ℝ)) (xs : List (Fin ks.length → ℝ)) (hl : l.map (·.params) = xs.map (pointDict ks)) {h' : Histogram ℝ} (hf : fillSteps h l = .ok h') {b : Nat} (hb : b < h.nBins) :
    ∃ y, h.getBinContent b = .ok y ∧ h'.getBinContent b = .ok (y + ((xs.filter fun x => decide (h.findBin (axisCoords as ks x) = .ok b)).length : ℝ)) := by
  have key : ∀ (l : List (ChainStep ℝ)) (xs : List (Fin ks.length → ℝ)) (h h' : Histogram ℝ), h.Valid as → l.map (·.params) = xs.map (pointDict ks) → fillSteps h l = .ok h' →
      fillAll h (xs.map fun x => (axisCoords as ks x, (1 : ℝ))) = .ok h' := by
    intro l
    induction l with
    | nil =>
      intro xs h h' _ hl hf
      have : xs = [] := by simpa using hl.symm
      subst this; exact hf
    | cons p l ih =>
      intro xs h h' hv hl hf
      rcases xs with _ | ⟨x, xs⟩
      · simp at hl
      · simp only [List.map_cons, List.cons.injEq] at hl
        obtain ⟨h1, f1, f2⟩ := Res.forFold_cons_eq_ok.1 hf
        have hvs : as.map (fun a => List.lookup a.name p.params) = (axisCoords as ks x).map some := by
          rw [hl.1]
          unfold axisCoords
          rw [List.map_map]
          refine List.map_congr_left fun a ha => ?_
          obtain ⟨i, hi⟩ := names_get (hnm a ha)
          rw [SMap.lookup_eq_find, ← hi, pointDict_find hk, Function.comp, ← hi, pointDict_dval hk]
        obtain ⟨_, _, hex⟩ : True ∧ True ∧ ∃ h2, h.fill (axisCoords as ks x) 1 = .ok h2 := by
          obtain ⟨h2, _, _, e, _⟩ := (C07_fill_one as h hv hc (axisCoords as ks x) 1).2 (by simp [axisCoords])
          exact ⟨trivial, trivial, h2, e⟩
        obtain ⟨h2, e2⟩ := hex
        have := (C07_fill_map as h hv p.params 1).2 _ hvs h2 e2
        have f1 : h.fillMap p.params 1 = .ok h1 := f1
        rw [← Res.ok.inj (this.symm.trans f1)] at f2
        exact Res.forFold_cons_eq_ok.2 ⟨h2, e2, ih xs h2 h' (fill_valid hv e2) hl.2 f2⟩
  have h1 := key l xs h h' hv hl hf
  obtain ⟨h2, e1, _, _, e4, _⟩ := C07_fill_sequence as h hv hc (xs.map fun x => (axisCoords as ks x, (1 : ℝ))) (by
    intro e he
    obtain ⟨x, _, rfl⟩ := List.mem_map.1 he
    simp [axisCoords])
  cases Res.ok.inj (e1.symm.trans h1)
  obtain ⟨y, y1, y2⟩ := e4 b hb
  refine ⟨y, y1, ?_⟩
  rw [y2]
  congr 2
  rw [List.filter_map, List.map_map]
  have : ((fun e : List ℝ × ℝ => e.2) ∘ fun x : Fin ks.length → ℝ => (axisCoords as ks x, (1 : ℝ))) = fun _ => (1 : ℝ) := rfl
  rw [this]
  simp [Function.comp_def]

end Oxsx
