import Verif.Props.MCMCSamples
import Verif.Props.HistTools
import Verif.Props.Configured
import Verif.Props.Combinations
set_option linter.unusedSectionVars false
set_option linter.unusedSimpArgs false
set_option linter.unusedVariables false

/-! C54, the default storage: one histogram per parameter and per pair of parameters. Storing steps that have a value for every axis never fails, and every
histogram has the axes of its parameters and exactly the recorded steps. -/
namespace Oxsx
open Spec AxisCollection
variable {α : Type} [Field α] [LinearOrder α] [IsStrictOrderedRing α]

/-- Every histogram in the map has some of the given axes. -/
def OverSome (as : List (BinAxis α)) (hs : SMap (Histogram α)) : Prop := ∀ p ∈ hs, ∃ as', (∀ a ∈ as', a ∈ as) ∧ p.2.Valid as'

theorem overSome_insert {as : List (BinAxis α)} {hs : SMap (Histogram α)} (h : OverSome as hs) (k : String) {x : Histogram α}
    (hx : ∃ as', (∀ a ∈ as', a ∈ as) ∧ x.Valid as') : OverSome as (hs.insert k x) := by
  intro p hp
  induction hs with
  | nil =>
    simp only [SMap.insert, List.mem_singleton] at hp
    subst hp; exact hx
  | cons q r ih =>
    have hr : OverSome as r := fun p hp => h p (List.mem_cons_of_mem _ hp)
    unfold SMap.insert at hp
    split at hp
    · rcases List.mem_cons.1 hp with rfl | hp
      · exact hx
      · first
        | exact h p hp
        | exact h p (List.mem_cons_of_mem _ hp)
    · split at hp
      · rcases List.mem_cons.1 hp with rfl | hp
        · exact hx
        · first
          | exact h p hp
          | exact h p (List.mem_cons_of_mem _ hp)
      · rcases List.mem_cons.1 hp with rfl | hp
        · exact h _ List.mem_cons_self
        · exact ih hr hp

theorem overSome_fillAll {as : List (BinAxis α)} (hc : ∀ a ∈ as, a.Contiguous) {hs : SMap (Histogram α)} (h : OverSome as hs) (m : ParamDict α)
    (hm : ∀ a ∈ as, (List.lookup a.name m).isSome) : ∃ hs', HistTools.fillAll hs m = .ok hs' ∧ OverSome as hs' := by
  induction hs with
  | nil => exact ⟨[], rfl, fun p hp => absurd hp (by simp)⟩
  | cons q r ih =>
    obtain ⟨as', h1, h2⟩ := h q List.mem_cons_self
    obtain ⟨x, x1, x2, _⟩ := Histogram.fillMap_total h2 (fun a ha => hc a (h1 a ha)) m (fun a ha => hm a (h1 a ha)) 1
    obtain ⟨r', e1, e2⟩ := ih fun p hp => h p (List.mem_cons_of_mem _ hp)
    refine ⟨(q.1, x) :: r', ?_, ?_⟩
    · unfold HistTools.fillAll at e1 ⊢
      unfold Res.traverse
      rw [x1]
      rw [Res.ok_bind, Res.pure_eq]
      simp only
      rw [e1]
    · intro p hp
      rcases List.mem_cons.1 hp with rfl | hp
      · exact ⟨as', h1, x2⟩
      · exact e2 p hp

theorem makeAll2_over {as : List (BinAxis α)} {c : AxisCollection α} (hc : (empty : AxisCollection α).addAxes as = .ok c) (pairs : List (String × String))
    (hk : ∀ p ∈ pairs, p.1 ∈ as.map (·.name) ∧ p.2 ∈ as.map (·.name) ∧ p.1 ≠ p.2) :
    ∃ hs, HistTools.makeAll2 c pairs = .ok hs ∧ OverSome as hs := by
  have hH := holds_of_addAxes hc
  have step : ∀ p ∈ pairs, ∀ hs : SMap (Histogram α), OverSome as hs → ∃ hs', (do
      let a ← c.getAxisByName p.1
      let c1 ← (empty : AxisCollection α).addAxis a
      let b ← c.getAxisByName p.2
      let c1 ← c1.addAxis b
      pure (hs.insert (p.1 ++ "_" ++ p.2) (Histogram.ofAxes c1)) : Res (SMap (Histogram α))) = .ok hs' ∧ OverSome as hs' := by
    intro p hp hs ho
    obtain ⟨k1, k2, k3⟩ := hk p hp
    obtain ⟨a, ha, han, hget⟩ := hH.byName k1
    obtain ⟨b, hb, hbn, hget'⟩ := hH.byName k2
    obtain ⟨c1, h1, h2⟩ := (holds_empty (α := α)).addAxis_ok a (by simp)
    obtain ⟨c2, h3, h4⟩ := h2.addAxis_ok b (by simp [han, hbn]; exact fun e => k3 e.symm)
    refine ⟨hs.insert (p.1 ++ "_" ++ p.2) (Histogram.ofAxes c2), ?_, overSome_insert ho _ ⟨_, ?_, (isEmptyHist_of h4 (by simp)).1⟩⟩
    · rw [hget]; simp only [Res.ok_bind]; rw [h1]; simp only [Res.ok_bind]; rw [hget']; simp only [Res.ok_bind]; rw [h3]; rfl
    · intro x hx
      simp only [List.nil_append, List.mem_append, List.mem_singleton, List.cons_append, List.mem_cons, List.not_mem_nil, or_false] at hx
      rcases hx with rfl | rfl
      · exact ha
      · exact hb
  have loop : ∀ l : List (String × String), (∀ p ∈ l, p ∈ pairs) → ∀ hs : SMap (Histogram α), OverSome as hs → ∃ hs', Res.forFold (fun (hs : SMap (Histogram α)) (p : String × String) => (do
      let a ← c.getAxisByName p.1
      let c1 ← (empty : AxisCollection α).addAxis a
      let b ← c.getAxisByName p.2
      let c1 ← c1.addAxis b
      pure (hs.insert (p.1 ++ "_" ++ p.2) (Histogram.ofAxes c1)) : Res (SMap (Histogram α)))) hs l = .ok hs' ∧ OverSome as hs' := by
    intro l
    induction l with
    | nil => intro _ hs ho; exact ⟨hs, rfl, ho⟩
    | cons p l ih =>
      intro hl hs ho
      obtain ⟨h1, e1, e2⟩ := step p (hl p List.mem_cons_self) hs ho
      obtain ⟨h2, e3, e4⟩ := ih (fun q hq => hl q (List.mem_cons_of_mem _ hq)) h1 e2
      exact ⟨h2, Res.forFold_cons_eq_ok.2 ⟨h1, e1, e3⟩, e4⟩
  exact loop pairs (fun _ h => h) [] (fun p hp => absurd hp (by simp))

theorem makeAll1_over {as : List (BinAxis α)} {c : AxisCollection α} (hc : (empty : AxisCollection α).addAxes as = .ok c) (names : List String)
    (hk : ∀ n ∈ names, n ∈ as.map (·.name)) : ∃ hs, HistTools.makeAll1 c names = .ok hs ∧ OverSome as hs := by
  obtain ⟨hs, h1, h2, h3, h4⟩ := C72_single hc names hk
  refine ⟨hs, h1, fun p hp => ?_⟩
  have hf := SMap.find_of_mem h2 hp
  obtain ⟨h, a, f1, f2, f3, f4⟩ := h4 p.1 ((h3 p.1).1 (by rw [← SMap.find_isSome_iff, hf]; rfl))
  rw [hf] at f1
  cases f1
  exact ⟨[a], by simpa using f2, f4.1⟩

theorem recorded_subset {burn thin : Int} {h : List (ChainStep α)} {y : ChainStep α} (hy : y ∈ recorded burn thin h) : y ∈ h := by
  unfold recorded at hy
  obtain ⟨p, hp, rfl⟩ := List.mem_map.1 hy
  exact List.fst_mem_of_mem_zipIdx (List.mem_of_mem_filter hp)

theorem forall2_find {R : Histogram α → Histogram α → Prop} {l l' : SMap (Histogram α)} (h : List.Forall₂ (fun p q => p.1 = q.1 ∧ R p.2 q.2) l l') {k : String} {x : Histogram α}
    (hx : SMap.find l k = some x) : ∃ y, SMap.find l' k = some y ∧ R x y := by
  induction h with
  | nil => simp [SMap.find] at hx
  | cons h1 _ ih =>
    rename_i p q l l' _
    unfold SMap.find at hx ⊢
    rw [← h1.1]
    split at hx
    · cases hx; rename_i hk; rw [if_pos hk]; exact ⟨_, rfl, h1.2⟩
    · rename_i hk; rw [if_neg hk]; exact ih hx

/-- C54, in the default mode: with an axis for every parameter, steps that have a value for every axis are always stored. There is one histogram for every
parameter, over its axis, filled with exactly the recorded steps, so with their number as integral; and one for every pair of parameters whose joined name no other
pair shares, over their two axes, filled in the same way. -/
theorem C54_projections_total {b : MCMCBounds α} {s : MCMCSamples α} (hf : s.Fresh) (hs : s.saveFull = false) (hch : s.saveChain = false) (ht : s.thin ≠ 0)
    (hq : 0 < s.auto.qLen) {ax : AxisCollection α} (ha : s.histAxes b = .ok ax) {as : List (BinAxis α)} (hax : (empty : AxisCollection α).addAxes as = .ok ax)
    (hc : ∀ a ∈ as, a.Contiguous) (hsort : SMap.Sorted b.minima) (hd : ∀ n ∈ b.minima.keys, n ∈ as.map (·.name)) {h : List (ChainStep α)} (hn : h ≠ [])
    (hm : ∀ x ∈ h, ∀ a ∈ as, (List.lookup a.name x.params).isSome) :
    ∃ s', s.fillAll b h = .ok s' ∧
      (∀ n ∈ b.minima.keys, ∃ e a p, a ∈ as ∧ a.name = n ∧ IsEmptyHist e [a] ∧ s'.proj1.find n = some p ∧ fillSteps e (recorded s.burnIn s.thin h) = .ok p ∧
        p.integral = ((recorded s.burnIn s.thin h).length : α)) ∧
      ∀ n n', (n, n') ∈ Combinations.allCombsNoDiag b.minima.keys →
        (∀ q ∈ Combinations.allCombsNoDiag b.minima.keys, ∀ r ∈ Combinations.allCombsNoDiag b.minima.keys, q.1 ++ "_" ++ q.2 = r.1 ++ "_" ++ r.2 → q = r) →
        ∃ e a a' p, a ∈ as ∧ a' ∈ as ∧ a.name = n ∧ a'.name = n' ∧ IsEmptyHist e [a, a'] ∧ s'.proj2.find (n ++ "_" ++ n') = some p ∧
          fillSteps e (recorded s.burnIn s.thin h) = .ok p ∧ p.integral = ((recorded s.burnIn s.thin h).length : α) := by
  have hnd : b.minima.keys.Nodup := SMap.sorted_nodup hsort
  have hpairs : ∀ p ∈ Combinations.allCombsNoDiag b.minima.keys, p.1 ∈ as.map (·.name) ∧ p.2 ∈ as.map (·.name) ∧ p.1 ≠ p.2 := by
    intro p hp
    obtain ⟨_, c2, _, c4⟩ := C62_pairs b.minima.keys hnd
    obtain ⟨i, j, _, h1, h2⟩ := (c2 p.1 p.2).1 hp
    exact ⟨hd _ (List.mem_of_getElem? h1), hd _ (List.mem_of_getElem? h2), fun e => c4 p.1 (by have : p = (p.1, p.1) := Prod.ext rfl e.symm; exact this ▸ hp)⟩
  obtain ⟨p2, e2, o2⟩ := makeAll2_over hax _ hpairs
  obtain ⟨p1, e1, o1⟩ := makeAll1_over hax _ hd
  set i : MCMCSamples α := ({ s with proj1 := p1, proj2 := p2 } : MCMCSamples α).startChain b with hidef
  have hi : s.initialise b = .ok i := by
    unfold MCMCSamples.initialise MCMCSamples.makeHists
    rw [ha, Res.ok_bind, if_neg (by simp [hs]), e2]
    simp only [Res.ok_bind]; rw [e1]; rfl
  have hif : i = { s with proj1 := p1, proj2 := p2, initialised := true } := by
    rw [hidef]; unfold MCMCSamples.startChain; rw [if_neg (by simp [hch])]
  have loop : ∀ (l : List (ChainStep α)) (t : MCMCSamples α) (g : List α), (∀ x ∈ l, ∀ a ∈ as, (List.lookup a.name x.params).isSome) → t.initialised = true → t.saveFull = false →
      t.saveChain = false → t.thin ≠ 0 → OverSome as t.proj1 → OverSome as t.proj2 → AutoCorr.After s.auto.qLen g t.auto → ∃ t', t.fillAll b l = .ok t' := by
    intro l
    induction l with
    | nil => intro t g _ _ _ _ _ _ _ _; exact ⟨t, rfl⟩
    | cons x l ih =>
      intro t g hm t1 t2 t3 t4 t5 t6 t7
      obtain ⟨q1, a1, a2⟩ := overSome_fillAll hc t5 x.params (hm x List.mem_cons_self)
      obtain ⟨q2, b1, b2⟩ := overSome_fillAll hc t6 x.params (hm x List.mem_cons_self)
      obtain ⟨au, c1, c2⟩ := AutoCorr.fill_after hq t7 x.val
      have hrec : t.record x.params x.val = .ok { t with proj1 := q1, proj2 := q2, auto := au } := by
        unfold MCMCSamples.record MCMCSamples.recordHists
        rw [if_neg (by simp [t2]), a1]
        simp only [Res.ok_bind]; rw [b1]; simp only [Res.ok_bind]; rw [c1]; rfl
      have hmr : ∃ u g', t.maybeRecord x.params x.val = .ok u ∧ u.initialised = true ∧ u.saveFull = false ∧ u.saveChain = false ∧ u.thin ≠ 0 ∧ OverSome as u.proj1 ∧
          OverSome as u.proj2 ∧ AutoCorr.After s.auto.qLen g' u.auto := by
        unfold MCMCSamples.maybeRecord
        rw [hrec]
        split
        · split
          · exact ⟨_, _, rfl, t1, t2, t3, t4, a2, b2, c2⟩
          · exact ⟨_, _, rfl, t1, t2, t3, t4, t5, t6, t7⟩
        · exact ⟨_, _, rfl, t1, t2, t3, t4, t5, t6, t7⟩
      obtain ⟨u, g', u0, u1, u2, u3, u4, u5, u6, u7⟩ := hmr
      have hfill : ∃ v g', t.fill b x.params x.val x.accepted = .ok v ∧ v.initialised = true ∧ v.saveFull = false ∧ v.saveChain = false ∧ v.thin ≠ 0 ∧ OverSome as v.proj1 ∧
          OverSome as v.proj2 ∧ AutoCorr.After s.auto.qLen g' v.auto := by
        have e : t.ensureInit b = .ok t := by unfold MCMCSamples.ensureInit; rw [t1]; rfl
        unfold MCMCSamples.fill
        rw [e, Res.ok_bind, u0, Res.ok_bind]
        unfold MCMCSamples.addRow
        rw [if_neg (show ¬ (u.countAccepted x.accepted).saveChain = true by show ¬ u.saveChain = true; simp [u3]), Res.ok_bind]
        exact ⟨_, _, rfl, u1, u2, u3, u4, u5, u6, u7⟩
      obtain ⟨v, g'', v0, v1, v2, v3, v4, v5, v6, v7⟩ := hfill
      obtain ⟨t', ht'⟩ := ih v g'' (fun y hy => hm y (List.mem_cons_of_mem _ hy)) v1 v2 v3 v4 v5 v6 v7
      exact ⟨t', Res.forFold_cons_eq_ok.2 ⟨v, v0, ht'⟩⟩
  have htot : ∃ s', s.fillAll b h = .ok s' := by
    obtain ⟨t, ht'⟩ := loop h i [] hm (by rw [hif]) (by rw [hif]; exact hs) (by rw [hif]; exact hch) (by rw [hif]; exact ht) (by rw [hif]; exact o1) (by rw [hif]; exact o2)
      (by rw [hif]; show AutoCorr.After _ _ s.auto; have := AutoCorr.after_nil (α := α) s.auto.qLen; rw [← hf.auto] at this; exact this)
    cases h with
    | nil => exact absurd rfl hn
    | cons x l =>
      obtain ⟨t1, h1, h2⟩ := Res.forFold_cons_eq_ok.1 ht'
      refine ⟨t, Res.forFold_cons_eq_ok.2 ⟨t1, ?_, h2⟩⟩
      rw [MCMCSamples.fill_fresh hf, hi]; exact h1
  obtain ⟨s', hs'⟩ := htot
  obtain ⟨i', hi', _, hr, _⟩ := C54_recorded hf hn hs'
  rw [hi] at hi'; cases hi'
  obtain ⟨f1, f2⟩ := hr hs
  have g1 : i.proj1 = p1 := by rw [hif]
  have g2 : i.proj2 = p2 := by rw [hif]
  rw [g1] at f1
  rw [g2] at f2
  have hint : ∀ {e p : Histogram α} {as' : List (BinAxis α)}, (∀ a ∈ as', a ∈ as) → IsEmptyHist e as' → fillSteps e (recorded s.burnIn s.thin h) = .ok p →
      p.integral = ((recorded s.burnIn s.thin h).length : α) := by
    intro e p as' hsub he hp
    obtain ⟨p', r1, _, r3⟩ := fillSteps_total he.1 (fun a ha => hc a (hsub a ha)) (recorded s.burnIn s.thin h) (fun y hy a ha => hm y (recorded_subset hy) a (hsub a ha))
    rw [hp] at r1; cases r1
    rw [r3, he.1.integral]
    have : e.contents.sum = 0 := List.sum_eq_zero he.2
    rw [this, zero_add]
  refine ⟨s', hs', fun n hn' => ?_, fun n n' hp hinj => ?_⟩
  · obtain ⟨hh, h1, _, _, h4⟩ := C72_single hax _ hd
    rw [e1] at h1; cases h1
    obtain ⟨e, a, k1, k2, k3, k4⟩ := h4 n hn'
    obtain ⟨p, m1, m2⟩ := forall2_find (R := fun x y => fillSteps x (recorded s.burnIn s.thin h) = .ok y) f1 k1
    exact ⟨e, a, p, k2, k3, k4, m1, m2, hint (by simpa using k2) k4 m2⟩
  · obtain ⟨hh, h1, _, _, h4⟩ := C72_pairs_partial hax _ hpairs hinj
    rw [e2] at h1; cases h1
    obtain ⟨e, a, a', k1, k2, k3, k4, k5, k6⟩ := h4 (n, n') hp
    obtain ⟨p, m1, m2⟩ := forall2_find (R := fun x y => fillSteps x (recorded s.burnIn s.thin h) = .ok y) f2 k1
    exact ⟨e, a, a', p, k2, k3, k4, k5, k6, m1, m2, hint (by intro x hx; simp at hx; rcases hx with rfl | rfl; exacts [k2, k3]) k6 m2⟩

/-! ### A concrete case (its hypotheses are also met in `Props/ConvergeMarginal.lean`) -/

-- two parameters, two bins each; the first step falls in the burn-in
example : (({ (MCMCSamples.new : MCMCSamples ℚ) with burnIn := 0 }).fillAll ⟨[("a", 0), ("b", 0)], [("a", 2), ("b", 4)], 2⟩
    [⟨[("a", 1/2), ("b", 1)], 5, true⟩, ⟨[("a", 1/2), ("b", 3)], 6, true⟩, ⟨[("a", 3/2), ("b", 3)], 7, true⟩, ⟨[("a", 3/2), ("b", 3)], 7, false⟩]).toOption.map
      (fun (s : MCMCSamples ℚ) => (s.proj1.map fun (p : String × Histogram ℚ) => (p.1, p.2.contents), s.proj2.map fun (p : String × Histogram ℚ) => (p.1, p.2.contents))) =
    some ([("a", [1, 2]), ("b", [0, 3])], [("b_a", [0, 0, 1, 2])]) := by decide +kernel

end Oxsx
