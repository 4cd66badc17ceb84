import Verif.Model.FailedCalls
import Verif.Lemmas.Basic
/- The model that keeps the object of a failed call agrees with the one that forgets it. -/
set_option linter.unusedSectionVars false
set_option linter.unusedSimpArgs false
set_option linter.unusedVariables false
namespace Oxsx

theorem setIdx_len {β : Type} {l l' : List β} {i : Nat} {a : β} (h : setIdx l i a = .ok l') : l'.length = l.length := by
  unfold setIdx at h
  split at h
  · cases h; simp
  · cases h


namespace Res
variable {S T A B ι : Type}

theorem done_keep (s : S) (q : Res S) : done (keep s q) = q := by cases q <;> rfl

theorem done_map (g : S → T) (r : S × Res Unit) : done (g r.1, r.2) = (done r >>= fun s => pure (g s)) := by
  obtain ⟨s, q⟩ := r; cases q <;> rfl

theorem done_andThen (r : S × Res A) (k : S → A → S × Res Unit) :
    done (andThen r k) = (doneV r >>= fun p => done (k p.2 p.1)) := by
  obtain ⟨s, q⟩ := r; cases q <;> rfl

theorem done_andThen' (r : S × Res Unit) (k : S → Unit → S × Res Unit) :
    done (andThen r k) = (done r >>= fun s => done (k s ())) := by
  obtain ⟨s, q⟩ := r; cases q <;> rfl

theorem doneV_andThen' (r : S × Res Unit) (k : S → Unit → S × Res B) :
    doneV (andThen r k) = (done r >>= fun s => doneV (k s ())) := by
  obtain ⟨s, q⟩ := r; cases q <;> rfl

theorem done_forLeft (f : S → ι → S × Res Unit) (l : List ι) : ∀ s, done (forLeft f s l) = forFold (fun s i => done (f s i)) s l := by
  induction l with
  | nil => intro s; rfl
  | cons i l ih =>
    intro s
    unfold forLeft
    have e : forFold (fun s i => done (f s i)) s (i :: l) = (done (f s i) >>= fun s => forFold (fun s i => done (f s i)) s l) := rfl
    rw [e]
    cases hf : f s i with
    | mk s' q =>
      cases q with
      | ok u => exact ih s'
      | throw e => rfl
      | ub => rfl

theorem done_mapLeft (f : A → Res B) (l : List A) : done (mapLeft f l) = traverse f l := by
  induction l with
  | nil => rfl
  | cons a l ih =>
    unfold mapLeft
    have e : traverse f (a :: l) = (f a >>= fun b => traverse f l >>= fun bs => pure (b :: bs)) := by
      simp only [traverse]
      cases f a with
      | ok b => simp only [ok_bind]; cases traverse f l <;> rfl
      | throw e => rfl
      | ub => rfl
    rw [e]
    cases f a with
    | ok b =>
      simp only [ok_bind]
      rw [← ih]
      cases hm : mapLeft f l with
      | mk bs q => cases q <;> rfl
    | throw e => rfl
    | ub => rfl

theorem done_replaceLeft (f : A → Res A) (l : List A) : done (replaceLeft f l) = traverse f l := by
  induction l with
  | nil => rfl
  | cons a l ih =>
    unfold replaceLeft
    have e : traverse f (a :: l) = (f a >>= fun b => traverse f l >>= fun bs => pure (b :: bs)) := by
      simp only [traverse]
      cases f a with
      | ok b => simp only [ok_bind]; cases traverse f l <;> rfl
      | throw e => rfl
      | ub => rfl
    rw [e]
    cases f a with
    | ok b =>
      simp only [ok_bind]
      rw [← ih]
      cases hm : replaceLeft f l with
      | mk bs q => cases q <;> rfl
    | throw e => rfl
    | ub => rfl

/-- A property kept by every iteration, failing ones included, holds of what a loop leaves. -/
theorem forLeft_inv {f : S → ι → S × Res Unit} (P : S → Prop) {l : List ι} : ∀ {s : S}, P s →
    (∀ s i, P s → i ∈ l → P (f s i).1) → P (forLeft f s l).1 := by
  induction l with
  | nil => intro s h _; exact h
  | cons i l ih =>
    intro s h hs
    unfold forLeft
    have h1 := hs s i h List.mem_cons_self
    cases hf : f s i with
    | mk s' q =>
      rw [hf] at h1
      cases q with
      | ok u => exact ih h1 (fun s j hj hm => hs s j hj (List.mem_cons_of_mem _ hm))
      | throw e => exact h1
      | ub => exact h1

theorem andThen_inv (P : S → Prop) {r : S × Res A} {k : S → A → S × Res B} (h : P r.1)
    (hk : ∀ s a, r = (s, .ok a) → P (k s a).1) : P (andThen r k).1 := by
  obtain ⟨s, q⟩ := r
  cases q with
  | ok a => exact hk s a rfl
  | throw e => exact h
  | ub => exact h

theorem keep_inv (P : S → Prop) {s : S} {q : Res S} (h : P s) (hq : ∀ s', q = .ok s' → P s') : P (keep s q).1 := by
  cases q with
  | ok s' => exact hq s' rfl
  | throw e => exact h
  | ub => exact h

theorem done_eq_ok {r : S × Res Unit} {s : S} : done r = .ok s ↔ r = (s, .ok ()) := by
  obtain ⟨s', q⟩ := r
  cases q with
  | ok u => constructor
            · intro h; cases h; rfl
            · intro h; cases h; rfl
  | throw e => constructor <;> intro h <;> cases h
  | ub => constructor <;> intro h <;> cases h

end Res

section
variable {α : Type} [Field α] [LinearOrder α] {σ : Type}

namespace PdfManager

theorem done_reassertNorms (m : PdfManager α) (b : Bool) : Res.done (m.reassertNormsLeft b) = m.reassertNorms b := by
  unfold reassertNormsLeft reassertNorms
  split
  · rfl
  · simp only
    rw [Res.done_map (fun (s : List α × Nat) => ({ m with norms := s.1 } : PdfManager α)), Res.done_forLeft]
    simp only [Res.done_keep]

theorem doneV_binProbability (m : PdfManager α) (i : Nat) : Res.doneV (m.binProbabilityLeft i) = m.binProbability i := by
  unfold binProbabilityLeft binProbability
  rw [Res.doneV_andThen', done_reassertNorms]
  cases m.reassertNorms true with
  | throw e => rfl
  | ub => rfl
  | ok m =>
    simp only [Res.ok_bind]
    unfold Res.doneV
    simp only
    cases Res.mapExc (fun e => if e = .outOfRange then .logic else e)
      (Res.forFold (m.probStep (fun w => w.hist.getBinContent i)) (0, 0) (List.range m.work.length)) with
    | throw e => rfl
    | ub => rfl
    | ok p => rfl

end PdfManager

namespace SysManager

theorem done_distort (m : SysManager α) (o : BinnedED α) (gs : List String) : Res.done (m.distortLeft o gs) = m.distort o gs := by
  unfold distortLeft distort
  cases m.groupAt "" with
  | throw e => rfl
  | ub => rfl
  | ok gl =>
    simp only [Res.ok_bind]
    rw [Res.done_andThen']
    congr 1
    · split
      · rw [Res.done_keep]
      · rfl
    · funext w
      rw [Res.done_forLeft]
      simp only [Res.done_keep]

theorem done_distortEDs (m : SysManager α) (orig work : List (BinnedED α)) (ns : Option (List α)) :
    Res.done (m.distortEDsLeft orig work ns) = m.distortEDs orig work ns := by
  unfold distortEDsLeft distortEDs
  rw [Res.done_forLeft]
  refine Res.forFold_congr ?_ _
  intro s j _
  unfold distortStepLeft
  cases at_ orig j with
  | throw e => rfl
  | ub => rfl
  | ok o =>
    simp only [Res.ok_bind]
    cases SMap.find m.edGroups o.name with
    | none => rfl
    | some gs =>
      simp only
      rw [← done_distort]
      cases m.distortLeft o gs with
      | mk w q =>
        simp only
        rw [Res.done_andThen']
        cases q with
        | throw e => rfl
        | ub => rfl
        | ok u =>
          simp only [Res.done, Res.ok_bind]
          exact Res.done_keep _ _

theorem done_constructAll (C : SysClass σ α) (fail : σ → σ) (m : SysManager α) (h : Nat → σ) :
    Res.done (m.constructAllLeft C fail h) = m.constructAll C h := by
  unfold constructAllLeft constructAll
  rw [Res.done_forLeft]
  refine Res.forFold_congr ?_ _
  intro h g _
  rw [Res.done_forLeft]
  refine Res.forFold_congr ?_ _
  intro h p _
  cases C.construct (h p) <;> rfl

theorem done_construct (C : SysClass σ α) (fail : σ → σ) (m : SysManager α) (h : Nat → σ) :
    Res.done (m.constructLeft C fail h) = m.construct C h := by
  unfold constructLeft construct
  split
  · rfl
  · simp only
    rw [Res.done_andThen', Res.done_map (fun (h : Nat → σ) => (m, h)), done_constructAll]
    cases m.constructAll C h with
    | throw e => rfl
    | ub => rfl
    | ok h =>
      simp only [Res.ok_bind, Res.pure_eq]
      rw [Res.done_map (fun (rs : SMap (Matrix' α)) => (({ m with responses := rs } : SysManager α), h)), Res.done_forLeft]
      simp only [Res.done_keep]
      rfl

end SysManager

namespace PdfManager

theorem done_applySystematics (m : PdfManager α) (sm : SysManager α) :
    Res.done (m.applySystematicsLeft sm) = m.applySystematics sm := by
  unfold applySystematicsLeft applySystematics
  split
  · rfl
  · split
    · simp only
      rw [Res.done_map (fun (s : List (BinnedED α) × Option (List α)) => ({ m with work := s.1 } : PdfManager α)),
        SysManager.done_distortEDs]
    · simp only
      rw [← SysManager.done_distortEDs]
      cases sm.distortEDsLeft m.orig m.work (some (List.replicate m.norms.length 0)) with
      | mk s q =>
        obtain ⟨w, ns⟩ := s
        cases q with
        | throw e => rfl
        | ub => rfl
        | ok u =>
          simp only [Res.andThen, Res.done, Res.ok_bind]
          have := Res.done_map (fun (l : List α) => ({ m with work := w, norms := l } : PdfManager α))
            (Res.forLeft (fun acc i => Res.keep acc (m.sysNormStep (ns.getD []) acc i)) m.norms (List.range (ns.getD []).length))
          rw [Res.done_forLeft] at this
          simp only [Res.done_keep] at this
          exact this

theorem done_assertDimensions (m : PdfManager α) (obs : List String) :
    Res.done (m.assertDimensionsLeft obs) = m.assertDimensions obs := by
  unfold assertDimensionsLeft assertDimensions
  simp only
  rw [Res.done_map (fun (w : List (BinnedED α)) => ({ m with work := w } : PdfManager α)), Res.done_replaceLeft]

theorem done_shrinkStep (s : Shrinker α) (m : PdfManager α) (i : Nat) : Res.done (shrinkStepLeft s m i) = shrinkStep s m i := by
  unfold shrinkStepLeft shrinkStep
  cases hw : at_ m.work i with
  | throw e => rfl
  | ub => rfl
  | ok w =>
    have hi : i < m.work.length := by
      have := at_ok.1 hw
      exact (List.getElem?_eq_some_iff.1 this).1
    simp only [Res.ok_bind]
    cases s.shrinkDist w with
    | throw e => rfl
    | ub => rfl
    | ok w' =>
      simp only [Res.ok_bind]
      rw [setIdx_of_lt hi]
      simp only [Res.ok_bind, Res.pure_eq]
      rw [Res.done_keep]
      cases at_ m.status i with
      | throw e => rfl
      | ub => rfl
      | ok st =>
        simp only [Res.ok_bind]
        cases st with
        | direct =>
          simp only
          rw [setIdx_of_lt (by simpa using hi), setIdx_of_lt hi]
          simp
        | off =>
          simp only
        | indirect =>
          simp only

theorem done_applyShrink (m : PdfManager α) (s : Shrinker α) : Res.done (m.applyShrinkLeft s) = m.applyShrink s := by
  unfold applyShrinkLeft applyShrink
  split
  · rfl
  · simp only
    cases at_ m.work 0 with
    | throw e => rfl
    | ub => rfl
    | ok w0 =>
      simp only [Res.ok_bind]
      cases at_ m.orig 0 with
      | throw e => rfl
      | ub => rfl
      | ok o0 =>
        simp only [Res.ok_bind]
        split
        · rename_i h; split at h
          · cases h
          · split at h
            · rename_i h1 h2
              have h := h
              rw [if_neg h1, if_pos h2]; cases h; rfl
            · cases h
        · rename_i h; split at h
          · cases h
          · split at h <;> cases h
        · rename_i h; split at h
          · rename_i h1; rw [if_pos h1]; rfl
          · split at h <;> cases h
        · rename_i h; split at h
          · cases h
          · split at h
            · cases h
            · rename_i h1 h2
              rw [if_neg h1, if_neg h2, Res.done_forLeft]
              refine Res.forFold_congr ?_ _
              intro a i _
              exact done_shrinkStep s a i

end PdfManager

namespace Shrinker

theorem forFold_push (f : Nat → Res (Int × Bool)) (l : List Nat) : ∀ (v : List Int × List Bool),
    Res.forFold (fun (v : List Int × List Bool) i => do
      let e ← f i
      pure (v.1 ++ [e.1], v.2 ++ [e.2])) v l = (do
    let es ← Res.traverse f l
    pure (v.1 ++ es.map (·.1), v.2 ++ es.map (·.2))) := by
  induction l with
  | nil => intro v; simp [Res.forFold, Res.traverse]
  | cons i l ih =>
    intro v
    simp only [Res.forFold, Res.traverse]
    cases f i with
    | throw e => rfl
    | ub => rfl
    | ok e =>
      simp only [Res.ok_bind, Res.pure_eq]
      have := ih (v.1 ++ [e.1], v.2 ++ [e.2])
      simp only [Res.pure_eq] at this
      rw [this]
      cases Res.traverse f l with
      | throw e => rfl
      | ub => rfl
      | ok es => simp

theorem done_binEntry (s : Shrinker α) (dist : BinnedED α) (c : AxisCollection α) (v : List Int × List Bool) (i : Nat) :
    Res.done (s.binEntryLeft dist c v i) = (do
      let e ← s.binEntry dist c i
      pure (v.1 ++ [e.1], v.2 ++ [e.2])) := by
  unfold binEntryLeft binEntry
  generalize (2 ^ 32 : Nat) = N
  simp only
  rw [← Res.done_mapLeft]
  cases Res.mapLeft (fun j => do
    let a ← dist.hist.axes.getAxis j
    let old ← dist.hist.axes.unflattenIndex i j
    let b ← c.getAxis j
    pure (s.newIndex a.name b.nBins old)) (List.range dist.hist.nDims) with
  | mk ks q =>
    cases q with
    | throw e => rfl
    | ub => rfl
    | ok u =>
      rw [Res.done_andThen']
      simp only [Res.done, Res.ok_bind]
      refine (Res.done_keep _ _).trans ?_
      cases c.flattenIndices (ks.map (·.1)) <;> rfl

theorem done_setBinMap (s : Shrinker α) (dist : BinnedED α) : Res.done (s.setBinMapLeft dist) = s.setBinMap dist := by
  unfold setBinMapLeft setBinMap
  split
  · rfl
  · simp only
    rw [Res.done_andThen']
    have h1 := Res.done_map (fun (c : AxisCollection α) => ({ s with newAxes := c } : Shrinker α))
      (Res.forLeft (fun c i => Res.keep c (s.axisStep dist c i)) s.newAxes (List.range dist.hist.nDims))
    have h2 := Res.done_forLeft (fun c i => Res.keep c (s.axisStep dist c i)) (List.range dist.hist.nDims) s.newAxes
    simp only [Res.done_keep] at h2
    rw [← h2]
    rw [h1]
    cases hr : Res.forLeft (fun c i => Res.keep c (s.axisStep dist c i)) s.newAxes (List.range dist.hist.nDims) with
    | mk c q =>
      cases q with
      | throw e => rfl
      | ub => rfl
      | ok u =>
        have e : Res.done (c, Res.ok u) = Res.ok c := rfl
        rw [e]
        simp only [Res.ok_bind, Res.pure_eq]
        by_cases hb : s.binVec ≠ []
        · rw [if_pos hb, if_pos hb]; rfl
        · rw [if_neg hb, if_neg hb]
          rw [Res.done_map (fun (q : List Int × List Bool) =>
            (⟨s.buffers, q.1, q.2, s.usingOverflows, c⟩ : Shrinker α)), Res.done_forLeft]
          simp only [done_binEntry]
          rw [forFold_push]
          cases Res.traverse (s.binEntry dist c) (List.range dist.hist.nBins) <;> simp

end Shrinker

namespace NLLH

theorem done_onPdfs (L : NLLH σ α) (r : PdfManager α × Res Unit) :
    Res.done (L.onPdfs r) = (Res.done r >>= fun m => pure { L with pdfs := m }) :=
  Res.done_map (fun m => ({ L with pdfs := m } : NLLH σ α)) r

theorem done_fillDistLog (pdf : BinnedED α) (d : DataSet α) (cuts : CutCollection α) (log : CutLog) :
    Res.done (DistFiller.fillDistLogLeft pdf d cuts log) = DistFiller.fillDistLog pdf d cuts log [] (-1) := by
  unfold DistFiller.fillDistLogLeft DistFiller.fillDistLog
  rw [Res.done_forLeft]
  simp only [Res.done_keep]

theorem done_binData (L : NLLH σ α) : Res.done L.binDataLeft = L.binData := by
  unfold binDataLeft binData
  cases at_ L.pdfs.orig 0 with
  | throw e => rfl
  | ub => rfl
  | ok o =>
    simp only [Res.ok_bind]
    cases hD : L.data with
    | none => rfl
    | some d =>
      simp only
      rw [Res.done_andThen']
      rw [Res.done_map (fun (p : BinnedED α × CutLog) => ({ L with data := some d, dataDist := p.1 } : NLLH σ α)), done_fillDistLog]
      generalize (DistFiller.fillDistLog (α := α) _ _ _ _ _ _) = R
      cases R <;> rfl

theorem done_shrinkData (L : NLLH σ α) : Res.done L.shrinkDataLeft = L.shrinkData := by
  unfold shrinkDataLeft shrinkData
  split
  · rfl
  · simp only
    rw [Res.done_andThen', Res.done_map (fun (s : Shrinker α) => ({ L with shrinker := s } : NLLH σ α)), Shrinker.done_setBinMap]
    simp only [Res.done_keep]
    cases L.shrinker.setBinMap L.dataDist <;> rfl

theorem done_prepare (C : FitSys σ α) (fail : σ → σ) (L : NLLH σ α) : Res.done (L.prepareLeft C fail) = L.prepare C := by
  unfold prepareLeft prepare
  by_cases ht : L.data.isNone = true ∧ ¬ L.calculated = true
  · rw [Res.throwIf_true_of ht, if_pos ht]; rfl
  · rw [Res.throwIf_false_of ht, if_neg ht]
    simp only [Res.ok_bind, Res.done_andThen', done_onPdfs, PdfManager.done_reassertNorms, done_shrinkData,
      PdfManager.done_applySystematics, PdfManager.done_assertDimensions, PdfManager.done_applyShrink]
    have e : Res.done (if L.calculated = true then (L, Res.ok ()) else L.binDataLeft) =
        (if L.calculated = true then pure L else L.binData) := by
      split
      · rfl
      · exact done_binData L
    rw [e]
    congr 1
    funext L1
    cases L1.pdfs.reassertNorms false with
    | throw e => rfl
    | ub => rfl
    | ok m =>
      simp only [Res.ok_bind, Res.pure_eq]
      congr 1
      funext L2
      rw [Res.done_map (fun (r : SysManager α × (Nat → σ)) => ({ L2 with sys := r.1, objs := r.2 } : NLLH σ α)),
        SysManager.done_construct]
      cases L2.sys.construct C.toSysClass L2.objs with
      | throw e => rfl
      | ub => rfl
      | ok r =>
        simp only [Res.ok_bind, Res.pure_eq]
        cases L2.pdfs.applySystematics r.1 with
        | throw e => rfl
        | ub => rfl
        | ok m =>
          simp only [Res.ok_bind, Res.pure_eq]
          cases m.assertDimensions L2.dataDist.obs.names with
          | throw e => rfl
          | ub => rfl
          | ok m => simp only [Res.ok_bind, Res.pure_eq]

theorem done_binStep (M : CMath α) (L : NLLH σ α) (s : Fl α × PdfManager α) (i : Nat) :
    Res.done (binStepLeft M L s i) = binStep M L s i := by
  unfold binStepLeft binStep
  simp only
  rw [Res.done_andThen, ← PdfManager.doneV_binProbability]
  cases s.2.binProbabilityLeft i with
  | mk m q =>
    cases q with
    | throw e => rfl
    | ub => rfl
    | ok p =>
      simp only [Res.doneV, Res.ok_bind, Res.done_keep]

/-- The two models of an evaluation agree. -/
theorem doneV_evaluate (C : FitSys σ α) (fail : σ → σ) (M : CMath α) (L : NLLH σ α) :
    Res.doneV (L.evaluateLeft C fail M) = L.evaluate C M := by
  unfold evaluateLeft evaluate
  rw [Res.doneV_andThen', done_prepare]
  congr 1
  funext L1
  simp only
  rw [Res.doneV_andThen']
  have h := Res.done_forLeft (binStepLeft M L1) (List.range L1.dataDist.hist.nBins) (some 0, L1.pdfs)
  simp only [done_binStep] at h
  rw [← h]
  cases Res.forLeft (binStepLeft M L1) (some 0, L1.pdfs) (List.range L1.dataDist.hist.nBins) with
  | mk vm q =>
    cases q with
    | throw e => rfl
    | ub => rfl
    | ok u =>
      simp only [Res.done, Res.ok_bind]
      cases ({ L1 with pdfs := vm.2 } : NLLH σ α).getParameters C with
      | throw e => rfl
      | ub => rfl
      | ok ps =>
        simp only [Res.ok_bind]
        cases L1.constraints.evaluate ps <;> rfl

end NLLH

/-! ### What the calls on the manager of distributions leave alone, failing or not -/

namespace SysManager

theorem distortLeft_facts (sm : SysManager α) (orig work : List (BinnedED α)) (ns : Option (List α)) :
    (sm.distortEDsLeft orig work ns).1.1.length = work.length ∧
    (sm.distortEDsLeft orig work ns).1.2.map List.length = ns.map List.length ∧
    ∀ j : Nat, (¬ ∃ o gs, orig[j]? = some o ∧ SMap.find sm.edGroups o.name = some gs) →
      (sm.distortEDsLeft orig work ns).1.1[j]? = work[j]? := by
  unfold distortEDsLeft
  refine Res.forLeft_inv (fun (s : List (BinnedED α) × Option (List α)) => s.1.length = work.length ∧
    s.2.map List.length = ns.map List.length ∧
    ∀ j : Nat, (¬ ∃ o gs, orig[j]? = some o ∧ SMap.find sm.edGroups o.name = some gs) → s.1[j]? = work[j]?)
    ⟨rfl, rfl, fun _ _ => rfl⟩ ?_
  rintro s i ⟨h1, h2, h3⟩ _
  unfold distortStepLeft
  cases ho : at_ orig i with
  | throw e => exact ⟨h1, h2, h3⟩
  | ub => exact ⟨h1, h2, h3⟩
  | ok o =>
    simp only
    cases hg : SMap.find sm.edGroups o.name with
    | none => exact ⟨h1, h2, h3⟩
    | some gs =>
      simp only
      have key : ∀ w : BinnedED α, (s.1.set i w).length = work.length ∧
          ∀ j : Nat, (¬ ∃ o gs, orig[j]? = some o ∧ SMap.find sm.edGroups o.name = some gs) → (s.1.set i w)[j]? = work[j]? := by
        intro w
        refine ⟨by simpa using h1, ?_⟩
        intro j hj
        rw [List.getElem?_set_ne, h3 j hj]
        rintro rfl
        exact hj ⟨o, gs, at_ok.1 ho, hg⟩
      refine Res.andThen_inv (fun (s : List (BinnedED α) × Option (List α)) => s.1.length = work.length ∧
        s.2.map List.length = ns.map List.length ∧
        ∀ j : Nat, (¬ ∃ o gs, orig[j]? = some o ∧ SMap.find sm.edGroups o.name = some gs) → s.1[j]? = work[j]?)
        ⟨(key _).1, h2, (key _).2⟩ ?_
      rintro s' u hs'
      have e : s' = (s.1.set i (sm.distortLeft o gs).1, s.2) := (congrArg Prod.fst hs').symm
      subst e
      refine Res.keep_inv (fun (s : List (BinnedED α) × Option (List α)) => s.1.length = work.length ∧
        s.2.map List.length = ns.map List.length ∧
        ∀ j : Nat, (¬ ∃ o gs, orig[j]? = some o ∧ SMap.find sm.edGroups o.name = some gs) → s.1[j]? = work[j]?)
        ⟨(key _).1, h2, (key _).2⟩ ?_
      rintro t ht
      obtain ⟨w, hw, ht⟩ := Res.bind_eq_ok.1 ht
      have hw' : w = s.1.set i (sm.distortLeft o gs).1 := by
        unfold setIdx at hw
        split at hw
        · cases hw; rfl
        · cases hw
      subst hw'
      cases hn : s.2 with
      | none =>
        rw [hn] at ht h2
        simp only at ht
        cases ht
        exact ⟨(key _).1, h2, (key _).2⟩
      | some l =>
        rw [hn] at ht h2
        simp only at ht
        obtain ⟨l', hl', ht⟩ := Res.bind_eq_ok.1 ht
        cases ht
        refine ⟨(key _).1, ?_, (key _).2⟩
        rw [← h2]
        simp [setIdx_len hl']

end SysManager

namespace PdfManager

/-- Everything but the values of the normalisations and the working distributions. -/
structure Core (m n : PdfManager α) : Prop where
  orig : m.orig = n.orig
  status : m.status = n.status
  fit : m.fitNorms = n.fitNorms
  alld : m.allDirect = n.allDirect
  params : m.params = n.params
  wlen : m.work.length = n.work.length
  nlen : m.norms.length = n.norms.length

theorem Core.refl (m : PdfManager α) : Core m m := ⟨rfl, rfl, rfl, rfl, rfl, rfl, rfl⟩

theorem reassertLeft_core (m : PdfManager α) (b : Bool) : Core (m.reassertNormsLeft b).1 m := by
  unfold reassertNormsLeft
  split
  · exact .refl m
  · refine ⟨rfl, rfl, rfl, rfl, rfl, rfl, ?_⟩
    refine Res.forLeft_inv (fun (s : List α × Nat) => s.1.length = m.norms.length) rfl ?_
    rintro ⟨s, k⟩ i hs _
    refine Res.keep_inv (fun (s : List α × Nat) => s.1.length = m.norms.length) hs ?_
    rintro ⟨t, k'⟩ ht
    unfold reassertStep at ht
    obtain ⟨st, hst, ht⟩ := Res.bind_eq_ok.1 ht
    by_cases hc : st = (if b = true then NormStatus.direct else NormStatus.indirect)
    · rw [if_pos hc] at ht
      obtain ⟨v, _, ht⟩ := Res.bind_eq_ok.1 ht
      obtain ⟨l, hl', ht⟩ := Res.bind_eq_ok.1 ht
      cases ht
      simp only at hs ⊢
      rw [setIdx_len hl', hs]
    · rw [if_neg hc] at ht; cases ht; exact hs

theorem sysNormStep_len {m : PdfManager α} {ns s t : List α} {i : Nat} (ht : m.sysNormStep ns s i = .ok t) : t.length = s.length := by
  unfold sysNormStep at ht
  obtain ⟨st, _, ht⟩ := Res.bind_eq_ok.1 ht
  cases st with
  | direct => cases ht; rfl
  | off =>
    simp only at ht
    obtain ⟨v, _, ht⟩ := Res.bind_eq_ok.1 ht
    rw [setIdx_len ht]
  | indirect =>
    simp only at ht
    obtain ⟨v, _, ht⟩ := Res.bind_eq_ok.1 ht
    obtain ⟨o, _, ht⟩ := Res.bind_eq_ok.1 ht
    rw [setIdx_len ht]

theorem applyLeft_core (m : PdfManager α) (sm : SysManager α) : Core (m.applySystematicsLeft sm).1 m := by
  unfold applySystematicsLeft
  split
  · exact .refl m
  · split
    · exact ⟨rfl, rfl, rfl, rfl, rfl, (SysManager.distortLeft_facts _ _ _ _).1, rfl⟩
    · simp only
      refine Res.andThen_inv (fun (a : PdfManager α) => Core a m)
        ⟨rfl, rfl, rfl, rfl, rfl, (SysManager.distortLeft_facts _ _ _ _).1, rfl⟩ ?_
      rintro a u ha
      have e := (congrArg Prod.fst ha).symm
      subst e
      refine ⟨rfl, rfl, rfl, rfl, rfl, (SysManager.distortLeft_facts _ _ _ _).1, ?_⟩
      refine Res.forLeft_inv (fun (s : List α) => s.length = m.norms.length) rfl ?_
      intro s i hs _
      refine Res.keep_inv (fun (s : List α) => s.length = m.norms.length) hs ?_
      intro t ht
      rw [sysNormStep_len ht, hs]

theorem replaceLeft_len {A : Type} (f : A → Res A) (l : List A) : (Res.replaceLeft f l).1.length = l.length := by
  induction l with
  | nil => rfl
  | cons a l ih =>
    unfold Res.replaceLeft
    cases f a with
    | ok b => simp only [List.length_cons, ih]
    | throw e => rfl
    | ub => rfl

theorem assertLeft_core (m : PdfManager α) (obs : List String) : Core (m.assertDimensionsLeft obs).1 m :=
  ⟨rfl, rfl, rfl, rfl, rfl, replaceLeft_len _ _, rfl⟩

theorem shrinkLeft_core (m : PdfManager α) (s : Shrinker α) : Core (m.applyShrinkLeft s).1 m := by
  unfold applyShrinkLeft
  split
  · exact .refl m
  · split
    · exact .refl m
    · exact .refl m
    · exact .refl m
    · refine Res.forLeft_inv (fun (a : PdfManager α) => Core a m) (.refl m) ?_
      intro a i ha _
      unfold shrinkStepLeft
      split
      · exact ha
      · exact ha
      · rename_i w w' ws hw
        obtain ⟨x, _, hw⟩ := Res.bind_eq_ok.1 hw
        obtain ⟨x', _, hw⟩ := Res.bind_eq_ok.1 hw
        obtain ⟨x'', hx, hw⟩ := Res.bind_eq_ok.1 hw
        cases hw
        refine Res.keep_inv (fun (a : PdfManager α) => Core a m)
          ⟨ha.orig, ha.status, ha.fit, ha.alld, ha.params, (setIdx_len hx).trans ha.wlen, ha.nlen⟩ ?_
        intro b hb
        obtain ⟨st, _, hb⟩ := Res.bind_eq_ok.1 hb
        cases st with
        | direct =>
          simp only at hb
          obtain ⟨y, hy, hb⟩ := Res.bind_eq_ok.1 hb
          cases hb
          exact ⟨ha.orig, ha.status, ha.fit, ha.alld, ha.params, (setIdx_len hy).trans ((setIdx_len hx).trans ha.wlen), ha.nlen⟩
        | off =>
          simp only at hb
          obtain ⟨y, hy, hb⟩ := Res.bind_eq_ok.1 hb
          cases hb
          exact ⟨ha.orig, ha.status, ha.fit, ha.alld, ha.params, (setIdx_len hx).trans ha.wlen, (setIdx_len hy).trans ha.nlen⟩
        | indirect =>
          simp only at hb
          obtain ⟨o, _, hb⟩ := Res.bind_eq_ok.1 hb
          obtain ⟨y, hy, hb⟩ := Res.bind_eq_ok.1 hb
          cases hb
          exact ⟨ha.orig, ha.status, ha.fit, ha.alld, ha.params, (setIdx_len hx).trans ha.wlen, (setIdx_len hy).trans ha.nlen⟩

end PdfManager
end
end Oxsx
