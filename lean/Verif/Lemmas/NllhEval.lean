import Verif.Lemmas.NllhSim
/- What an evaluation depends on, and what it leaves behind. -/
set_option linter.unusedSectionVars false
set_option linter.unusedSimpArgs false
set_option linter.unusedVariables false
namespace Oxsx
variable {σ α : Type} [Field α] [LinearOrder α]
namespace NLLH
open PdfManager

/-- The data distribution an evaluation starts from. -/
def effData (L : NLLH σ α) : Res (BinnedED α) := do
  Res.throwIf (L.data.isNone ∧ ¬ L.calculated) .logic
  if L.calculated then pure L.dataDist
  else do
    let o ← at_ L.pdfs.orig 0
    match L.data with
    | none => .ub
    | some d => do
      let (dist, _) ← DistFiller.fillDistLog { o with hist := o.hist.emptyContents } d L.cuts (CutLog.ofNames L.cuts.getCutNames) [] (-1)
      pure dist

/-- The buffers applied to it, if they were not already. -/
def effShrink (L : NLLH σ α) (d : BinnedED α) : Res (Shrinker α × BinnedED α) :=
  if L.alreadyShrunk then .ok (L.shrinker, d)
  else do
    let s ← L.shrinker.setBinMap d
    let d ← s.shrinkDist d
    pure (s, d)

/-- The likelihood an evaluation leaves behind. -/
def after (L : NLLH σ α) (m : PdfManager α) (so : SysManager α × (Nat → σ)) (sd : Shrinker α × BinnedED α) : NLLH σ α :=
  { L with pdfs := m, sys := so.1, objs := so.2, shrinker := sd.1, dataDist := sd.2, calculated := true, alreadyShrunk := true }

/-- The sum over bins. -/
def binSum (M : CMath α) (L : NLLH σ α) (d : BinnedED α) (m : PdfManager α) : Res (Fl α × PdfManager α) :=
  Res.forFold (binStep M { L with dataDist := d }) (some 0, m) (List.range d.hist.nBins)

theorem evaluate_eq (C : FitSys σ α) (M : CMath α) (L : NLLH σ α) : L.evaluate C M = (do
    let d ← L.effData
    let m ← L.pdfs.reassertNorms false
    let sd ← L.effShrink d
    let so ← L.sys.construct C.toSysClass L.objs
    let m ← late so.1 sd.2.obs.names sd.1 m
    let vm ← L.binSum M sd.2 m
    let K := L.after vm.2 so sd
    let ps ← K.getParameters C
    let c ← L.constraints.evaluate ps
    pure (Fl.add vm.1 c, K)) := by
  unfold evaluate prepare effData effShrink binSum late
  by_cases ht : L.data.isNone = true ∧ ¬ L.calculated = true
  · rw [Res.throwIf_true_of ht]; rfl
  · rw [Res.throwIf_false_of ht]
    simp only [Res.ok_bind]
    have tail : ∀ (L1 : NLLH σ α) (d : BinnedED α), L1 = { L with dataDist := d, calculated := true } →
        ((do
          let m ← L1.pdfs.reassertNorms false
          let L2 ← shrinkData { L1 with pdfs := m }
          let (sm, objs) ← L2.sys.construct C.toSysClass L2.objs
          let m ← L2.pdfs.applySystematics sm
          let m ← m.assertDimensions L2.dataDist.obs.names
          let m ← m.applyShrink L2.shrinker
          pure { L2 with pdfs := m, sys := sm, objs := objs } : Res (NLLH σ α)) >>= fun L => (do
            let (v, m) ← Res.forFold (binStep M L) (some 0, L.pdfs) (List.range L.dataDist.hist.nBins)
            let L := { L with pdfs := m }
            let ps ← L.getParameters C
            let c ← L.constraints.evaluate ps
            pure (Fl.add v c, L) : Res (Fl α × NLLH σ α))) = (do
          let m ← L.pdfs.reassertNorms false
          let sd ← (if L.alreadyShrunk then .ok (L.shrinker, d)
            else do
              let s ← L.shrinker.setBinMap d
              let d ← s.shrinkDist d
              pure (s, d) : Res (Shrinker α × BinnedED α))
          let so ← L.sys.construct C.toSysClass L.objs
          let m ← (do
            let m ← m.applySystematics so.1
            let m ← m.assertDimensions sd.2.obs.names
            m.applyShrink sd.1 : Res (PdfManager α))
          let vm ← Res.forFold (binStep M { L with dataDist := sd.2 }) (some 0, m) (List.range sd.2.hist.nBins)
          let K := L.after vm.2 so sd
          let ps ← K.getParameters C
          let c ← L.constraints.evaluate ps
          pure (Fl.add vm.1 c, K)) := by
      rintro L1 d rfl
      simp only
      cases L.pdfs.reassertNorms false with
      | throw e => rfl
      | ub => rfl
      | ok m =>
        simp only [Res.ok_bind]
        unfold shrinkData
        simp only
        have tail2 : ∀ (s : Shrinker α) (d : BinnedED α) (L2 : NLLH σ α), L2 = { L with pdfs := m, shrinker := s, dataDist := d, calculated := true, alreadyShrunk := true } →
            ((do
              let (sm, objs) ← L2.sys.construct C.toSysClass L2.objs
              let m ← L2.pdfs.applySystematics sm
              let m ← m.assertDimensions L2.dataDist.obs.names
              let m ← m.applyShrink L2.shrinker
              pure { L2 with pdfs := m, sys := sm, objs := objs } : Res (NLLH σ α)) >>= fun L => (do
                let (v, m) ← Res.forFold (binStep M L) (some 0, L.pdfs) (List.range L.dataDist.hist.nBins)
                let L := { L with pdfs := m }
                let ps ← L.getParameters C
                let c ← L.constraints.evaluate ps
                pure (Fl.add v c, L) : Res (Fl α × NLLH σ α))) = (do
              let so ← L.sys.construct C.toSysClass L.objs
              let m ← (do
                let m ← m.applySystematics so.1
                let m ← m.assertDimensions d.obs.names
                m.applyShrink s : Res (PdfManager α))
              let vm ← Res.forFold (binStep M { L with dataDist := d }) (some 0, m) (List.range d.hist.nBins)
              let K := L.after vm.2 so (s, d)
              let ps ← K.getParameters C
              let c ← L.constraints.evaluate ps
              pure (Fl.add vm.1 c, K)) := by
          rintro s d L2 rfl
          simp only
          cases L.sys.construct C.toSysClass L.objs with
          | throw e => rfl
          | ub => rfl
          | ok so =>
            obtain ⟨sm, objs⟩ := so
            simp only [Res.ok_bind]
            cases m.applySystematics sm with
            | throw e => rfl
            | ub => rfl
            | ok m =>
              simp only [Res.ok_bind]
              cases m.assertDimensions d.obs.names with
              | throw e => rfl
              | ub => rfl
              | ok m =>
                simp only [Res.ok_bind]
                cases m.applyShrink s with
                | throw e => rfl
                | ub => rfl
                | ok m =>
                  simp only [Res.ok_bind, Res.pure_eq]
                  rfl
        by_cases ha : L.alreadyShrunk = true
        · rw [if_pos ha, if_pos ha]
          simp only [Res.ok_bind]
          refine tail2 L.shrinker d { L with pdfs := m, dataDist := d, calculated := true } ?_
          rw [← ha]
        · rw [if_neg ha, if_neg ha]
          cases L.shrinker.setBinMap d with
          | throw e => rfl
          | ub => rfl
          | ok s =>
            simp only [Res.ok_bind]
            cases s.shrinkDist d with
            | throw e => rfl
            | ub => rfl
            | ok d' =>
              simp only [Res.ok_bind, Res.pure_eq]
              exact tail2 s d' _ rfl
    by_cases hc : L.calculated = true
    · rw [if_pos hc, if_pos hc]
      simp only [Res.ok_bind, Res.pure_eq]
      refine tail L L.dataDist ?_
      rw [← hc]
    · rw [if_neg hc, if_neg hc]
      unfold binData
      cases at_ L.pdfs.orig 0 with
      | throw e => rfl
      | ub => rfl
      | ok o =>
        simp only [Res.ok_bind]
        cases hD : L.data with
        | none => rfl
        | some D =>
          simp only
          cases DistFiller.fillDistLog { o with hist := o.hist.emptyContents } D L.cuts (CutLog.ofNames L.cuts.getCutNames) [] (-1) with
          | throw e => rfl
          | ub => rfl
          | ok r =>
            simp only [Res.ok_bind, Res.pure_eq]
            exact tail { L with data := some D, dataDist := r.1, calculated := true } r.1 (by rw [← hD])

end NLLH
end Oxsx
