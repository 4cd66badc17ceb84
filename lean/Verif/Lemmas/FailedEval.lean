import Verif.Lemmas.NllhCalls
/- What an evaluation leaves behind, failing or not, no later evaluation tells from what was there before. -/
set_option linter.unusedSectionVars false
set_option linter.unusedSimpArgs false
set_option linter.unusedVariables false
namespace Oxsx
variable {σ α : Type} [Field α] [LinearOrder α]

namespace PdfManager

theorem Core.same {m n : PdfManager α} (h : Core m n) (hd : m.allDirect = true → m.norms = n.norms) : Same m n :=
  ⟨h.orig, h.status, h.fit, h.alld, h.params, h.wlen, h.nlen, hd⟩

theorem reassertLeft_facts (m : PdfManager α) (b : Bool) : Same (m.reassertNormsLeft b).1 m ∧ (m.reassertNormsLeft b).1.work = m.work ∧
    ∀ i : Nat, m.status[i]? = some NormStatus.off → (m.reassertNormsLeft b).1.norms[i]? = m.norms[i]? := by
  refine ⟨(reassertLeft_core m b).same ?_, ?_, ?_⟩
  · intro h
    rw [(reassertLeft_core m b).alld] at h
    unfold reassertNormsLeft
    rw [if_pos h]
  · unfold reassertNormsLeft
    split <;> rfl
  · unfold reassertNormsLeft
    split
    · intro _ _; rfl
    · refine Res.forLeft_inv (fun (s : List α × Nat) => ∀ i : Nat, m.status[i]? = some NormStatus.off → s.1[i]? = m.norms[i]?)
        (fun _ _ => rfl) ?_
      rintro ⟨s, k⟩ i hs _
      refine Res.keep_inv (fun (s : List α × Nat) => ∀ i : Nat, m.status[i]? = some NormStatus.off → s.1[i]? = m.norms[i]?) hs ?_
      rintro ⟨t, k'⟩ ht
      unfold reassertStep at ht
      obtain ⟨st, hst, ht⟩ := Res.bind_eq_ok.1 ht
      by_cases hc : st = (if b = true then NormStatus.direct else NormStatus.indirect)
      · rw [if_pos hc] at ht
        obtain ⟨v, _, ht⟩ := Res.bind_eq_ok.1 ht
        obtain ⟨l, hl', ht⟩ := Res.bind_eq_ok.1 ht
        cases ht
        intro i' hi'
        unfold setIdx at hl'
        split at hl'
        · cases hl'
          simp only at hs ⊢
          rw [List.getElem?_set_ne, hs i' hi']
          rintro rfl
          rw [at_ok.1 hst] at hi'
          cases hi'
          cases b <;> simp at hc
        · cases hl'
      · rw [if_neg hc] at ht; cases ht; exact hs

theorem applyLeft_same (m : PdfManager α) (sm : SysManager α) : Same (m.applySystematicsLeft sm).1 m := by
  refine (applyLeft_core m sm).same ?_
  intro h
  rw [(applyLeft_core m sm).alld] at h
  unfold applySystematicsLeft
  split
  · rfl
  · rfl

theorem assertLeft_same (m : PdfManager α) (obs : List String) : Same (m.assertDimensionsLeft obs).1 m :=
  (assertLeft_core m obs).same (fun _ => rfl)

theorem replaceLeft_dims (obs : List String) (l : List (BinnedED α)) : ∀ j : Nat,
    ((Res.replaceLeft (toDims obs) l).1[j]?).map (toDims obs) = (l[j]?).map (toDims obs) := by
  induction l with
  | nil => intro j; rfl
  | cons a l ih =>
    intro j
    unfold Res.replaceLeft
    cases ha : toDims obs a with
    | ok b =>
      cases j with
      | zero => simp only [List.getElem?_cons_zero, Option.map_some]; rw [toDims_idem ha, ha]
      | succ j => simp only [List.getElem?_cons_succ]; exact ih j
    | throw e => rfl
    | ub => rfl

theorem shrinkLeft_none (m : PdfManager α) {s : Shrinker α} (h : s.buffers = []) : (m.applyShrinkLeft s).1 = m := by
  unfold applyShrinkLeft
  rw [if_pos h]

theorem shrinkLeft_same (m : PdfManager α) (s : Shrinker α) (hd : m.allDirect = true → ∀ st ∈ m.status, st = NormStatus.direct) :
    Same (m.applyShrinkLeft s).1 m := by
  refine (shrinkLeft_core m s).same ?_
  intro h
  rw [(shrinkLeft_core m s).alld] at h
  have hd := hd h
  unfold applyShrinkLeft
  split
  · rfl
  · split
    · rfl
    · rfl
    · rfl
    · refine (Res.forLeft_inv (fun (a : PdfManager α) => a.status = m.status ∧ a.norms = m.norms) ⟨rfl, rfl⟩ ?_).2
      rintro a i ⟨ha1, ha2⟩ _
      unfold shrinkStepLeft
      split
      · exact ⟨ha1, ha2⟩
      · exact ⟨ha1, ha2⟩
      · refine Res.keep_inv (fun (a : PdfManager α) => a.status = m.status ∧ a.norms = m.norms) ⟨ha1, ha2⟩ ?_
        intro b hb
        obtain ⟨st, hst, hb⟩ := Res.bind_eq_ok.1 hb
        have hst' := List.mem_of_getElem? (at_ok.1 hst)
        rw [ha1] at hst'
        have := hd _ hst'
        subst this
        simp only at hb
        obtain ⟨y, hy, hb⟩ := Res.bind_eq_ok.1 hb
        cases hb
        exact ⟨ha1, ha2⟩

end PdfManager

namespace SysManager

theorem constructAllLeft_equiv {C : FitSys σ α} (hC : C.Refreshing) {fail : σ → σ} (hf : ∀ s e, C.construct s = .throw e → C.Equiv (fail s) s) (m : SysManager α) (h : Nat → σ) (p : Nat) :
    C.Equiv ((m.constructAllLeft C.toSysClass fail h).1 p) (h p) := by
  unfold constructAllLeft
  have key : ∀ (h' : Nat → σ) (q : Nat) (s : σ), C.Equiv s (h' q) → (∀ p, C.Equiv (h' p) (h p)) →
      ∀ p, C.Equiv (Function.update h' q s p) (h p) := by
    intro h' q s hs hh p
    by_cases hp : p = q
    · subst hp; simp only [Function.update_self]; exact hs.trans (hh p)
    · simp only [Function.update_of_ne hp]; exact hh p
  refine Res.forLeft_inv (fun (h' : Nat → σ) => ∀ p, C.Equiv (h' p) (h p)) (fun p => .refl C _) ?_ p
  intro h' g hh _
  refine Res.forLeft_inv (fun (h' : Nat → σ) => ∀ p, C.Equiv (h' p) (h p)) hh ?_
  intro h' q hh _
  cases hc : C.construct (h' q) with
  | ok s => exact key h' q s (hC _ _ hc) hh
  | throw e => exact key h' q _ (hf _ _ hc) hh
  | ub => exact hh

end SysManager

namespace NLLH
open PdfManager

/-- Replacing the manager of distributions by one that no evaluation tells from it. -/
theorem Trace.pdfs {C : FitSys σ α} {O : List String} {log : List (BinnedED α × NormStatus)} {L K : NLLH σ α}
    (h : Trace C O log L K) {m : PdfManager α} (hb : Built log m) (hs : Same m L.pdfs)
    (hoff : L.sys.countSystematics = 0 → ∀ i : Nat, L.pdfs.status[i]? = some NormStatus.off → m.norms[i]? = L.pdfs.norms[i]?)
    (hw : L.sys.countSystematics = 0 → ∀ j : Nat, (m.work[j]?).map (toDims O) = (L.pdfs.work[j]?).map (toDims O)) :
    Trace C O log { L with pdfs := m } K := by
  refine ⟨h.groups, h.ed, h.ng, h.respL, h.respK, h.objs, h.cons, h.comps, h.rates, h.bb, h.cuts, hb, h.builtK, ?_, hs.trans h.same,
    ?_, ?_, h.shr, h.bufL, h.bufK, ?_, ?_, ?_⟩
  · intro o ho; exact h.reg o (hs.orig ▸ ho)
  · intro h0 i hi
    have hi' : L.pdfs.status[i]? = some NormStatus.off := by rw [← hs.status]; exact hi
    exact (hoff h0 i hi').trans (h.off h0 i hi')
  · intro h0 j; exact (hw h0 j).trans (h.works h0 j)
  · rw [effData_pdfs hs.orig]; exact h.eff
  · intro h0 d hd; rw [effData_pdfs hs.orig] at hd; exact h.effO h0 d hd
  · intro h0 o ho; refine h.first h0 o ?_; rw [← hs.orig]; exact ho

theorem Trace.reassert {C : FitSys σ α} {O : List String} {log : List (BinnedED α × NormStatus)} {L K : NLLH σ α}
    (h : Trace C O log L K) (b : Bool) : Trace C O log { L with pdfs := (L.pdfs.reassertNormsLeft b).1 } K := by
  obtain ⟨h1, h2, h3⟩ := reassertLeft_facts L.pdfs b
  exact h.pdfs (h.builtL.reassertNormsLeft b) h1 (fun _ => h3) (fun _ j => by rw [h2])

theorem effData_binData {L : NLLH σ α} (hc : L.calculated = false) (ht : ¬ (L.data.isNone = true ∧ ¬ L.calculated = true)) :
    L.effData = (L.binData >>= fun L' => pure L'.dataDist) := by
  unfold effData binData
  rw [Res.throwIf_false_of ht, Res.ok_bind, if_neg (by simp [hc])]
  cases at_ L.pdfs.orig 0 with
  | throw e => rfl
  | ub => rfl
  | ok o =>
    simp only [Res.ok_bind]
    cases L.data with
    | none => rfl
    | some d =>
      simp only
      generalize (DistFiller.fillDistLog (α := α) _ _ _ _ _ _) = R
      cases R <;> rfl

theorem Trace.binData {C : FitSys σ α} {O : List String} {log : List (BinnedED α × NormStatus)} {L K : NLLH σ α}
    (h : Trace C O log L K) (hc : L.calculated = false) (ht : ¬ (L.data.isNone = true ∧ ¬ L.calculated = true)) :
    Trace C O log L.binDataLeft.1 K := by
  have upd : ∀ (L' : NLLH σ α), L'.pdfs = L.pdfs → L'.sys = L.sys → L'.objs = L.objs → L'.shrinker = L.shrinker →
      L'.constraints = L.constraints → L'.components = L.components → L'.genRates = L.genRates → L'.useBB = L.useBB →
      L'.cuts = L.cuts → L'.alreadyShrunk = L.alreadyShrunk → L'.effData = L.effData → Trace C O log L' K := by
    intro L' e1 e2 e3 e4 e5 e6 e7 e8 e9 e11 e10
    refine ⟨e2 ▸ h.groups, e2 ▸ h.ed, e2 ▸ h.ng, e2 ▸ h.respL, h.respK, e3 ▸ h.objs, e5 ▸ h.cons, e6 ▸ h.comps, e7 ▸ h.rates,
      e8 ▸ h.bb, e9 ▸ h.cuts, e1 ▸ h.builtL, h.builtK, ?_, e1 ▸ h.same, ?_, ?_, e4 ▸ h.shr, ?_, h.bufK, e10 ▸ h.eff, ?_, ?_⟩
    · rw [e1, e2]; exact h.reg
    · rw [e1, e2]; exact h.off
    · rw [e1, e2]; exact h.works
    · unfold Settled; rw [e4, e2, e11]; exact h.bufL
    · rw [e2, e10]; exact h.effO
    · rw [e1, e2]; exact h.first
  obtain ⟨x, hx | hx⟩ := binDataLeft_shape L
  · rw [hx]
    refine upd _ rfl rfl rfl rfl rfl rfl rfl rfl rfl rfl ?_
    unfold effData
    simp only [hc, Bool.false_eq_true, if_false]
  · have hd := done_binData L
    rw [hx] at hd ⊢
    refine upd _ rfl rfl rfl rfl rfl rfl rfl rfl rfl rfl ?_
    rw [effData_binData hc ht, ← hd]
    have e : ({ L with dataDist := x, calculated := true } : NLLH σ α).effData = .ok x := by
      unfold effData
      rw [Res.throwIf_false_of (by simp), Res.ok_bind, if_pos rfl]; rfl
    rw [e]; rfl

theorem Trace.shrinkData {C : FitSys σ α} {O : List String} {log : List (BinnedED α × NormStatus)} {L K : NLLH σ α}
    (h : Trace C O log L K) : Trace C O log L.shrinkDataLeft.1 K ∧ L.shrinkDataLeft.1.calculated = L.calculated := by
  unfold shrinkDataLeft
  split
  · exact ⟨h, rfl⟩
  · rename_i hn
    have hb : L.shrinker.buffers = [] := h.bufL.resolve_right (fun h' => hn h'.2)
    unfold Shrinker.setBinMapLeft Shrinker.shrinkDist
    simp only [if_pos hb, Res.andThen, Res.pure_eq, Res.ok_bind, Res.keep]
    refine ⟨⟨h.groups, h.ed, h.ng, h.respL, h.respK, h.objs, h.cons, h.comps, h.rates, h.bb, h.cuts, h.builtL, h.builtK, h.reg, h.same,
      h.off, h.works, h.shr, .inl hb, h.bufK, h.eff, h.effO, h.first⟩, trivial⟩

theorem Trace.construct {C : FitSys σ α} (hC : C.Refreshing) {fail : σ → σ} (hf : ∀ s e, C.construct s = .throw e → C.Equiv (fail s) s)
    {O : List String} {log : List (BinnedED α × NormStatus)} {L K : NLLH σ α}
    (h : Trace C O log L K) : Trace C O log ({ L with sys := (L.sys.constructLeft C.toSysClass fail L.objs).1.1, objs := (L.sys.constructLeft C.toSysClass fail L.objs).1.2 } : NLLH σ α) K := by
  obtain ⟨h1, h2, h3, h4, h5⟩ := SysManager.constructLeft_facts C.toSysClass fail L.sys L.objs h.respL
  have hcount : (L.sys.constructLeft C.toSysClass fail L.objs).1.1.countSystematics = L.sys.countSystematics := by
    unfold SysManager.countSystematics; rw [h2]
  refine ⟨h2.trans h.groups, h3.trans h.ed, h4.trans h.ng, h1, h.respK, ?_, h.cons, h.comps, h.rates, h.bb, h.cuts, h.builtL,
    h.builtK, ?_, h.same, ?_, ?_, h.shr, ?_, h.bufK, h.eff, ?_, ?_⟩
  · intro p
    refine FitSys.Equiv.trans ?_ (h.objs p)
    simp only
    rcases h5 with h5 | h5
    · rw [h5]; exact SysManager.constructAllLeft_equiv hC hf L.sys L.objs p
    · rw [h5]; exact .refl C _
  · simp only; rw [h3]; exact h.reg
  · simp only; rw [hcount]; exact h.off
  · simp only; rw [hcount]; exact h.works
  · unfold Settled; simp only; rw [hcount]; exact h.bufL
  · simp only; rw [hcount]; exact h.effO
  · simp only; rw [hcount]; exact h.first

/-- Evaluating, with whatever outcome, leaves no trace. -/
theorem Trace.evalLeft {C : FitSys σ α} (hC : C.Refreshing) {fail : σ → σ} (hf : ∀ s e, C.construct s = .throw e → C.Equiv (fail s) s) (M : CMath α)
    {O : List String} {log : List (BinnedED α × NormStatus)} {L K : NLLH σ α}
    (h : Trace C O log L K) : Trace C O log (L.evaluateLeft C fail M).1 K := by
  have prep : Trace C O log (L.prepareLeft C fail).1 K := by
    unfold prepareLeft
    split
    · exact h
    · rename_i ht
      have stage1 : Trace C O log (if L.calculated = true then (L, Res.ok ()) else L.binDataLeft).1 K ∧
          ∀ s u, (if L.calculated = true then (L, Res.ok ()) else L.binDataLeft) = (s, Res.ok u) → s.calculated = true := by
        by_cases hc : L.calculated = true
        · rw [if_pos hc]
          exact ⟨h, fun s u hs => by cases hs; exact hc⟩
        · rw [if_neg hc]
          refine ⟨h.binData (by simpa using hc) ht, ?_⟩
          intro s u hs
          unfold binDataLeft at hs
          split at hs
          · cases hs
          · cases hs
          · split at hs
            · cases hs
            · simp only at hs
              generalize (DistFiller.fillDistLogLeft (α := α) _ _ _ _) = r at hs
              obtain ⟨r1, r2⟩ := r
              cases r2 with
              | ok v => simp only [Res.andThen] at hs; cases hs; rfl
              | throw e => simp only [Res.andThen] at hs; cases hs
              | ub => simp only [Res.andThen] at hs; cases hs
      refine Res.andThen_inv (fun (X : NLLH σ α) => Trace C O log X K) stage1.1 ?_
      intro L1 _ h1
      have t1 : Trace C O log L1 K := by have := stage1.1; rw [h1] at this; exact this
      have c1 := stage1.2 L1 _ h1
      refine Res.andThen_inv (fun (X : NLLH σ α) => Trace C O log X K) (t1.reassert false) ?_
      intro L2 _ h2
      have e2 := Res.fst_of h2
      have t2 : Trace C O log L2 K := by rw [e2]; exact t1.reassert false
      have c2 : L2.calculated = true := by rw [e2]; exact c1
      clear e2
      refine Res.andThen_inv (fun (X : NLLH σ α) => Trace C O log X K) t2.shrinkData.1 ?_
      intro L3 _ h3
      have e3 : L3 = L2.shrinkDataLeft.1 := by rw [h3]
      have t3 : Trace C O log L3 K := by rw [e3]; exact t2.shrinkData.1
      have c3 : L3.calculated = true := by rw [e3, t2.shrinkData.2]; exact c2
      clear e3
      refine Res.andThen_inv (fun (X : NLLH σ α) => Trace C O log X K) (t3.construct hC hf) ?_
      intro L4 _ h4
      have e4 := Res.fst_of h4
      have t4 : Trace C O log L4 K := by rw [e4]; exact t3.construct hC hf
      have c4 : L4.calculated = true := by rw [e4]; exact c3
      clear e4
      have app : Trace C O log { L4 with pdfs := (L4.pdfs.applySystematicsLeft L4.sys).1 } K := by
        refine t4.pdfs (t4.builtL.applySystematicsLeft _) (applyLeft_same _ _) ?_ ?_
        · intro h0 i _
          unfold applySystematicsLeft; rw [if_pos h0]
        · intro h0 i
          unfold applySystematicsLeft; rw [if_pos h0]
      refine Res.andThen_inv (fun (X : NLLH σ α) => Trace C O log X K) app ?_
      intro L5 _ h5
      have e5 := Res.fst_of h5
      have t5 : Trace C O log L5 K := by rw [e5]; exact app
      have c5 : L5.calculated = true := by rw [e5]; exact c4
      clear e5
      have asr : Trace C O log { L5 with pdfs := (L5.pdfs.assertDimensionsLeft L5.dataDist.obs.names).1 } K := by
        refine t5.pdfs (t5.builtL.assertDimensionsLeft _) (assertLeft_same _ _) ?_ ?_
        · intro h0 i _; rfl
        · intro h0 j
          have : L5.dataDist.obs.names = O := by
            refine t5.effO h0 _ ?_
            unfold effData
            rw [Res.throwIf_false_of (by simp [c5]), Res.ok_bind, if_pos c5]; rfl
          rw [this]
          exact replaceLeft_dims O _ j
      refine Res.andThen_inv (fun (X : NLLH σ α) => Trace C O log X K) asr ?_
      intro L6 _ h6
      have e6 := Res.fst_of h6
      have t6 : Trace C O log L6 K := by rw [e6]; exact asr
      unfold onPdfs
      simp only
      refine t6.pdfs (t6.builtL.applyShrinkLeft _) (shrinkLeft_same _ _ (PdfManager.inv_of_built t6.builtL).all_direct) ?_ ?_
      · intro h0 i _; rw [shrinkLeft_none _ (t6.bufL.none h0)]
      · intro h0 j; rw [shrinkLeft_none _ (t6.bufL.none h0)]
  unfold evaluateLeft
  refine Res.andThen_inv (fun (X : NLLH σ α) => Trace C O log X K) prep ?_
  intro L1 _ h1
  have t1 : Trace C O log L1 K := by rw [h1] at prep; exact prep
  have loop : Trace C O log { L1 with pdfs := (Res.forLeft (binStepLeft M L1) (some 0, L1.pdfs)
      (List.range L1.dataDist.hist.nBins)).1.2 } K := by
    refine Res.forLeft_inv (fun (s : Fl α × PdfManager α) => Trace C O log { L1 with pdfs := s.2 } K) t1 ?_
    rintro ⟨v, m⟩ i hs _
    unfold binStepLeft
    simp only
    have hr := hs.reassert true
    simp only at hr
    refine Res.andThen_inv (fun (s : Fl α × PdfManager α) => Trace C O log { L1 with pdfs := s.2 } K) ?_ ?_
    · simp only; rw [binProbabilityLeft_fst]; exact hr
    · rintro ⟨v', m'⟩ p hp
      have e : m' = (m.reassertNormsLeft true).1 := by
        rw [← binProbabilityLeft_fst m i]
        exact (congrArg (fun x => x.1.2) hp).symm
      subst e
      refine Res.keep_inv (fun (s : Fl α × PdfManager α) => Trace C O log { L1 with pdfs := s.2 } K) hr ?_
      intro t ht
      obtain ⟨_, _, ht⟩ := Res.bind_eq_ok.1 ht
      obtain ⟨n, _, ht⟩ := Res.bind_eq_ok.1 ht
      split at ht
      · obtain ⟨_, _, ht⟩ := Res.bind_eq_ok.1 ht
        obtain ⟨_, _, ht⟩ := Res.bind_eq_ok.1 ht
        cases ht; exact hr
      · cases ht; exact hr
  refine Res.andThen_inv (fun (X : NLLH σ α) => Trace C O log X K) loop ?_
  intro L2 _ h2
  have e2 := Res.fst_of h2
  rw [e2]
  exact loop

end NLLH
end Oxsx
