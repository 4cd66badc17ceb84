import Verif.Lemmas.NllhReach
/- Histories of calls on a likelihood without buffers: evaluations leave no trace. -/
set_option linter.unusedSectionVars false
set_option linter.unusedSimpArgs false
set_option linter.unusedVariables false
namespace Oxsx
variable {σ α : Type} [Field α] [LinearOrder α]
namespace NLLH
open PdfManager

/-- Evaluating does not change the data distribution or the shrinker any more: there are no buffers, or they have been applied to the
data already and systematics restore the distributions before every use. -/
def Settled (L : NLLH σ α) : Prop := L.shrinker.buffers = [] ∨ (L.sys.countSystematics ≠ 0 ∧ L.alreadyShrunk = true)

/-- `L`, whose history has evaluations, against `K`, whose history has not. -/
structure Trace (C : FitSys σ α) (O : List String) (log : List (BinnedED α × NormStatus)) (L K : NLLH σ α) : Prop where
  groups : L.sys.groups = K.sys.groups
  ed : L.sys.edGroups = K.sys.edGroups
  ng : L.sys.nGroups = K.sys.nGroups
  respL : L.sys.RespOK
  respK : K.sys.RespOK
  objs : ∀ p, C.Equiv (L.objs p) (K.objs p)
  cons : L.constraints = K.constraints
  comps : L.components = K.components
  rates : L.genRates = K.genRates
  bb : L.useBB = K.useBB
  cuts : L.cuts = K.cuts
  builtL : Built log L.pdfs
  builtK : Built log K.pdfs
  reg : ∀ o ∈ L.pdfs.orig, ∃ gs, SMap.find L.sys.edGroups o.name = some gs
  same : Same L.pdfs K.pdfs
  off : L.sys.countSystematics = 0 → ∀ i : Nat, L.pdfs.status[i]? = some NormStatus.off → L.pdfs.norms[i]? = K.pdfs.norms[i]?
  works : L.sys.countSystematics = 0 → ∀ j : Nat, (L.pdfs.work[j]?).map (toDims O) = (K.pdfs.work[j]?).map (toDims O)
  shr : L.shrinker = K.shrinker
  bufL : L.Settled
  bufK : K.Settled
  eff : L.effData = K.effData
  effO : L.sys.countSystematics = 0 → ∀ d, L.effData = .ok d → d.obs.names = O
  first : L.sys.countSystematics = 0 → ∀ o, L.pdfs.orig[0]? = some o → o.obs.names = O

theorem effShrink_none {L : NLLH σ α} (h : L.shrinker.buffers = []) (d : BinnedED α) : L.effShrink d = .ok (L.shrinker, d) := by
  unfold effShrink
  split
  · rfl
  · unfold Shrinker.setBinMap Shrinker.shrinkDist
    rw [if_pos h]
    simp only [Res.ok_bind]
    rw [if_pos h]
    rfl

theorem effShrink_settled {L : NLLH σ α} (h : L.Settled) (d : BinnedED α) : L.effShrink d = .ok (L.shrinker, d) := by
  rcases h with h | ⟨_, h⟩
  · exact effShrink_none h d
  · unfold effShrink; rw [if_pos h]

theorem Settled.none {L : NLLH σ α} (h : L.Settled) (h0 : L.sys.countSystematics = 0) : L.shrinker.buffers = [] :=
  h.resolve_right (fun h' => h'.1 h0)

/-- A distribution the systematics do not write, when there are systematics, does not exist. -/
theorem kept_beyond {L : NLLH σ α} {log : List (BinnedED α × NormStatus)} (hb : Built log L.pdfs)
    (hr : ∀ o ∈ L.pdfs.orig, ∃ gs, SMap.find L.sys.edGroups o.name = some gs) (h0 : L.sys.countSystematics ≠ 0) {j : Nat}
    (hj : Kept L.sys L.pdfs.orig j) : log.length ≤ j := by
  by_contra hlt
  push Not at hlt
  have ho : L.pdfs.orig.length = log.length := by rw [(PdfManager.inv_of_built hb).orig, List.length_map]
  have hjo : j < L.pdfs.orig.length := by omega
  obtain ⟨gs, hgs⟩ := hr _ (List.getElem_mem hjo)
  exact hj.resolve_left h0 ⟨L.pdfs.orig[j], gs, by simp [hjo], hgs⟩

theorem Trace.sim {C : FitSys σ α} {O : List String} {log : List (BinnedED α × NormStatus)} {L K : NLLH σ α}
    (h : Trace C O log L K) : Sim C L K := by
  refine ⟨h.groups, h.ed, h.ng, h.respL, h.respK, h.objs, h.cons, h.comps, h.rates, h.bb, ⟨log, h.builtL, h.builtK⟩, h.same, ?_, ?_⟩
  · rw [← h.eff]
    refine Res.Rel.refl ?_ _
    intro d
    rw [effShrink_settled h.bufL, effShrink_settled h.bufK, h.shr]
  · intro d sd hd hsd
    rw [effShrink_settled h.bufL] at hsd
    cases hsd
    have iL := PdfManager.inv_of_built h.builtL
    have iK := PdfManager.inv_of_built h.builtK
    refine ⟨h.same, by rw [iL.norms, iL.work], by rw [iL.status, iL.work, List.length_map], h.off, ?_⟩
    intro j hj
    by_cases h0 : L.sys.countSystematics = 0
    · rw [h.effO h0 d hd]; exact h.works h0 j
    · have := kept_beyond h.builtL h.reg h0 hj
      rw [List.getElem?_eq_none (by rw [iL.work]; omega), List.getElem?_eq_none (by rw [iK.work]; omega)]

theorem Trace.eval {C : FitSys σ α} (hC : C.Refreshing) {M : CMath α} {O : List String} {log : List (BinnedED α × NormStatus)}
    {L K L' : NLLH σ α} {v : Fl α} (h : Trace C O log L K) (he : L.evaluate C M = .ok (v, L')) : Trace C O log L' K := by
  have hiL : Inv L := ⟨h.respL, ⟨log, h.builtL⟩, h.reg⟩
  have hiL' := after_inv hiL he
  rw [evaluate_eq] at he
  obtain ⟨d, hd, he⟩ := Res.bind_eq_ok.1 he
  obtain ⟨m, hm, he⟩ := Res.bind_eq_ok.1 he
  obtain ⟨sd, hsd, he⟩ := Res.bind_eq_ok.1 he
  obtain ⟨⟨sm, ob⟩, hc, he⟩ := Res.bind_eq_ok.1 he
  obtain ⟨m2, hm2, he⟩ := Res.bind_eq_ok.1 he
  obtain ⟨⟨v1, m3⟩, hv, he⟩ := Res.bind_eq_ok.1 he
  obtain ⟨ps, hps, he⟩ := Res.bind_eq_ok.1 he
  obtain ⟨c, hcn, he⟩ := Res.bind_eq_ok.1 he
  have e : L' = L.after m3 (sm, ob) sd := by
    simp only [Res.pure_eq, Res.ok.injEq, Prod.mk.injEq] at he
    exact he.2.symm
  subst e
  rw [effShrink_settled h.bufL] at hsd
  cases hsd
  have hb1 := h.builtL.reassertNorms false hm
  obtain ⟨hb3, s3, w3, o3⟩ := binSum_facts (hb1.late hm2) hv
  obtain ⟨s1, w1, o1⟩ := reassert_facts hm
  obtain ⟨s2, f2⟩ := late_facts hb1 hm2
  have hsame : Same m3 L.pdfs := s3.trans (s2.trans s1)
  obtain ⟨r1, g1, g2, g3⟩ := SysManager.construct_inv h.respL hc
  have hcount : sm.countSystematics = L.sys.countSystematics := by unfold SysManager.countSystematics; rw [g1]
  have eff' : (L.after m3 (sm, ob) (L.shrinker, d)).effData = .ok d := by
    unfold effData after
    simp
  refine ⟨g1.trans h.groups, g2.trans h.ed, g3.trans h.ng, r1, h.respK,
    fun p => (SysManager.construct_equiv hC hc p).trans (h.objs p), h.cons, h.comps, h.rates, h.bb, h.cuts, hb3, h.builtK, hiL'.reg,
    hsame.trans h.same, ?_, ?_, h.shr, ?_, h.bufK, ?_, ?_, ?_⟩
  · intro h0 i hoff
    have h0' : L.sys.countSystematics = 0 := hcount ▸ h0
    have hoff2 : m2.status[i]? = some NormStatus.off := by rw [← s3.status]; exact hoff
    have hoffL : L.pdfs.status[i]? = some NormStatus.off := by rw [← hsame.status]; exact hoff
    show m3.norms[i]? = _
    rw [o3 i hoff2, (f2 (h.bufL.none h0')).1 h0, o1 i hoffL]
    exact h.off h0' i hoffL
  · intro h0 j
    have h0' : L.sys.countSystematics = 0 := hcount ▸ h0
    show (m3.work[j]?).map _ = _
    have hO := h.effO h0' d hd
    have := (f2 (h.bufL.none h0')).2 j (Or.inl h0)
    rw [hO, w1] at this
    rw [w3, this]
    exact h.works h0' j
  · exact h.bufL.imp id (fun h' => ⟨by show sm.countSystematics ≠ 0; rw [hcount]; exact h'.1, rfl⟩)
  · rw [eff', ← h.eff, hd]
  · intro h0 d' hd'
    rw [eff'] at hd'
    cases hd'
    exact h.effO (hcount ▸ h0) d hd
  · intro h0 o ho
    refine h.first (hcount ▸ h0) o ?_
    rw [← hsame.orig]; exact ho

theorem fillDistLog_obs {pdf q : BinnedED α} {d : DataSet α} {cuts : CutCollection α} {log log' : CutLog}
    {ss : List (EventSys α)} {n : Int} (h : DistFiller.fillDistLog pdf d cuts log ss n = .ok (q, log')) : q.obs = pdf.obs := by
  unfold DistFiller.fillDistLog at h
  refine Res.forFold_inv (fun (p : BinnedED α × CutLog) => p.1.obs = pdf.obs) rfl h ?_
  rintro ⟨p, l⟩ i ⟨p', l'⟩ hp _ hs
  obtain ⟨e, _, hs⟩ := Res.bind_eq_ok.1 hs
  obtain ⟨ev, _, hs⟩ := Res.bind_eq_ok.1 hs
  obtain ⟨r, _, hs⟩ := Res.bind_eq_ok.1 hs
  split at hs
  · obtain ⟨q, hq, hs⟩ := Res.bind_eq_ok.1 hs
    cases hs
    unfold BinnedED.fillEvent at hq
    rw [Res.mapExc_eq_ok] at hq
    obtain ⟨x, _, hq⟩ := Res.bind_eq_ok.1 hq
    obtain ⟨y, _, hq⟩ := Res.bind_eq_ok.1 hq
    cases hq
    exact hp
  · cases hs; exact hp

theorem setDataDist_trace {C : FitSys σ α} {O : List String} {log : List (BinnedED α × NormStatus)} {L K : NLLH σ α}
    (h : Trace C O log L K) (d : BinnedED α) (hO : L.sys.countSystematics = 0 → d.obs.names = O) :
    Trace C O log (L.setDataDist d) (K.setDataDist d) := by
  have e : ∀ X : NLLH σ α, (X.setDataDist d).effData = .ok d := by
    intro X; unfold effData setDataDist; simp
  exact ⟨h.groups, h.ed, h.ng, h.respL, h.respK, h.objs, h.cons, h.comps, h.rates, h.bb, h.cuts, h.builtL, h.builtK, h.reg, h.same,
    h.off, h.works, h.shr, h.bufL, h.bufK, by rw [e, e], fun h0 d' hd' => by rw [e] at hd'; cases hd'; exact hO h0, h.first⟩

theorem setDataSet_trace {C : FitSys σ α} {O : List String} {log : List (BinnedED α × NormStatus)} {L K : NLLH σ α}
    (h : Trace C O log L K) (d : Option (DataSet α)) : Trace C O log (L.setDataSet d) (K.setDataSet d) := by
  have e : (L.setDataSet d).effData = (K.setDataSet d).effData := by
    unfold effData setDataSet
    simp only [Bool.false_eq_true, if_false]
    rw [h.same.orig, h.cuts]
  refine ⟨h.groups, h.ed, h.ng, h.respL, h.respK, h.objs, h.cons, h.comps, h.rates, h.bb, h.cuts, h.builtL, h.builtK, h.reg, h.same,
    h.off, h.works, h.shr, h.bufL, h.bufK, e, ?_, h.first⟩
  intro h0 d' hd'
  unfold effData setDataSet at hd'
  obtain ⟨_, _, hd'⟩ := Res.bind_eq_ok.1 hd'
  simp only [Bool.false_eq_true, if_false] at hd'
  obtain ⟨o, ho, hd'⟩ := Res.bind_eq_ok.1 hd'
  cases d with
  | none => cases hd'
  | some D =>
    simp only at hd'
    obtain ⟨⟨q, l⟩, hq, hd'⟩ := Res.bind_eq_ok.1 hd'
    cases hd'
    rw [fillDistLog_obs hq]
    exact h.first h0 o (at_ok.1 ho)

theorem effData_pdfs {L : NLLH σ α} {m : PdfManager α} (h : m.orig = L.pdfs.orig) : ({ L with pdfs := m } : NLLH σ α).effData = L.effData := by
  unfold effData
  simp only
  rw [h]

theorem setComponent_trace {C : FitSys σ α} {O : List String} {log : List (BinnedED α × NormStatus)} {L K : NLLH σ α}
    (h : Trace C O log L K) (d : ParamDict α) (c : NllhComponent) :
    (setComponent C d L c).2 = (setComponent C d K c).2 ∧ Trace C O log (setComponent C d L c).1 (setComponent C d K c).1 := by
  cases c with
  | sys p =>
    refine ⟨(h.objs p).outcome d, ?_⟩
    refine ⟨h.groups, h.ed, h.ng, h.respL, h.respK, ?_, h.cons, h.comps, h.rates, h.bb, h.cuts, h.builtL, h.builtK, h.reg, h.same,
      h.off, h.works, h.shr, h.bufL, h.bufK, h.eff, h.effO, h.first⟩
    intro q
    show C.Equiv (Function.update L.objs p _ q) (Function.update K.objs p _ q)
    by_cases hq : q = p
    · subst hq; simp only [Function.update_self]; exact (h.objs q).set d
    · simp only [Function.update_of_ne hq]; exact h.objs q
  | pdfs =>
    have iL := PdfManager.inv_of_built h.builtL
    have iK := PdfManager.inv_of_built h.builtK
    obtain ⟨h1, h2, h3, h4, h5⟩ := setParameters_congr h.same iL iK d
    refine ⟨h1, ?_⟩
    have oL : (L.pdfs.setParameters d).1.orig = L.pdfs.orig := rfl
    have oK : (K.pdfs.setParameters d).1.orig = K.pdfs.orig := rfl
    refine ⟨h.groups, h.ed, h.ng, h.respL, h.respK, h.objs, h.cons, h.comps, h.rates, h.bb, h.cuts, h.builtL.setParameters d,
      h.builtK.setParameters d, h.reg, h2, ?_, ?_, h.shr, h.bufL, h.bufK, ?_, ?_, h.first⟩
    · intro h0 i hoff
      show (L.pdfs.setParameters d).1.norms[i]? = (K.pdfs.setParameters d).1.norms[i]?
      by_cases ha : L.pdfs.allDirect = true
      · have := iL.all_direct ha _ (List.mem_of_getElem? (show L.pdfs.status[i]? = some NormStatus.off from hoff))
        cases this
      · obtain ⟨e1, e2⟩ := h3 i (by simpa using ha)
        rw [e1, e2]
        exact h.off h0 i hoff
    · intro h0 j
      show ((L.pdfs.setParameters d).1.work[j]?).map _ = ((K.pdfs.setParameters d).1.work[j]?).map _
      rw [h4, h5]; exact h.works h0 j
    · show ({ L with pdfs := (L.pdfs.setParameters d).1 } : NLLH σ α).effData = ({ K with pdfs := (K.pdfs.setParameters d).1 } : NLLH σ α).effData
      rw [effData_pdfs oL, effData_pdfs oK]; exact h.eff
    · intro h0 d' hd'
      refine h.effO h0 d' ?_
      rw [← effData_pdfs oL]; exact hd'

theorem setLoop_trace {C : FitSys σ α} {O : List String} {log : List (BinnedED α × NormStatus)} (d : ParamDict α)
    (cs : List NllhComponent) : ∀ {L K : NLLH σ α}, Trace C O log L K →
      (setLoop C d L cs).2 = (setLoop C d K cs).2 ∧ Trace C O log (setLoop C d L cs).1 (setLoop C d K cs).1 := by
  induction cs with
  | nil => intro L K h; exact ⟨rfl, h⟩
  | cons c cs ih =>
    intro L K h
    unfold setLoop
    obtain ⟨h1, h2⟩ := setComponent_trace h d c
    generalize setComponent C d L c = r at h1 h2
    generalize setComponent C d K c = r' at h1 h2
    obtain ⟨L', o⟩ := r
    obtain ⟨K', o'⟩ := r'
    simp only at h1 h2
    subst h1
    cases o with
    | ok u => exact ih h2
    | throw e => exact ⟨rfl, h2⟩
    | ub => exact ⟨rfl, h2⟩

theorem setParameters_trace {C : FitSys σ α} {O : List String} {log : List (BinnedED α × NormStatus)} {L K : NLLH σ α}
    (h : Trace C O log L K) (d : ParamDict α) :
    (L.setParameters C d).2 = (K.setParameters C d).2 ∧ Trace C O log (L.setParameters C d).1 (K.setParameters C d).1 := by
  unfold setParameters
  rw [← h.comps]
  split
  · exact ⟨rfl, h⟩
  · exact setLoop_trace d _ h

theorem setLoop_sys {C : FitSys σ α} (d : ParamDict α) (cs : List NllhComponent) : ∀ (L : NLLH σ α),
    (setLoop C d L cs).1.sys = L.sys := by
  induction cs with
  | nil => intro L; rfl
  | cons c cs ih =>
    intro L
    unfold setLoop
    have h : (setComponent C d L c).1.sys = L.sys := by cases c <;> rfl
    generalize setComponent C d L c = r at h
    obtain ⟨L', o⟩ := r
    cases o with
    | ok u => exact (ih L').trans h
    | throw e => exact h
    | ub => exact h

theorem setParameters_sys {C : FitSys σ α} (L : NLLH σ α) (d : ParamDict α) : (L.setParameters C d).1.sys = L.sys := by
  unfold setParameters
  split
  · rfl
  · exact setLoop_sys d _ L

theorem calls_trace {C : FitSys σ α} (hC : C.Refreshing) {M : CMath α} {O : List String} {log : List (BinnedED α × NormStatus)}
    (cs : List (FitCall α)) : ∀ {L K L' : NLLH σ α}, (K.sys.countSystematics = 0 → ∀ c ∈ cs, c.HasObs O) → Trace C O log L K →
      L.fitCalls C M cs = .ok L' → ∃ K', K.fitCalls C M (cs.filter FitCall.notEvaluate) = .ok K' ∧ Trace C O log L' K' := by
  induction cs with
  | nil => intro L K L' _ h he; cases he; exact ⟨K, rfl, h⟩
  | cons c cs ih =>
    intro L K L' hO h he
    unfold fitCalls at he
    obtain ⟨L1, h1, he2⟩ := Res.forFold_cons_eq_ok.1 he
    clear he
    have he : L1.fitCalls C M cs = .ok L' := he2
    have hc : L.sys.countSystematics = K.sys.countSystematics := by unfold SysManager.countSystematics; rw [h.groups]
    have hO' : K.sys.countSystematics = 0 → ∀ c ∈ cs, c.HasObs O := fun h0 c hc => hO h0 c (List.mem_cons_of_mem _ hc)
    cases c with
    | evaluate =>
      unfold fitCall at h1
      obtain ⟨⟨v, L2⟩, h2, h1⟩ := Res.bind_eq_ok.1 h1
      cases h1
      exact ih hO' (h.eval hC h2) he
    | setDataDist d =>
      unfold fitCall at h1
      cases h1
      obtain ⟨K', h3, h4⟩ := ih (K := K.setDataDist d) hO' (setDataDist_trace h d
        (fun h0 => hO (hc ▸ h0) (.setDataDist d) List.mem_cons_self)) he
      exact ⟨K', Res.forFold_cons_eq_ok.2 ⟨_, rfl, h3⟩, h4⟩
    | setDataSet d =>
      unfold fitCall at h1
      cases h1
      obtain ⟨K', h3, h4⟩ := ih (K := K.setDataSet d) hO' (setDataSet_trace h d) he
      exact ⟨K', Res.forFold_cons_eq_ok.2 ⟨_, rfl, h3⟩, h4⟩
    | setParameters d =>
      unfold fitCall at h1
      cases h1
      obtain ⟨K', h3, h4⟩ := ih (K := (K.setParameters C d).1) (by rw [setParameters_sys]; exact hO') (setParameters_trace h d).2 he
      exact ⟨K', Res.forFold_cons_eq_ok.2 ⟨_, rfl, h3⟩, h4⟩

end NLLH
end Oxsx
