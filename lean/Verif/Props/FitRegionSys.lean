import Verif.Props.FitRegion
import Verif.Props.LikelihoodSys
/-
C90 with systematics: the fit region of distributions distorted at the current parameters.
-/
set_option linter.unusedSectionVars false
set_option linter.unusedSimpArgs false
set_option linter.unusedVariables false
namespace Oxsx
open AxisCollection
variable {σ α : Type} [Field α] [LinearOrder α] [IsStrictOrderedRing α]

/-- The buffers of `calls` and the data `d`, not shrunk yet or shrunk to the fit region. -/
def NLLH.InBuffers (calls : List (String × Nat × Nat)) (ov : Bool) (d : BinnedED α) (L : NLLH σ α) : Prop :=
  L.calculated = true ∧
    ((L.alreadyShrunk = false ∧ L.shrinker = configureShrinker calls ov ∧ L.dataDist = d) ∨
     (L.alreadyShrunk = true ∧ (configureShrinker calls ov : Shrinker α).setBinMap d = .ok L.shrinker ∧
       L.shrinker.shrinkDist d = .ok L.dataDist))

theorem NLLH.prepare_buffers {calls : List (String × Nat × Nat)} {ov : Bool} {d : BinnedED α} {C : FitSys σ α} {L P : NLLH σ α}
    (hI : L.InBuffers calls ov d) (h : L.prepare C = .ok P) :
    ∃ sm ob m m1 m2 m3 s' dd, (configureShrinker calls ov : Shrinker α).setBinMap d = .ok s' ∧ s'.shrinkDist d = .ok dd ∧
      L.pdfs.reassertNorms false = .ok m ∧ L.sys.construct C.toSysClass L.objs = .ok (sm, ob) ∧
      m.applySystematics sm = .ok m1 ∧ m1.assertDimensions dd.obs.names = .ok m2 ∧ m2.applyShrink s' = .ok m3 ∧
      P = { L with pdfs := m3, sys := sm, objs := ob, shrinker := s', dataDist := dd, alreadyShrunk := true } := by
  obtain ⟨hcal, hI⟩ := hI
  unfold prepare at h
  obtain ⟨_, _, h⟩ := Res.bind_eq_ok.1 h
  rw [if_pos hcal] at h
  simp only [pure_bind] at h
  obtain ⟨m, hm, h⟩ := Res.bind_eq_ok.1 h
  obtain ⟨L2, h2, h⟩ := Res.bind_eq_ok.1 h
  obtain ⟨⟨sm, ob⟩, h3, h⟩ := Res.bind_eq_ok.1 h
  obtain ⟨m2, h4, h⟩ := Res.bind_eq_ok.1 h
  obtain ⟨m3, h5, h⟩ := Res.bind_eq_ok.1 h
  obtain ⟨m4, h6, h⟩ := Res.bind_eq_ok.1 h
  have hL2 : ∃ s' dd, (configureShrinker calls ov : Shrinker α).setBinMap d = .ok s' ∧ s'.shrinkDist d = .ok dd ∧
      L2 = { L with pdfs := m, shrinker := s', dataDist := dd, alreadyShrunk := true } := by
    unfold shrinkData at h2
    rcases hI with ⟨i1, i2, i3⟩ | ⟨i1, i2, i3⟩
    · simp only at h2
      rw [if_neg (by rw [i1]; simp), i2, i3] at h2
      obtain ⟨s, hs, h2⟩ := Res.bind_eq_ok.1 h2
      obtain ⟨dd, hd, h2⟩ := Res.bind_eq_ok.1 h2
      cases h2
      exact ⟨s, dd, hs, hd, rfl⟩
    · simp only at h2
      rw [if_pos i1] at h2
      cases h2
      exact ⟨_, _, i2, i3, by rw [← i1]⟩
  obtain ⟨s', dd, q1, q2, rfl⟩ := hL2
  cases h
  exact ⟨sm, ob, m, m2, m3, _, s', dd, q1, q2, hm, h3, h4, h5, h6, rfl⟩

theorem NLLH.InBuffers.evaluate {calls : List (String × Nat × Nat)} {ov : Bool} {d : BinnedED α} {C : FitSys σ α} {M : CMath α}
    {L L' : NLLH σ α} {v : Fl α} (hI : L.InBuffers calls ov d) (h : L.evaluate C M = .ok (v, L')) : L'.InBuffers calls ov d := by
  unfold NLLH.evaluate at h
  obtain ⟨P, hP, h⟩ := Res.bind_eq_ok.1 h
  obtain ⟨⟨v1, m3⟩, hloop, h⟩ := Res.bind_eq_ok.1 h
  obtain ⟨ps, hps, h⟩ := Res.bind_eq_ok.1 h
  obtain ⟨c, hc, h⟩ := Res.bind_eq_ok.1 h
  obtain ⟨sm, ob, m, m1, m2, m4, s', dd, q1, q2, _, _, _, _, _, rfl⟩ := NLLH.prepare_buffers hI hP
  have hL := (Prod.mk.inj (Res.ok.inj h)).2
  rw [← hL]
  exact ⟨hI.1, .inr ⟨rfl, q1, q2⟩⟩

theorem NLLH.setParameters_keeps (C : FitSys σ α) (ps : ParamDict α) (K : NLLH σ α) :
    (K.setParameters C ps).1.shrinker = K.shrinker ∧ (K.setParameters C ps).1.alreadyShrunk = K.alreadyShrunk ∧
    (K.setParameters C ps).1.dataDist = K.dataDist ∧ (K.setParameters C ps).1.calculated = K.calculated ∧
    (K.setParameters C ps).1.useBB = K.useBB ∧ (K.setParameters C ps).1.constraints = K.constraints := by
  have loop : ∀ (cs : List NllhComponent) (K : NLLH σ α), (setLoop C ps K cs).1.shrinker = K.shrinker ∧
      (setLoop C ps K cs).1.alreadyShrunk = K.alreadyShrunk ∧ (setLoop C ps K cs).1.dataDist = K.dataDist ∧
      (setLoop C ps K cs).1.calculated = K.calculated ∧ (setLoop C ps K cs).1.useBB = K.useBB ∧
      (setLoop C ps K cs).1.constraints = K.constraints := by
    intro cs
    induction cs with
    | nil => intro K; exact ⟨rfl, rfl, rfl, rfl, rfl, rfl⟩
    | cons c cs ih =>
      intro K
      have hc : (setComponent C ps K c).1.shrinker = K.shrinker ∧ (setComponent C ps K c).1.alreadyShrunk = K.alreadyShrunk ∧
          (setComponent C ps K c).1.dataDist = K.dataDist ∧ (setComponent C ps K c).1.calculated = K.calculated ∧
          (setComponent C ps K c).1.useBB = K.useBB ∧ (setComponent C ps K c).1.constraints = K.constraints := by
        cases c <;> exact ⟨rfl, rfl, rfl, rfl, rfl, rfl⟩
      unfold setLoop
      generalize setComponent C ps K c = x at hc
      obtain ⟨K', r⟩ := x
      cases r with
      | ok u =>
        simp only at hc ⊢
        obtain ⟨a1, a2, a3, a4, a5, a6⟩ := ih K'
        obtain ⟨b1, b2, b3, b4, b5, b6⟩ := hc
        exact ⟨a1.trans b1, a2.trans b2, a3.trans b3, a4.trans b4, a5.trans b5, a6.trans b6⟩
      | throw e => exact hc
      | ub => exact hc
  unfold NLLH.setParameters
  split
  · exact ⟨rfl, rfl, rfl, rfl, rfl, rfl⟩
  · exact loop _ _

/-- The call sets parameters or evaluates: it leaves the data alone. -/
def FitCall.KeepsData : FitCall α → Prop
  | .evaluate => True
  | .setParameters _ => True
  | _ => False

theorem NLLH.InBuffers.calls {calls : List (String × Nat × Nat)} {ov : Bool} {d : BinnedED α} {C : FitSys σ α} {M : CMath α}
    {name : Nat → String} {mc : List ManagerCall} {log : List (BinnedED α × NormStatus)}
    (cs : List (FitCall α)) (hcs : ∀ c ∈ cs, c.KeepsData) {L L' : NLLH σ α} (hR : Recorded name C M mc log L)
    (hI : L.InBuffers calls ov d) (h : L.fitCalls C M cs = .ok L') :
    L'.InBuffers calls ov d ∧ Recorded name C M mc log L' ∧ L'.useBB = L.useBB ∧ L'.constraints = L.constraints := by
  induction cs generalizing L with
  | nil => cases h; exact ⟨hI, hR, rfl, rfl⟩
  | cons c cs ih =>
    unfold NLLH.fitCalls at h
    obtain ⟨L1, h1, h⟩ := Res.forFold_cons_eq_ok.1 h
    have hk := hcs c (by simp)
    have step : L1.InBuffers calls ov d ∧ Recorded name C M mc log L1 ∧ L1.useBB = L.useBB ∧ L1.constraints = L.constraints := by
      cases c with
      | evaluate =>
        obtain ⟨⟨v, L2⟩, e1, e2⟩ := Res.bind_eq_ok.1 h1
        cases e2
        refine ⟨hI.evaluate e1, hR.evaluate e1, ?_⟩
        unfold NLLH.evaluate at e1
        obtain ⟨P, hP, e1⟩ := Res.bind_eq_ok.1 e1
        obtain ⟨x, _, e1⟩ := Res.bind_eq_ok.1 e1
        obtain ⟨ps, hps, e1⟩ := Res.bind_eq_ok.1 e1
        obtain ⟨c, hc, e1⟩ := Res.bind_eq_ok.1 e1
        obtain ⟨_, _, g1, g2⟩ := prepare_facts hR.facts.1 hP
        have hL := (Prod.mk.inj (Res.ok.inj e1)).2
        rw [← hL]
        exact ⟨g1, g2⟩
      | setParameters ps =>
        cases h1
        obtain ⟨a1, a2, a3, a4, a5, a6⟩ := NLLH.setParameters_keeps C ps L
        refine ⟨⟨a4.trans hI.1, ?_⟩, hR.setParameters ps, a5, a6⟩
        rw [a1, a2, a3]; exact hI.2
      | setDataDist d => exact hk.elim
      | setDataSet d => exact hk.elim
    obtain ⟨s1, s2, s3, s4⟩ := step
    obtain ⟨t1, t2, t3, t4⟩ := ih (fun c hc => hcs c (by simp [hc])) s2 s1 h
    exact ⟨t1, t2, t3.trans s3, t4.trans s4⟩

theorem NLLH.region_core {name : Nat → String} {C : FitSys σ ℝ} (hC : C.Refreshing) {mc : List ManagerCall}
    {log : List (BinnedED ℝ × NormStatus)} {L P : NLLH σ ℝ} (hR : Recorded name C CMath.real mc log L)
    (hadd : SysLog.added mc ≠ []) (hbb : L.useBB = false) (hlog : log ≠ [])
    (hd : PdfLog.DistinctNames log) (ho : PdfLog.Before .direct .indirect log)
    (calls : List (String × Nat × Nat)) (ov : Bool) (hcalls : calls ≠ [])
    (hsum : 0 < ((buffersOf calls).map (fun p => p.2.1 + p.2.2)).sum)
    (d : BinnedED ℝ) (as : List (BinAxis ℝ)) (hv : d.hist.Valid as) (hc : ∀ a ∈ as, a.Contiguous)
    (hl : ∀ a ∈ as, LeavesABin (buffersOf calls) a) (hsize : (shape as).prod ≤ 2 ^ 31) (hI : L.InBuffers calls ov d)
    (hw : ∀ p ∈ log, p.1.obs.names = d.obs.names ∧ ∃ bs, p.1.hist.Valid bs ∧ shape bs = shape as)
    (value : String → ℝ) (hval : ∀ n ∈ PdfLog.fitted log, L.pdfs.getParameter n = .ok (value n))
    (hP : L.prepare C = .ok P) :
    P.getParameters C = L.getParameters C ∧ ∃ (R : Nat → Matrix' ℝ) (cs : List (List ℝ)),
      (∀ p ∈ SysLog.added mc, L.CurrentResponse C p (R p)) ∧ cs.length = log.length ∧
      (∀ (j : Nat) p, log[j]? = some p → ∃ gs c, SysLog.assigned mc p.1.name = some gs ∧ cs[j]? = some c ∧
        Distorts mc R gs p.1.hist.contents c) ∧
      ((∃ b, b < (regionShape (buffersOf calls) as).prod ∧ regionRate value (buffersOf calls) ov as log
            (List.zipWith (fun p c => { p.1.hist with contents := c }) log cs) (digits (regionShape (buffersOf calls) as) b) = 0) →
        L.evaluate C CMath.real = .throw .runtime) ∧
      (∀ ps c, (∀ b, b < (regionShape (buffersOf calls) as).prod → regionRate value (buffersOf calls) ov as log
            (List.zipWith (fun p c => { p.1.hist with contents := c }) log cs) (digits (regionShape (buffersOf calls) as) b) ≠ 0) →
        L.getParameters C = .ok ps → L.constraints.evaluate ps = .ok c → ∃ L', L.evaluate C CMath.real =
          .ok (Fl.add (if ∀ b, b < (regionShape (buffersOf calls) as).prod → 0 < regionRate value (buffersOf calls) ov as log
            (List.zipWith (fun p c => { p.1.hist with contents := c }) log cs) (digits (regionShape (buffersOf calls) as) b) then
          some (regionNLL value (buffersOf calls) ov as log (List.zipWith (fun p c => { p.1.hist with contents := c }) log cs) d)
        else none) c, L')) := by
  obtain ⟨hb, hrel, hresp, hass, hkn⟩ := hR.facts
  obtain ⟨hbP, hsame, hbbP, hcP⟩ := prepare_facts hb hP
  obtain ⟨sm, ob, m, m1, m2, m3, s', dd, q1, q2, hm, hcon, h1, h2, h3, hPe⟩ := NLLH.prepare_buffers hI hP
  obtain ⟨s'', as', e1, e2, e3, e4⟩ := shrink_region calls ov hcalls d as hv hc hl hsize
  rw [q1] at e1
  have e1 := Res.ok.inj e1
  subst e1
  obtain ⟨dd', d1, d2, d3, d4, d5⟩ := e4 d as hv rfl
  rw [q2] at d1
  have d1 := Res.ok.inj d1
  subst d1
  have hbm := hb.reassertNorms false hm
  obtain ⟨R, cs, k1, k2, k3, k4⟩ := PdfManager.apply_all hC hbm hrel hadd hass hcon h1
  have hb1 := hbm.applySystematics sm h1
  have hw1 : ∀ (j : Nat) w, m1.work[j]? = some w → ∃ p c, log[j]? = some p ∧ cs[j]? = some c ∧
      w = { p.1 with hist := { p.1.hist with contents := c } } ∧ w.obs.names = d.obs.names ∧
      w.hist.nBins = p.1.hist.nBins ∧ ∃ bs, w.hist.Valid bs ∧ shape bs = shape as := by
    intro j w hj
    rw [k4, List.getElem?_zipWith] at hj
    cases hlj : log[j]? with
    | none => rw [hlj] at hj; simp at hj
    | some p =>
      obtain ⟨gs, c, c1, c2, c3, c4, _⟩ := k3 j p hlj
      rw [hlj, c2] at hj
      simp only [Option.some.injEq] at hj
      subst hj
      obtain ⟨o1, bs, o2, o3⟩ := hw p (List.mem_of_getElem? hlj)
      refine ⟨p, c, rfl, c2, rfl, o1, rfl, bs, ⟨o2.axes, o2.ne, o2.nb, o2.nd, ?_⟩, o3⟩
      show c.length = _
      rw [c4 (by rw [o2.len, o2.nb]), o2.nb]
  have hm2 : m2 = m1 := PdfManager.assert_id (fun w hw => by
    obtain ⟨j, hj⟩ := List.mem_iff_getElem?.1 hw
    obtain ⟨_, _, _, _, _, o, _⟩ := hw1 j w hj
    rw [o, d2]) h2
  subst hm2
  have hi1 := PdfManager.inv_of_built hb1
  have hF : ∃ F : BinnedED ℝ → BinnedED ℝ, ∀ w ∈ m2.work, s'.shrinkDist w = .ok (F w) := by
    classical
    refine ⟨fun w => if h : ∃ w', s'.shrinkDist w = .ok w' then h.choose else w, ?_⟩
    intro w hwm
    obtain ⟨j, hj⟩ := List.mem_iff_getElem?.1 hwm
    obtain ⟨_, _, _, _, _, _, _, bs, b1, b2⟩ := hw1 j w hj
    obtain ⟨out, o1, _⟩ := e4 w bs b1 b2
    have hex : ∃ w', s'.shrinkDist w = .ok w' := ⟨out, o1⟩
    show _ = Res.ok (if h : ∃ w', s'.shrinkDist w = .ok w' then h.choose else w)
    rw [dif_pos hex]
    exact hex.choose_spec
  obtain ⟨F, hF⟩ := hF
  obtain ⟨m3x, f1, f2, f3, f4⟩ := PdfManager.applyShrink_ok hi1 (by rw [e2]; exact buffersOf_ne calls hcalls) (by rw [e2]; exact hsum) hlog
    (by
      intro w o g1 g2
      obtain ⟨p, c, g3, _, _, _, g4, _⟩ := hw1 0 w g1
      rw [hi1.orig, List.getElem?_map, g3] at g2
      cases g2
      exact g4) F hF
  rw [h3] at f1
  have f1 := Res.ok.inj f1
  subst f1
  have hr : ∀ (j : Nat) p w, log[j]? = some p → m2.work[j]? = some w → ∃ w', s'.shrinkDist w = .ok w' ∧
      m3.work[j]? = some (PdfManager.shrunkAs p.2 w') := by
    intro j p w hp hwj
    have hj : j < log.length := (List.getElem?_eq_some_iff.1 hp).1
    have hnj : m2.norms[j]? = some (m2.norms[j]'(by rw [hi1.norms]; exact hj)) := List.getElem?_eq_getElem (by rw [hi1.norms]; exact hj)
    exact ⟨F w, hF _ (List.mem_of_getElem? hwj), (f4 j p w _ hp hwj hnj).1⟩
  have hrate := fun (b : Nat) (hb : b < (regionShape (buffersOf calls) as).prod) =>
    shrunk_rate calls ov hcalls hsum d as hv hc hl hsize q1 hi1.work (by
      intro w hwm
      obtain ⟨j, hj⟩ := List.mem_iff_getElem?.1 hwm
      obtain ⟨_, _, _, _, _, _, _, o⟩ := hw1 j w hj
      exact o) f2 hr value hb
  have hmap : m2.work.map (·.hist) = List.zipWith (fun p c => { p.1.hist with contents := c }) log cs := by
    rw [k4, List.map_zipWith]
  rw [hmap] at hrate
  have hnb : dd.hist.nBins = (regionShape (buffersOf calls) as).prod := by rw [d4.nb, regionShape_eq e3]
  have hposreg : 0 < (regionShape (buffersOf calls) as).prod := prod_pos_of (regionShape_pos e3)
  subst hPe
  have key := C31_value_partial (C := C) hb hbb hd ho hP (by show dd.hist.contents.length = dd.hist.nBins; rw [d4.len, d4.nb]) (by
    intro w hwm
    obtain ⟨z1, z2⟩ := (hrate 0 hposreg).1 w hwm
    exact ⟨by show dd.hist.nBins ≤ _; rw [hnb, z1], z2⟩) value hval
  simp only at key
  rw [hnb] at key
  have hg2 : ({ L with pdfs := m3, sys := sm, objs := ob, shrinker := s', dataDist := dd, alreadyShrunk := true } : NLLH σ ℝ).getParameters C =
      L.getParameters C :=
    getParameters_sim rfl hsame (PdfManager.inv_of_built hbP) (fun p => SysManager.construct_equiv hC hcon p)
  refine ⟨hg2, R, cs, k1, k2, fun j p hj => by
    obtain ⟨gs, c, c1, c2, c3, _⟩ := k3 j p hj
    exact ⟨gs, c, c1, c2, c3⟩, ?_, ?_⟩
  · rintro ⟨b, hb0, h0⟩
    exact key.1 ⟨b, hb0, by rw [(hrate b hb0).2]; exact h0⟩
  intro ps c hne hps hcn
  obtain ⟨L'', he⟩ := key.2 ps c (fun b hb0 => by rw [(hrate b hb0).2]; exact hne b hb0) (hg2.trans hps) hcn
  refine ⟨L'', ?_⟩
  rw [he]
  congr 3
  have hiff : (∀ b, b < (regionShape (buffersOf calls) as).prod → 0 < expectedRate value log m3.work b) ↔
      (∀ b, b < (regionShape (buffersOf calls) as).prod → 0 < regionRate value (buffersOf calls) ov as log
            (List.zipWith (fun p c => { p.1.hist with contents := c }) log cs) (digits (regionShape (buffersOf calls) as) b)) := by
    constructor
    · intro g b hb
      rw [← (hrate b hb).2]; exact g b hb
    · intro g b hb
      rw [(hrate b hb).2]; exact g b hb
  classical
  by_cases hp : ∀ b, b < (regionShape (buffersOf calls) as).prod → 0 < expectedRate value log m3.work b
  · rw [if_pos hp, if_pos (hiff.1 hp)]
    congr 1
    unfold regionNLL
    congr 1
    refine List.map_congr_left (fun b hb => ?_)
    rw [List.mem_range] at hb
    rw [(hrate b hb).2]
    congr 1
    rw [List.getD_eq_getElem?_getD, d5, List.getElem?_map, List.getElem?_range hb]; rfl
  · rw [if_neg hp, if_neg (fun g => hp (hiff.2 g))]

theorem NLLH.region_value {name : Nat → String} {C : FitSys σ ℝ} (hC : C.Refreshing) {mc : List ManagerCall}
    {log : List (BinnedED ℝ × NormStatus)} {L L' : NLLH σ ℝ} {v : Fl ℝ} (hR : Recorded name C CMath.real mc log L)
    (hadd : SysLog.added mc ≠ []) (hbb : L.useBB = false) (hlog : log ≠ [])
    (hd : PdfLog.DistinctNames log) (ho : PdfLog.Before .direct .indirect log)
    (calls : List (String × Nat × Nat)) (ov : Bool) (hcalls : calls ≠ [])
    (hsum : 0 < ((buffersOf calls).map (fun p => p.2.1 + p.2.2)).sum)
    (d : BinnedED ℝ) (as : List (BinAxis ℝ)) (hv : d.hist.Valid as) (hc : ∀ a ∈ as, a.Contiguous)
    (hl : ∀ a ∈ as, LeavesABin (buffersOf calls) a) (hsize : (shape as).prod ≤ 2 ^ 31) (hI : L.InBuffers calls ov d)
    (hw : ∀ p ∈ log, p.1.obs.names = d.obs.names ∧ ∃ bs, p.1.hist.Valid bs ∧ shape bs = shape as)
    (value : String → ℝ) (hval : ∀ n ∈ PdfLog.fitted log, L.pdfs.getParameter n = .ok (value n))
    (h : L.evaluate C CMath.real = .ok (v, L')) :
    ∃ (R : Nat → Matrix' ℝ) (ds : List (List ℝ)) (ps : ParamDict ℝ) (c : Fl ℝ),
      (∀ p ∈ SysLog.added mc, L.CurrentResponse C p (R p)) ∧ ds.length = log.length ∧
      (∀ (j : Nat) p, log[j]? = some p → ∃ gs c, SysLog.assigned mc p.1.name = some gs ∧ ds[j]? = some c ∧
        Distorts mc R gs p.1.hist.contents c) ∧
      L.getParameters C = .ok ps ∧ L.constraints.evaluate ps = .ok c ∧
      v = Fl.add (if ∀ b, b < (regionShape (buffersOf calls) as).prod → 0 < regionRate value (buffersOf calls) ov as log
            (List.zipWith (fun p c => { p.1.hist with contents := c }) log ds) (digits (regionShape (buffersOf calls) as) b) then
          some (regionNLL value (buffersOf calls) ov as log (List.zipWith (fun p c => { p.1.hist with contents := c }) log ds) d)
        else none) c := by
  obtain ⟨hb, hrel, hresp, hass, hkn⟩ := hR.facts
  have hev := h
  unfold evaluate at h
  obtain ⟨P, hP, h⟩ := Res.bind_eq_ok.1 h
  obtain ⟨⟨v1, m9⟩, hloop, h⟩ := Res.bind_eq_ok.1 h
  obtain ⟨ps, hps, h⟩ := Res.bind_eq_ok.1 h
  obtain ⟨c, hcn, h⟩ := Res.bind_eq_ok.1 h
  obtain ⟨hbP, hsame, hbbP, hcP⟩ := prepare_facts hb hP
  obtain ⟨hg2, R, ds, k1, k2, k3, k4, k5⟩ := NLLH.region_core hC hR hadd hbb hlog hd ho calls ov hcalls hsum d as hv hc hl hsize hI hw
    value hval hP
  have hbs := binSum_facts (L := P) (d := P.dataDist) (M := CMath.real) hbP hloop
  have hg1 : ({ P with pdfs := m9 } : NLLH σ ℝ).getParameters C = P.getParameters C :=
    getParameters_sim rfl hbs.2.1 (PdfManager.inv_of_built hbs.1) (fun p => .refl C _)
  have hps' : L.getParameters C = .ok ps := (hg2.symm.trans hg1.symm).trans hps
  have hc' : L.constraints.evaluate ps = .ok c := by rw [← hcP]; exact hcn
  obtain ⟨L'', he⟩ := k5 ps c (fun b hb0 h0 => by
    have := k4 ⟨b, hb0, h0⟩
    rw [hev] at this
    cases this) hps' hc'
  rw [hev] at he
  exact ⟨R, ds, ps, c, k1, k2, k3, hps', hc', (Prod.mk.inj (Res.ok.inj he)).1⟩

theorem NLLH.region_prepares {name : Nat → String} {C : FitSys σ ℝ} (hC : C.Refreshing) {mc : List ManagerCall}
    {log : List (BinnedED ℝ × NormStatus)} {L : NLLH σ ℝ} (hR : NLLH.Recorded name C CMath.real mc log L)
    (hadd : SysLog.added mc ≠ []) (hlog : log ≠ [])
    (calls : List (String × Nat × Nat)) (ov : Bool) (hcalls : calls ≠ [])
    (hsum : 0 < ((buffersOf calls).map (fun p => p.2.1 + p.2.2)).sum)
    (d : BinnedED ℝ) (as : List (BinAxis ℝ)) (hv : d.hist.Valid as) (hc : ∀ a ∈ as, a.Contiguous)
    (hl : ∀ a ∈ as, LeavesABin (buffersOf calls) a) (hsize : (shape as).prod ≤ 2 ^ 31) (hI : L.InBuffers calls ov d)
    (hw : ∀ p ∈ log, p.1.obs.names = d.obs.names ∧ ∃ bs, p.1.hist.Valid bs ∧ shape bs = shape as)
    (hobjs : ∀ p ∈ SysLog.added mc, ∃ s, C.construct (L.objs p) = .ok s ∧ SysManager.Square (shape as).prod (C.response s)) :
    ∃ P, L.prepare C = .ok P := by
  obtain ⟨hb, hrel, hresp, hass, hkn⟩ := hR.facts
  have hi := PdfManager.inv_of_built hb
  have hre : ∃ m, L.pdfs.reassertNorms false = .ok m := by
    by_cases ha : L.pdfs.allDirect = true
    · unfold PdfManager.reassertNorms
      rw [if_pos ha]; exact ⟨_, rfl⟩
    · obtain ⟨ns, h1, _⟩ := PdfManager.reassert_ok hi false (by simpa using ha) _ rfl
      exact ⟨_, h1⟩
  obtain ⟨m, hm⟩ := hre
  have hbm := hb.reassertNorms false hm
  have him := PdfManager.inv_of_built hbm
  obtain ⟨sm, ob, hcon, _, hdist⟩ := SysManager.succeeds_of_rel C.toSysClass (shape as).prod (C.Constructs (shape as).prod) (C.constructs_step hC _) hrel hkn L.objs hobjs
  have hdim : ∀ p ∈ log, p.1.hist.contents.length = (shape as).prod ∧ p.1.hist.nBins = (shape as).prod := by
    intro p hp
    obtain ⟨_, bs, b1, b2⟩ := hw p hp
    exact ⟨by rw [b1.len, b2], by rw [b1.nb, b2]⟩
  obtain ⟨m1, h1⟩ := PdfManager.apply_ok (sm := sm) hbm (fun norms hns => hdist m.orig m.work norms
    (by rw [him.work, him.orig, List.length_map]) hns (by
      intro d hd'
      rw [him.orig] at hd'
      obtain ⟨p, hp, rfl⟩ := List.mem_map.1 hd'
      exact hdim p hp))
  obtain ⟨R, cs, k1, k2, k3, k4⟩ := PdfManager.apply_all hC hbm hrel hadd hass hcon h1
  have hb1 := hbm.applySystematics sm h1
  obtain ⟨s', as', e1, e2, e3, e4⟩ := shrink_region calls ov hcalls d as hv hc hl hsize
  obtain ⟨dd, d1, d2, d3, d4, d5⟩ := e4 d as hv rfl
  have hw1 : ∀ (j : Nat) w, m1.work[j]? = some w → ∃ p, log[j]? = some p ∧ w.obs.names = d.obs.names ∧
      w.hist.nBins = p.1.hist.nBins ∧ ∃ bs, w.hist.Valid bs ∧ shape bs = shape as := by
    intro j w hj
    rw [k4, List.getElem?_zipWith] at hj
    cases hlj : log[j]? with
    | none => rw [hlj] at hj; simp at hj
    | some p =>
      obtain ⟨gs, c, c1, c2, c3, c4, _⟩ := k3 j p hlj
      rw [hlj, c2] at hj
      simp only [Option.some.injEq] at hj
      subst hj
      obtain ⟨o1, bs, o2, o3⟩ := hw p (List.mem_of_getElem? hlj)
      refine ⟨p, rfl, o1, rfl, bs, ⟨o2.axes, o2.ne, o2.nb, o2.nd, ?_⟩, o3⟩
      show c.length = _
      rw [c4 (by rw [o2.len, o2.nb]), o2.nb]
  have hass2 : m1.assertDimensions dd.obs.names = .ok m1 := PdfManager.assert_same (fun w hw => by
    obtain ⟨j, hj⟩ := List.mem_iff_getElem?.1 hw
    obtain ⟨_, _, o, _⟩ := hw1 j w hj
    rw [o, d2])
  have hi1 := PdfManager.inv_of_built hb1
  have hF : ∃ F : BinnedED ℝ → BinnedED ℝ, ∀ w ∈ m1.work, s'.shrinkDist w = .ok (F w) := by
    classical
    refine ⟨fun w => if h : ∃ w', s'.shrinkDist w = .ok w' then h.choose else w, ?_⟩
    intro w hwm
    obtain ⟨j, hj⟩ := List.mem_iff_getElem?.1 hwm
    obtain ⟨_, _, _, _, bs, b1, b2⟩ := hw1 j w hj
    obtain ⟨out, o1, _⟩ := e4 w bs b1 b2
    have hex : ∃ w', s'.shrinkDist w = .ok w' := ⟨out, o1⟩
    show _ = Res.ok (if h : ∃ w', s'.shrinkDist w = .ok w' then h.choose else w)
    rw [dif_pos hex]
    exact hex.choose_spec
  obtain ⟨F, hF⟩ := hF
  obtain ⟨m3, f1, _⟩ := PdfManager.applyShrink_ok hi1 (by rw [e2]; exact buffersOf_ne calls hcalls) (by rw [e2]; exact hsum) hlog
    (by
      intro w o g1 g2
      obtain ⟨p, g3, _, g4, _⟩ := hw1 0 w g1
      rw [hi1.orig, List.getElem?_map, g3] at g2
      cases g2
      exact g4) F hF
  obtain ⟨hcal, hI⟩ := hI
  have hshr : shrinkData { L with pdfs := m } = .ok { L with pdfs := m, shrinker := s', dataDist := dd, alreadyShrunk := true } := by
    unfold shrinkData
    rcases hI with ⟨i1, i2, i3⟩ | ⟨i1, i2, i3⟩
    · rw [if_neg (by rw [i1]; simp)]
      show ((L.shrinker.setBinMap L.dataDist).bind _ : Res _) = _
      rw [i2, i3, e1]
      simp only [Res.bind]
      rw [d1]
      rfl
    · rw [if_pos i1]
      rw [e1] at i2
      have i2 := Res.ok.inj i2
      rw [← i2, d1] at i3
      have i3 := Res.ok.inj i3
      rw [i2, i3, ← i1]
  unfold prepare
  rw [Res.throwIf_false_of (by rw [hcal]; simp)]
  simp only [Res.ok_bind]
  rw [if_pos hcal]
  simp only [pure_bind]
  rw [hm]
  simp only [Res.ok_bind]
  rw [hshr]
  simp only [Res.ok_bind]
  rw [hcon]
  simp only [Res.ok_bind]
  rw [h1]
  simp only [Res.ok_bind]
  rw [hass2]
  simp only [Res.ok_bind]
  rw [f1]
  exact ⟨_, rfl⟩

theorem NLLH.buffered_calls {name : Nat → String} {C : FitSys σ ℝ} {mc : List ManagerCall}
    {log : List (BinnedED ℝ × NormStatus)} {L0 L2 : NLLH σ ℝ} (hR : NLLH.Recorded name C CMath.real mc log L0)
    (hfresh : L0.shrinker = Shrinker.new ∧ L0.alreadyShrunk = false) (hbb : L0.useBB = false)
    (calls : List (String × Nat × Nat)) (ov : Bool) (d : BinnedED ℝ) (cs : List (FitCall ℝ)) (hcs : ∀ c ∈ cs, c.KeepsData)
    (h2 : NLLH.fitCalls C CMath.real (((calls.foldl (fun (L : NLLH σ ℝ) c => L.setBuffer c.1 c.2.1 c.2.2) L0).setBufferAsOverflow
      ov).setDataDist d) cs = .ok L2) :
    L2.InBuffers calls ov d ∧ NLLH.Recorded name C CMath.real mc log L2 ∧ L2.useBB = false ∧ L2.constraints = L0.constraints := by
  have hR1 : NLLH.Recorded name C CMath.real mc log (calls.foldl (fun (L : NLLH σ ℝ) c => L.setBuffer c.1 c.2.1 c.2.2) L0) := by
    have : ∀ (cl : List (String × Nat × Nat)) (K : NLLH σ ℝ), NLLH.Recorded name C CMath.real mc log K →
        NLLH.Recorded name C CMath.real mc log (cl.foldl (fun (L : NLLH σ ℝ) c => L.setBuffer c.1 c.2.1 c.2.2) K) := by
      intro cl
      induction cl with
      | nil => intro K hK; exact hK
      | cons c cl ih => intro K hK; exact ih _ (.setBuffer _ _ _ hK)
    exact this calls L0 hR
  have hI : ((calls.foldl (fun (L : NLLH σ ℝ) c => L.setBuffer c.1 c.2.1 c.2.2) L0).setBufferAsOverflow ov).setDataDist d |>.InBuffers
      calls ov d := by
    rw [NLLH.buffers_fold]
    refine ⟨rfl, .inl ⟨hfresh.2, ?_, rfl⟩⟩
    show Shrinker.setUsingOverflows (calls.foldl _ L0.shrinker) ov = _
    rw [hfresh.1]; rfl
  obtain ⟨t1, t2, t3, t4⟩ := NLLH.InBuffers.calls cs hcs (.setDataDist d (.setBufferAsOverflow ov hR1)) hI h2
  have hb0 : L2.useBB = false := by
    rw [t3, NLLH.buffers_fold]; exact hbb
  have hc0 : L2.constraints = L0.constraints := by
    rw [t4, NLLH.buffers_fold]; rfl
  exact ⟨t1, t2, hb0, hc0⟩

/-- C90 (partial), with systematics, any number of axes: a likelihood with systematics, not yet evaluated, is given buffers, not all zero,
that leave at least one bin on every axis, and data; after any further settings of parameters and evaluations, an evaluation that
succeeds returns the Poisson sum over the fit region, in which each distribution's ORIGINAL contents are first distorted by the
systematics acting on it at the current parameters, then cut down to the region, directly fitted ones normalised to one within it, plus
the constraint term at the current parameters. Missing: fitted distributions with equal names, or an indirectly fitted one added before a
directly fitted one, and Barlow-Beeston. -/
theorem C90_systematics_partial {name : Nat → String} {C : FitSys σ ℝ} (hC : C.Refreshing) {mc : List ManagerCall}
    {log : List (BinnedED ℝ × NormStatus)} {L0 L2 L3 : NLLH σ ℝ} {v : Fl ℝ} (hR : NLLH.Recorded name C CMath.real mc log L0)
    (hfresh : L0.shrinker = Shrinker.new ∧ L0.alreadyShrunk = false)
    (hadd : SysLog.added mc ≠ []) (hbb : L0.useBB = false) (hlog : log ≠ [])
    (hd : PdfLog.DistinctNames log) (ho : PdfLog.Before .direct .indirect log)
    (calls : List (String × Nat × Nat)) (ov : Bool) (hcalls : calls ≠ [])
    (hsum : 0 < ((buffersOf calls).map (fun p => p.2.1 + p.2.2)).sum)
    (d : BinnedED ℝ) (as : List (BinAxis ℝ)) (hv : d.hist.Valid as) (hc : ∀ a ∈ as, a.Contiguous)
    (hl : ∀ a ∈ as, LeavesABin (buffersOf calls) a) (hsize : (shape as).prod ≤ 2 ^ 31)
    (hw : ∀ p ∈ log, p.1.obs.names = d.obs.names ∧ ∃ bs, p.1.hist.Valid bs ∧ shape bs = shape as)
    (cs : List (FitCall ℝ)) (hcs : ∀ c ∈ cs, c.KeepsData)
    (h2 : NLLH.fitCalls C CMath.real (((calls.foldl (fun (L : NLLH σ ℝ) c => L.setBuffer c.1 c.2.1 c.2.2) L0).setBufferAsOverflow
      ov).setDataDist d) cs = .ok L2)
    (value : String → ℝ) (hval : ∀ n ∈ PdfLog.fitted log, L2.pdfs.getParameter n = .ok (value n))
    (h : L2.evaluate C CMath.real = .ok (v, L3)) :
    ∃ (R : Nat → Matrix' ℝ) (ds : List (List ℝ)) (ps : ParamDict ℝ) (c : Fl ℝ),
      (∀ p ∈ SysLog.added mc, L2.CurrentResponse C p (R p)) ∧ ds.length = log.length ∧
      (∀ (j : Nat) p, log[j]? = some p → ∃ gs c, SysLog.assigned mc p.1.name = some gs ∧ ds[j]? = some c ∧
        Distorts mc R gs p.1.hist.contents c) ∧
      L2.getParameters C = .ok ps ∧ L0.constraints.evaluate ps = .ok c ∧
      v = Fl.add (if ∀ b, b < (regionShape (buffersOf calls) as).prod → 0 < regionRate value (buffersOf calls) ov as log
            (List.zipWith (fun p c => { p.1.hist with contents := c }) log ds) (digits (regionShape (buffersOf calls) as) b) then
          some (regionNLL value (buffersOf calls) ov as log (List.zipWith (fun p c => { p.1.hist with contents := c }) log ds) d)
        else none) c := by
  obtain ⟨t1, t2, hb0, hc0⟩ := NLLH.buffered_calls hR hfresh hbb calls ov d cs hcs h2
  rw [← hc0]
  exact NLLH.region_value hC t2 hadd hb0 hlog hd ho calls ov hcalls hsum d as hv hc hl hsize t1 hw value hval h

/-- C90 (partial), with systematics, the outcome: under the hypotheses of `C90_systematics_partial`, if moreover the systematics can be
constructed, have square responses of the number of bins of the distributions, and the constraints can be evaluated at the current
parameters, then the likelihood evaluates to the value of the formula when no bin of the fit region has rate zero, and throws when some
bin has; bins outside the region do not matter. Missing: as for `C90_systematics_partial`. -/
theorem C90_systematics_outcome_partial {name : Nat → String} {C : FitSys σ ℝ} (hC : C.Refreshing) {mc : List ManagerCall}
    {log : List (BinnedED ℝ × NormStatus)} {L0 L2 : NLLH σ ℝ} (hR : NLLH.Recorded name C CMath.real mc log L0)
    (hfresh : L0.shrinker = Shrinker.new ∧ L0.alreadyShrunk = false)
    (hadd : SysLog.added mc ≠ []) (hbb : L0.useBB = false) (hlog : log ≠ [])
    (hd : PdfLog.DistinctNames log) (ho : PdfLog.Before .direct .indirect log)
    (calls : List (String × Nat × Nat)) (ov : Bool) (hcalls : calls ≠ [])
    (hsum : 0 < ((buffersOf calls).map (fun p => p.2.1 + p.2.2)).sum)
    (d : BinnedED ℝ) (as : List (BinAxis ℝ)) (hv : d.hist.Valid as) (hc : ∀ a ∈ as, a.Contiguous)
    (hl : ∀ a ∈ as, LeavesABin (buffersOf calls) a) (hsize : (shape as).prod ≤ 2 ^ 31)
    (hw : ∀ p ∈ log, p.1.obs.names = d.obs.names ∧ ∃ bs, p.1.hist.Valid bs ∧ shape bs = shape as)
    (cs : List (FitCall ℝ)) (hcs : ∀ c ∈ cs, c.KeepsData)
    (h2 : NLLH.fitCalls C CMath.real (((calls.foldl (fun (L : NLLH σ ℝ) c => L.setBuffer c.1 c.2.1 c.2.2) L0).setBufferAsOverflow
      ov).setDataDist d) cs = .ok L2)
    (hobjs : ∀ p ∈ SysLog.added mc, ∃ s, C.construct (L2.objs p) = .ok s ∧ SysManager.Square (shape as).prod (C.response s))
    (value : String → ℝ) (hval : ∀ n ∈ PdfLog.fitted log, L2.pdfs.getParameter n = .ok (value n))
    {ps : ParamDict ℝ} {c : Fl ℝ} (hps : L2.getParameters C = .ok ps) (hcn : L0.constraints.evaluate ps = .ok c) :
    ∃ (R : Nat → Matrix' ℝ) (ds : List (List ℝ)),
      (∀ p ∈ SysLog.added mc, L2.CurrentResponse C p (R p)) ∧ ds.length = log.length ∧
      (∀ (j : Nat) p, log[j]? = some p → ∃ gs c, SysLog.assigned mc p.1.name = some gs ∧ ds[j]? = some c ∧
        Distorts mc R gs p.1.hist.contents c) ∧
      ((∃ b, b < (regionShape (buffersOf calls) as).prod ∧ regionRate value (buffersOf calls) ov as log
            (List.zipWith (fun p c => { p.1.hist with contents := c }) log ds) (digits (regionShape (buffersOf calls) as) b) = 0) →
        L2.evaluate C CMath.real = .throw .runtime) ∧
      ((∀ b, b < (regionShape (buffersOf calls) as).prod → regionRate value (buffersOf calls) ov as log
            (List.zipWith (fun p c => { p.1.hist with contents := c }) log ds) (digits (regionShape (buffersOf calls) as) b) ≠ 0) →
        ∃ L3, L2.evaluate C CMath.real =
          .ok (Fl.add (if ∀ b, b < (regionShape (buffersOf calls) as).prod → 0 < regionRate value (buffersOf calls) ov as log
            (List.zipWith (fun p c => { p.1.hist with contents := c }) log ds) (digits (regionShape (buffersOf calls) as) b) then
          some (regionNLL value (buffersOf calls) ov as log (List.zipWith (fun p c => { p.1.hist with contents := c }) log ds) d)
        else none) c, L3)) := by
  obtain ⟨t1, t2, hb0, hc0⟩ := NLLH.buffered_calls hR hfresh hbb calls ov d cs hcs h2
  obtain ⟨P, hP⟩ := NLLH.region_prepares hC t2 hadd hlog calls ov hcalls hsum d as hv hc hl hsize t1 hw hobjs
  obtain ⟨_, R, ds, k1, k2, k3, k4, k5⟩ := NLLH.region_core hC t2 hadd hb0 hlog hd ho calls ov hcalls hsum d as hv hc hl hsize t1 hw
    value hval hP
  exact ⟨R, ds, k1, k2, k3, k4, fun hne => k5 ps c hne hps (by rw [hc0]; exact hcn)⟩

/-- Non-vacuity of C90 with systematics: two bins, the lower one a buffer used as overflow; the gain 2 turns the contents 1/2, 1/2 into
1, 1/2, so the single bin of the region has 3/2 and, at normalisation 3, rate 9/2; the data, 4 and 5, have 9 there. -/
example : ∃ L0 L2 L3 : NLLH ℝ ℝ, NLLH.Recorded exSysName exGain CMath.real [.add 0, .addDist "s" [""]]
      [(exRealPdf "s" (1/2) (1/2), .indirect)] L0 ∧
    L0.shrinker = Shrinker.new ∧ L0.alreadyShrunk = false ∧
    NLLH.fitCalls exGain CMath.real (((L0.setBuffer "x" 1 0).setBufferAsOverflow true).setDataDist (exRealPdf "d" 4 5))
      [.setParameters [("g", 2), ("s", 3)]] = .ok L2 ∧
    L2.evaluate exGain CMath.real = .ok (some (9/2 - 9 * Real.log (9/2)), L3) := by
  obtain ⟨L0, hrec, f1, f2, f3, f4⟩ : ∃ L0 : NLLH ℝ ℝ, NLLH.Recorded exSysName exGain CMath.real [.add 0, .addDist "s" [""]]
      [(exRealPdf "s" (1/2) (1/2), .indirect)] L0 ∧ L0.shrinker = Shrinker.new ∧ L0.alreadyShrunk = false ∧ L0.useBB = false ∧
      ∃ L2, NLLH.fitCalls exGain CMath.real (((L0.setBuffer "x" 1 0).setBufferAsOverflow true).setDataDist (exRealPdf "d" 4 5))
        [.setParameters [("g", 2), ("s", 3)]] = .ok L2 ∧ L2.pdfs.getParameter "s" = .ok 3 ∧
        L2.getParameters exGain = .ok [("g", 2), ("s", 3)] ∧ L2.objs 0 = 2 ∧ L0.constraints.evaluate [("g", 2), ("s", 3)] = .ok (some 0) :=
    ⟨_, .registerFitComponents (.addPdf (exRealPdf "s" (1/2) (1/2)) none none .indirect (.addSystematic 0 none (.new (fun _ => 1)) rfl) rfl),
      rfl, rfl, rfl, _, rfl, rfl, rfl, rfl, rfl⟩
  obtain ⟨L2, e1, e2, e3, e4, e5⟩ := f4
  have hax : BinAxis.mkEqual "x" (0 : ℝ) 2 2 = .ok ⟨"x", "x", 2, 0, 2, [0, 1], [1, 2], [1/2, 3/2], [1, 1]⟩ := by
    refine BinAxis.mkEqual_ok_iff.2 ⟨by norm_num, by norm_num, ?_⟩
    norm_num [BinAxis.mk.injEq, List.range_succ, List.replicate_succ]
  have hcont : BinAxis.Contiguous (⟨"x", "", 2, 0, 2, [0, 1], [1, 2], [1/2, 3/2], [1, 1]⟩ : BinAxis ℝ) := by
    have h := BinAxis.mkEqual_contiguous hax
    exact ⟨h.pos, h.bins, h.noMore, h.contig, h.first, h.last⟩
  have hv : ∀ n x y, (exRealPdf n x y).hist.Valid [(⟨"x", "", 2, 0, 2, [0, 1], [1, 2], [1/2, 3/2], [1, 1]⟩ : BinAxis ℝ)] := by
    intro n x y
    exact ⟨⟨rfl, rfl, rfl, rfl, rfl, by simp⟩, by simp, rfl, rfl, rfl⟩
  obtain ⟨R, cs, h1, h2, h3, h4, h5⟩ := C90_systematics_outcome_partial exGain_refreshing hrec ⟨f1, f2⟩
    (by simp [SysLog.added, ManagerCall.added?]) f3 (by simp)
    (by show (["s"] : List String).Nodup; decide) (by show ([NormStatus.indirect]).Pairwise _; decide) [("x", 1, 0)] true (by simp)
    (by decide) (exRealPdf "d" 4 5) _ (hv _ _ _) (by simpa using hcont) (by simp [LeavesABin]; decide) (by simp [shape])
    (by intro p hp
        simp only [List.mem_cons, List.not_mem_nil, or_false] at hp
        subst hp; exact ⟨rfl, _, hv _ _ _, rfl⟩)
    [.setParameters [("g", 2), ("s", 3)]] (by simp [FitCall.KeepsData]) e1
    (fun p _ => ⟨_, rfl, rfl, rfl⟩)
    (fun _ => 3) (by
      intro n hn
      have : n ∈ (["s"] : List String) := hn
      rw [List.mem_singleton] at this
      subst this; exact e2) e3 e5
  obtain ⟨gs, c, c1, c2, c3⟩ := h3 0 _ rfl
  have hgs : gs = [""] := by
    have : SysLog.assigned [.add 0, .addDist "s" [""]] "s" = some [""] := by decide +kernel
    rw [show (exRealPdf "s" (1/2) (1/2)).name = "s" from rfl] at c1
    exact Option.some.inj (c1.symm.trans this)
  subst hgs
  obtain ⟨g, g1, g2⟩ := h1 0 (by simp [SysLog.added, ManagerCall.added?])
  have hg : g = 2 := by
    rw [← e4]; exact (Res.ok.inj g1).symm
  subst hg
  have hc : c = [1, 1/2] := by
    unfold Distorts applyInOrder at c3
    have hact : SysLog.acting [.add 0, .addDist "s" [""]] [""] = [0] := by decide +kernel
    rw [hact] at c3
    simp only [List.map_cons, List.map_nil, Res.forFold, ← g2] at c3
    have he : (exGain.response (2 : ℝ)).apply (exRealPdf "s" (1/2) (1/2)).hist.contents = .ok [1, 1/2] := by
      unfold Matrix'.apply ArmaMat.mulVec
      simp [exGain, exRealPdf, List.range_succ]
      rfl
    rw [he] at c3
    exact (Res.ok.inj c3).symm
  subst hc
  have hcs : cs = [[1, 1/2]] := by
    match cs, h2, c2 with
    | [x], _, c2 => simpa using c2
  subst hcs
  have hreg : regionShape (buffersOf [("x", 1, 0)]) [(⟨"x", "", 2, 0, 2, [0, 1], [1, 2], [1/2, 3/2], [1, 1]⟩ : BinAxis ℝ)] = [1] := rfl
  have hrc : ∀ (n : String) (x y : ℝ), regionContent (buffersOf [("x", 1, 0)]) true
      [(⟨"x", "", 2, 0, 2, [0, 1], [1, 2], [1/2, 3/2], [1, 1]⟩ : BinAxis ℝ)] (exRealPdf n x y).hist (digits [1] 0) = x + y := by
    intro n x y
    unfold regionContent
    rw [if_pos rfl]
    have hf : (List.range (shape [(⟨"x", "", 2, 0, 2, [0, 1], [1, 2], [1/2, 3/2], [1, 1]⟩ : BinAxis ℝ)]).prod).filter
        (fun b => List.zipWith (nearestKept (buffersOf [("x", 1, 0)])) [(⟨"x", "", 2, 0, 2, [0, 1], [1, 2], [1/2, 3/2], [1, 1]⟩ : BinAxis ℝ)]
          (digits (shape [(⟨"x", "", 2, 0, 2, [0, 1], [1, 2], [1/2, 3/2], [1, 1]⟩ : BinAxis ℝ)]) b) = digits [1] 0) = [0, 1] := rfl
    rw [hf]
    simp only [List.map_cons, List.map_nil, List.sum_cons, List.sum_nil, add_zero]
    rw [contentOf (hv n x y) (show 0 < 2 by omega), contentOf (hv n x y) (show 1 < 2 by omega)]
    rfl
  have hrate : regionRate (fun _ => (3 : ℝ)) (buffersOf [("x", 1, 0)]) true
      [(⟨"x", "", 2, 0, 2, [0, 1], [1, 2], [1/2, 3/2], [1, 1]⟩ : BinAxis ℝ)] [(exRealPdf "s" (1/2) (1/2), .indirect)]
      (List.zipWith (fun (p : BinnedED ℝ × NormStatus) c => { p.1.hist with contents := c }) [(exRealPdf "s" (1/2) (1/2), .indirect)] [[1, 1/2]])
      (digits [1] 0) = 9/2 := by
    have := hrc "s" 1 (1/2)
    unfold regionRate
    simp only [List.zipWith_cons_cons, List.zipWith_nil_left, List.zip_cons_cons, List.zip_nil_left, List.map_cons, List.map_nil,
      List.sum_cons, List.sum_nil]
    rw [show ({ (exRealPdf "s" (1/2) (1/2)).hist with contents := [1, 1/2] } : Histogram ℝ) = (exRealPdf "s" 1 (1/2)).hist from rfl, this]
    rw [if_neg (by decide)]
    norm_num [normOf, NormStatus.fittable]
  rw [hreg] at h4 h5
  have hb1 : ([1] : List Nat).prod = 1 := by simp
  obtain ⟨L3, hL3⟩ := h5 (by
    intro b hb
    have hb0 : b = 0 := by rw [hb1] at hb; omega
    subst hb0
    rw [hrate]; norm_num)
  refine ⟨L0, L2, L3, hrec, f1, f2, e1, ?_⟩
  rw [hL3, if_pos (by
    intro b hb
    have hb0 : b = 0 := by rw [hb1] at hb; omega
    subst hb0
    rw [hrate]; norm_num)]
  congr 2
  unfold regionNLL
  rw [hreg]
  show some (((List.range 1).map _).sum + (0 : ℝ)) = _
  rw [show List.range 1 = [0] from rfl]
  simp only [List.map_cons, List.map_nil, List.sum_cons, List.sum_nil, add_zero]
  rw [hrate, hrc]
  norm_num [poissonTerm]

end Oxsx
