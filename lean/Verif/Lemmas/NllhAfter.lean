import Verif.Lemmas.NllhEval
/- Evaluating leaves a likelihood behind that no evaluation tells apart from the one before. -/
set_option linter.unusedSectionVars false
set_option linter.unusedSimpArgs false
set_option linter.unusedVariables false
namespace Oxsx
variable {σ α : Type} [Field α] [LinearOrder α]
namespace PdfManager

theorem reassert_facts {m m' : PdfManager α} {b : Bool} (h : m.reassertNorms b = .ok m') :
    Same m' m ∧ m'.work = m.work ∧ ∀ i : Nat, m.status[i]? = some NormStatus.off → m'.norms[i]? = m.norms[i]? := by
  unfold reassertNorms at h
  by_cases ha : m.allDirect = true
  · rw [if_pos ha] at h; cases h; exact ⟨.refl m, rfl, fun _ _ => rfl⟩
  · rw [if_neg ha] at h
    obtain ⟨⟨ns, j⟩, hl, h⟩ := Res.bind_eq_ok.1 h
    cases h
    have : ns.length = m.norms.length ∧ ∀ i : Nat, m.status[i]? = some NormStatus.off → ns[i]? = m.norms[i]? := by
      refine Res.forFold_inv (fun (s : List α × Nat) => s.1.length = m.norms.length ∧
        ∀ i : Nat, m.status[i]? = some NormStatus.off → s.1[i]? = m.norms[i]?) ⟨rfl, fun _ _ => rfl⟩ hl ?_
      rintro ⟨s, k⟩ i ⟨t, k'⟩ ⟨hs1, hs2⟩ _ ht
      unfold reassertStep at ht
      obtain ⟨st, hst, ht⟩ := Res.bind_eq_ok.1 ht
      by_cases hc : st = (if b = true then NormStatus.direct else NormStatus.indirect)
      · rw [if_pos hc] at ht
        obtain ⟨v, _, ht⟩ := Res.bind_eq_ok.1 ht
        obtain ⟨l, hl', ht⟩ := Res.bind_eq_ok.1 ht
        cases ht
        refine ⟨by simp only at hs1 ⊢; rw [setIdx_len hl', hs1], ?_⟩
        intro i' hi'
        unfold setIdx at hl'
        split at hl'
        · cases hl'
          simp only at hs2 ⊢
          rw [List.getElem?_set_ne, hs2 i' hi']
          rintro rfl
          rw [at_ok.1 hst] at hi'
          cases hi'
          cases b <;> simp at hc
        · cases hl'
      · rw [if_neg hc] at ht; cases ht; exact ⟨hs1, hs2⟩
    exact ⟨⟨rfl, rfl, rfl, rfl, rfl, rfl, this.1, fun h => absurd h ha⟩, rfl, this.2⟩

theorem apply_same {m m' : PdfManager α} {sm : SysManager α} (h : m.applySystematics sm = .ok m') : Same m' m := by
  unfold applySystematics at h
  split at h
  · cases h; exact .refl m
  · split at h
    · obtain ⟨⟨w, n⟩, hw, h⟩ := Res.bind_eq_ok.1 h
      cases h
      exact ⟨rfl, rfl, rfl, rfl, rfl, (distortEDs_len hw).1, rfl, fun _ => rfl⟩
    · rename_i ha
      obtain ⟨⟨w, n⟩, hw, h⟩ := Res.bind_eq_ok.1 h
      simp only at h
      obtain ⟨ns, hns, h⟩ := Res.bind_eq_ok.1 h
      cases h
      refine ⟨rfl, rfl, rfl, rfl, rfl, (distortEDs_len hw).1, ?_, fun h => absurd h ha⟩
      refine Res.forFold_inv (fun (s : List α) => s.length = m.norms.length) rfl hns ?_
      intro s i t hs _ ht
      unfold sysNormStep at ht
      obtain ⟨st, _, ht⟩ := Res.bind_eq_ok.1 ht
      cases st with
      | direct => cases ht; exact hs
      | off =>
        simp only at ht
        obtain ⟨v, _, ht⟩ := Res.bind_eq_ok.1 ht
        rw [setIdx_len ht, hs]
      | indirect =>
        simp only at ht
        obtain ⟨v, _, ht⟩ := Res.bind_eq_ok.1 ht
        obtain ⟨o, _, ht⟩ := Res.bind_eq_ok.1 ht
        rw [setIdx_len ht, hs]

theorem assert_facts {m m' : PdfManager α} {obs : List String} (h : m.assertDimensions obs = .ok m') :
    Same m' m ∧ m'.norms = m.norms ∧ Res.traverse (toDims obs) m.work = .ok m'.work := by
  unfold assertDimensions at h
  obtain ⟨w, hw, h⟩ := Res.bind_eq_ok.1 h
  cases h
  exact ⟨⟨rfl, rfl, rfl, rfl, rfl, Res.traverse_length hw, rfl, fun _ => rfl⟩, rfl, hw⟩

theorem shrink_same {m m' : PdfManager α} {s : Shrinker α} (hd : m.allDirect = true → ∀ st ∈ m.status, st = NormStatus.direct)
    (h : m.applyShrink s = .ok m') : Same m' m := by
  unfold applyShrink at h
  by_cases hb : s.buffers = []
  · rw [if_pos hb] at h; cases h; exact .refl m
  · rw [if_neg hb] at h
    simp only at h
    obtain ⟨w0, _, h⟩ := Res.bind_eq_ok.1 h
    obtain ⟨o0, _, h⟩ := Res.bind_eq_ok.1 h
    split at h
    · cases h; exact .refl m
    · split at h
      · cases h
      · refine Res.forFold_inv (fun (a : PdfManager α) => Same a m) (.refl m) h ?_
        intro a k b ha _ hab
        unfold shrinkStep at hab
        obtain ⟨w, _, hab⟩ := Res.bind_eq_ok.1 hab
        obtain ⟨w', _, hab⟩ := Res.bind_eq_ok.1 hab
        obtain ⟨st, hst, hab⟩ := Res.bind_eq_ok.1 hab
        have hst' := List.mem_of_getElem? (at_ok.1 hst)
        rw [ha.status] at hst'
        cases st with
        | direct =>
          simp only at hab
          obtain ⟨ws, hws, hab⟩ := Res.bind_eq_ok.1 hab
          cases hab
          exact ⟨ha.orig, ha.status, ha.fit, ha.alld, ha.params, (setIdx_len hws).trans ha.wlen, ha.nlen, ha.dnorms⟩
        | off =>
          simp only at hab
          obtain ⟨ws, hws, hab⟩ := Res.bind_eq_ok.1 hab
          obtain ⟨ns, hns, hab⟩ := Res.bind_eq_ok.1 hab
          cases hab
          refine ⟨ha.orig, ha.status, ha.fit, ha.alld, ha.params, (setIdx_len hws).trans ha.wlen, (setIdx_len hns).trans ha.nlen, ?_⟩
          intro h'
          have := hd (ha.alld ▸ h') _ hst'
          cases this
        | indirect =>
          simp only at hab
          obtain ⟨ws, hws, hab⟩ := Res.bind_eq_ok.1 hab
          obtain ⟨o, _, hab⟩ := Res.bind_eq_ok.1 hab
          obtain ⟨ns, hns, hab⟩ := Res.bind_eq_ok.1 hab
          cases hab
          refine ⟨ha.orig, ha.status, ha.fit, ha.alld, ha.params, (setIdx_len hws).trans ha.wlen, (setIdx_len hns).trans ha.nlen, ?_⟩
          intro h'
          have := hd (ha.alld ▸ h') _ hst'
          cases this

theorem toDims_idem {obs : List String} {d d' : BinnedED α} (h : toDims obs d = .ok d') : toDims obs d' = .ok d' := by
  unfold toDims at h ⊢
  by_cases hd : d.obs.names = obs
  · rw [if_neg (by simpa using hd)] at h
    cases h
    rw [if_neg (by simpa using hd)]; rfl
  · rw [if_pos hd] at h
    unfold BinnedED.marginalise at h
    obtain ⟨x, _, h⟩ := Res.bind_eq_ok.1 h
    cases h
    rw [if_neg]; rfl
    simp [ObsSet.ofNames]

theorem Built.late {log : List (BinnedED α × NormStatus)} {m m' : PdfManager α} {sm : SysManager α} {obs : List String}
    {s : Shrinker α} (h : Built log m) (hl : PdfManager.late sm obs s m = .ok m') : Built log m' := by
  unfold PdfManager.late at hl
  obtain ⟨m1, h1, hl⟩ := Res.bind_eq_ok.1 hl
  obtain ⟨m2, h2, hl⟩ := Res.bind_eq_ok.1 hl
  exact ((h.applySystematics sm h1).assertDimensions obs h2).applyShrink s hl

theorem Inv.all_direct {log : List (BinnedED α × NormStatus)} {m : PdfManager α} (hi : Inv log m) (ha : m.allDirect = true) :
    ∀ st ∈ m.status, st = NormStatus.direct := by
  intro st hst
  rw [hi.status] at hst
  obtain ⟨p, hp, rfl⟩ := List.mem_map.1 hst
  have := hi.alld
  rw [ha] at this
  have := List.all_eq_true.1 this.symm p hp
  simpa using this

theorem late_facts {log : List (BinnedED α × NormStatus)} {m m' : PdfManager α} {sm : SysManager α} {obs : List String}
    {s : Shrinker α} (hb : Built log m) (hl : PdfManager.late sm obs s m = .ok m') :
    Same m' m ∧ (s.buffers = [] → (sm.countSystematics = 0 → m'.norms = m.norms) ∧
      ∀ j : Nat, Kept sm m.orig j → (m'.work[j]?).map (toDims obs) = (m.work[j]?).map (toDims obs)) := by
  unfold PdfManager.late at hl
  obtain ⟨m1, h1, hl⟩ := Res.bind_eq_ok.1 hl
  obtain ⟨m2, h2, hl⟩ := Res.bind_eq_ok.1 hl
  have hb2 := ((hb.applySystematics sm h1).assertDimensions obs h2)
  have s1 := apply_same h1
  obtain ⟨s2, n2, t2⟩ := assert_facts h2
  have s3 := shrink_same (inv_of_built hb2).all_direct hl
  refine ⟨s3.trans (s2.trans s1), ?_⟩
  intro hbuf
  have e3 : m' = m2 := by
    unfold applyShrink at hl
    rw [if_pos hbuf] at hl
    cases hl; rfl
  subst e3
  refine ⟨?_, ?_⟩
  · intro h0
    rw [n2]
    unfold applySystematics at h1
    rw [if_pos h0] at h1
    cases h1; rfl
  · intro j hj
    rw [← apply_kept h1 hj]
    by_cases hjl : j < m1.work.length
    · have e1 : m1.work[j]? = some m1.work[j] := by simp [hjl]
      obtain ⟨w, hw1, hw2⟩ := Res.traverse_get t2 j _ e1
      rw [e1, hw1]
      simp only [Option.map_some]
      rw [hw2, toDims_idem hw2]
    · rw [List.getElem?_eq_none (by rw [s2.wlen]; omega), List.getElem?_eq_none (by omega)]

end PdfManager

namespace NLLH
open PdfManager

theorem binStep_pdfs {M : CMath α} {L : NLLH σ α} {s t : Fl α × PdfManager α} {i : Nat} (h : binStep M L s i = .ok t) :
    ∃ p, s.2.binProbability i = .ok (p, t.2) := by
  unfold binStep at h
  obtain ⟨⟨p, m⟩, hp, h⟩ := Res.bind_eq_ok.1 h
  simp only at h
  obtain ⟨_, _, h⟩ := Res.bind_eq_ok.1 h
  obtain ⟨n, _, h⟩ := Res.bind_eq_ok.1 h
  split at h
  · obtain ⟨_, _, h⟩ := Res.bind_eq_ok.1 h
    obtain ⟨_, _, h⟩ := Res.bind_eq_ok.1 h
    cases h; exact ⟨p, hp⟩
  · cases h; exact ⟨p, hp⟩

theorem binProbability_facts {m m' : PdfManager α} {i : Nat} {p : α} (h : m.binProbability i = .ok (p, m')) :
    m.reassertNorms true = .ok m' := by
  unfold binProbability at h
  obtain ⟨m1, h1, h⟩ := Res.bind_eq_ok.1 h
  obtain ⟨⟨a, b⟩, _, h⟩ := Res.bind_eq_ok.1 h
  cases h; exact h1

theorem binSum_facts {M : CMath α} {L : NLLH σ α} {d : BinnedED α} {m : PdfManager α} {vm : Fl α × PdfManager α}
    {log : List (BinnedED α × NormStatus)} (hb : Built log m) (h : L.binSum M d m = .ok vm) :
    Built log vm.2 ∧ Same vm.2 m ∧ vm.2.work = m.work ∧
      ∀ i : Nat, m.status[i]? = some NormStatus.off → vm.2.norms[i]? = m.norms[i]? := by
  unfold binSum at h
  refine Res.forFold_inv (fun (s : Fl α × PdfManager α) => Built log s.2 ∧ Same s.2 m ∧ s.2.work = m.work ∧
      ∀ i : Nat, m.status[i]? = some NormStatus.off → s.2.norms[i]? = m.norms[i]?) ⟨hb, .refl m, rfl, fun _ _ => rfl⟩ h ?_
  rintro s i t ⟨h0, h1, h2, h3⟩ _ ht
  obtain ⟨p, hp⟩ := binStep_pdfs ht
  obtain ⟨k1, k2, k3⟩ := reassert_facts (binProbability_facts hp)
  refine ⟨h0.binProbability i hp, k1.trans h1, k2.trans h2, ?_⟩
  intro i' hi'
  rw [k3 i' (h1.status ▸ hi'), h3 i' hi']

/-- Two likelihoods an evaluation does not tell apart. -/
structure Sim (C : FitSys σ α) (L K : NLLH σ α) : Prop where
  groups : L.sys.groups = K.sys.groups
  ed : L.sys.edGroups = K.sys.edGroups
  ng : L.sys.nGroups = K.sys.nGroups
  respL : L.sys.RespOK
  respK : K.sys.RespOK
  objs : ∀ p, C.Equiv (L.objs p) (K.objs p)
  cons : L.constraints = K.constraints
  comps : L.components = K.components
  rates : L.genRates = K.genRates
  bb : L.useBB = K.useBB
  built : ∃ log, Built log L.pdfs ∧ Built log K.pdfs
  same : Same L.pdfs K.pdfs
  eff : Res.Rel (fun d d' => L.effShrink d = K.effShrink d') L.effData K.effData
  agree : ∀ d sd, L.effData = .ok d → L.effShrink d = .ok sd → Agree L.sys sd.2.obs.names L.pdfs K.pdfs

theorem agree_congr {sm sm' : SysManager α} {obs : List String} {m n : PdfManager α} (hg : sm.groups = sm'.groups)
    (he : sm.edGroups = sm'.edGroups) (h : Agree sm obs m n) : Agree sm' obs m n := by
  have hc : sm'.countSystematics = sm.countSystematics := by unfold SysManager.countSystematics; rw [hg]
  refine ⟨h.same, h.len, h.slen, fun h0 => h.off (hc ▸ h0), ?_⟩
  intro j hj
  refine h.works j ?_
  unfold Kept Registered at hj ⊢
  rw [hc, ← he] at hj
  exact hj

theorem Ready.refl (m : PdfManager α) : Ready m m := ⟨.refl m, rfl, fun _ _ => rfl⟩

theorem binSum_rel (M : CMath α) {L K : NLLH σ α} (hr : L.genRates = K.genRates) (hb : L.useBB = K.useBB) (d : BinnedED α)
    {m n : PdfManager α} (h : Ready m n) :
    Res.Rel (fun a b => a.1 = b.1 ∧ Ready a.2 b.2) (L.binSum M d m) (K.binSum M d n) := by
  unfold binSum
  refine Res.Rel.forFold_range (fun _ (a b : Fl α × PdfManager α) => a.1 = b.1 ∧ Ready a.2 b.2) _ ⟨rfl, h⟩ ?_
  rintro i ⟨a, m⟩ ⟨b, n⟩ _ ⟨h1, h2⟩
  simp only at h1 h2
  subst h1
  have : binStep M { L with dataDist := d } (a, m) i = binStep M { K with dataDist := d } (a, n) i := by
    unfold binStep
    simp only
    rw [bin_rel h2 i, hr, hb]
  rw [this]
  exact Res.Rel.refl (fun x => ⟨rfl, Ready.refl _⟩) _

theorem getParameters_sim {C : FitSys σ α} {L K : NLLH σ α} (hc : L.components = K.components) (hs : Same L.pdfs K.pdfs)
    {log : List (BinnedED α × NormStatus)} (hi : Inv log L.pdfs) (ho : ∀ p, C.Equiv (L.objs p) (K.objs p)) :
    L.getParameters C = K.getParameters C := by
  unfold getParameters
  rw [← hc]
  refine Res.forFold_congr ?_ _
  intro s c _
  have : L.componentParameters C c = K.componentParameters C c := by
    cases c with
    | pdfs => exact getParameters_congr hs hi
    | sys p => exact (ho p).params
  rw [this]

/-- Evaluations of indistinguishable likelihoods have the same outcome. -/
theorem sim_eval {C : FitSys σ α} (M : CMath α) {L K : NLLH σ α} (h : Sim C L K) :
    Res.Rel (fun a b => a.1 = b.1) (L.evaluate C M) (K.evaluate C M) := by
  rw [evaluate_eq, evaluate_eq]
  obtain ⟨log, hbL, hbK⟩ := h.built
  refine Res.Rel.bind (R := fun d d' => L.effData = .ok d ∧ L.effShrink d = K.effShrink d')
    (Res.Rel.mono h.eff (fun d d' h1 _ h2 => ⟨h1, h2⟩)) ?_
  rintro d d' ⟨hd, hdd⟩
  rw [← hdd]
  cases hsd : L.effShrink d with
  | throw e =>
    refine Res.Rel.bind (reassert_rel h.same false (fun _ => False) (fun i hi => hi.elim)) ?_
    intro _ _ _; exact rfl
  | ub =>
    refine Res.Rel.bind (reassert_rel h.same false (fun _ => False) (fun i hi => hi.elim)) ?_
    intro _ _ _; trivial
  | ok sd =>
    refine Res.Rel.bind (Res.Rel.mono (early_rel (h.agree d sd hd hsd)) (fun a b ha hb h => And.intro ha h)) ?_
    rintro m n ⟨hm, hag, hind⟩
    simp only [Res.ok_bind]
    refine Res.Rel.bind (Res.Rel.mono (SysManager.construct_rel h.groups h.ed h.ng h.respL h.respK h.objs)
      (fun a b ha _ h => And.intro ha h)) ?_
    rintro ⟨sm, ob⟩ ⟨sm', ob'⟩ ⟨hc, h1, h2⟩
    simp only at h1 h2
    subst h1
    obtain ⟨_, g1, g2, _⟩ := SysManager.construct_inv h.respL hc
    refine Res.Rel.bind (Res.Rel.mono (late_rel (agree_congr g1.symm g2.symm hag) hind sd.1)
      (fun a b ha _ h => And.intro ha h)) ?_
    rintro m2 n2 ⟨hm2, hready⟩
    have hb2 := (hbL.reassertNorms false hm).late hm2
    refine Res.Rel.bind (Res.Rel.mono (binSum_rel M h.rates h.bb sd.2 hready) (fun a b ha _ h => And.intro ha h)) ?_
    rintro ⟨v, m3⟩ ⟨w, n3⟩ ⟨hv, h3, h4⟩
    simp only at h3 h4
    subst h3
    have hi := inv_of_built (binSum_facts hb2 hv).1
    rw [getParameters_sim (C := C) (L := L.after m3 (sm, ob) sd) (K := K.after n3 (sm, ob') sd) h.comps h4.same hi h2, h.cons]
    refine Res.Rel.bind (Res.Rel.refl (R := Eq) (fun _ => rfl) _) ?_
    rintro ps _ rfl
    refine Res.Rel.bind (Res.Rel.refl (R := Eq) (fun _ => rfl) _) ?_
    rintro c _ rfl
    exact rfl

/-- What every history of calls maintains. -/
structure Inv (L : NLLH σ α) : Prop where
  resp : L.sys.RespOK
  built : ∃ log, Built log L.pdfs
  reg : ∀ o ∈ L.pdfs.orig, ∃ gs, SMap.find L.sys.edGroups o.name = some gs

theorem after_inv {C : FitSys σ α} {M : CMath α} {L L' : NLLH σ α} {v : Fl α} (hi : Inv L)
    (h : L.evaluate C M = .ok (v, L')) : Inv L' := by
  rw [evaluate_eq] at h
  obtain ⟨d, hd, h⟩ := Res.bind_eq_ok.1 h
  obtain ⟨m, hm, h⟩ := Res.bind_eq_ok.1 h
  obtain ⟨sd, hsd, h⟩ := Res.bind_eq_ok.1 h
  obtain ⟨⟨sm, ob⟩, hc, h⟩ := Res.bind_eq_ok.1 h
  obtain ⟨m2, hm2, h⟩ := Res.bind_eq_ok.1 h
  obtain ⟨⟨v1, m3⟩, hv, h⟩ := Res.bind_eq_ok.1 h
  obtain ⟨ps, hps, h⟩ := Res.bind_eq_ok.1 h
  obtain ⟨c, hcn, h⟩ := Res.bind_eq_ok.1 h
  have e : L' = L.after m3 (sm, ob) sd := by
    simp only [Res.pure_eq, Res.ok.injEq, Prod.mk.injEq] at h
    exact h.2.symm
  subst e
  obtain ⟨log, hb⟩ := hi.built
  have hb1 := hb.reassertNorms false hm
  obtain ⟨hb3, s3, _, _⟩ := binSum_facts (hb1.late hm2) hv
  obtain ⟨r1, g1, g2, g3⟩ := SysManager.construct_inv hi.resp hc
  have hsame : Same m3 L.pdfs := s3.trans ((late_facts hb1 hm2).1.trans (reassert_facts hm).1)
  refine ⟨r1, ⟨log, hb3⟩, ?_⟩
  intro o ho
  have : o ∈ L.pdfs.orig := by rw [← hsame.orig]; exact ho
  obtain ⟨gs, hgs⟩ := hi.reg o this
  exact ⟨gs, by show SMap.find sm.edGroups o.name = _; rw [g2]; exact hgs⟩

theorem after_sim {C : FitSys σ α} (hC : C.Refreshing) (M : CMath α) {L L' : NLLH σ α} {v : Fl α} (hi : Inv L)
    (hbuf : L.shrinker.buffers = [] ∨ L.sys.countSystematics ≠ 0) (h : L.evaluate C M = .ok (v, L')) :
    Sim C L' L := by
  rw [evaluate_eq] at h
  obtain ⟨d, hd, h⟩ := Res.bind_eq_ok.1 h
  obtain ⟨m, hm, h⟩ := Res.bind_eq_ok.1 h
  obtain ⟨sd, hsd, h⟩ := Res.bind_eq_ok.1 h
  obtain ⟨⟨sm, ob⟩, hc, h⟩ := Res.bind_eq_ok.1 h
  obtain ⟨m2, hm2, h⟩ := Res.bind_eq_ok.1 h
  obtain ⟨⟨v1, m3⟩, hv, h⟩ := Res.bind_eq_ok.1 h
  obtain ⟨ps, hps, h⟩ := Res.bind_eq_ok.1 h
  obtain ⟨c, hcn, h⟩ := Res.bind_eq_ok.1 h
  have e : L' = L.after m3 (sm, ob) sd := by
    simp only [Res.pure_eq, Res.ok.injEq, Prod.mk.injEq] at h
    exact h.2.symm
  subst e
  obtain ⟨log, hb⟩ := hi.built
  have hb1 := hb.reassertNorms false hm
  have hb2 := hb1.late hm2
  obtain ⟨hb3, s3, w3, o3⟩ := binSum_facts hb2 hv
  obtain ⟨s1, w1, o1⟩ := reassert_facts hm
  obtain ⟨s2, f2⟩ := late_facts hb1 hm2
  have hsame : Same m3 L.pdfs := s3.trans (s2.trans s1)
  obtain ⟨r1, g1, g2, g3⟩ := SysManager.construct_inv hi.resp hc
  have i3 := PdfManager.inv_of_built hb3
  have eff' : (L.after m3 (sm, ob) sd).effData = .ok sd.2 := by
    unfold effData after
    simp
  have shr' : ∀ x, (L.after m3 (sm, ob) sd).effShrink x = .ok (sd.1, x) := by
    intro x
    unfold effShrink after
    simp
  refine ⟨g1, g2, g3, r1, hi.resp, fun p => SysManager.construct_equiv hC hc p, rfl, rfl, rfl, rfl, ⟨log, hb3, hb⟩, hsame, ?_, ?_⟩
  · rw [eff', hd]
    show (L.after m3 (sm, ob) sd).effShrink sd.2 = L.effShrink d
    rw [shr', hsd]
  · intro d0 sd0 h0 h1
    rw [eff'] at h0
    cases h0
    rw [shr'] at h1
    cases h1
    simp only
    show Agree sm sd.2.obs.names m3 L.pdfs
    have hcount : sm.countSystematics = L.sys.countSystematics := by unfold SysManager.countSystematics; rw [g1]
    have iL := PdfManager.inv_of_built hb
    refine ⟨hsame, by rw [i3.norms, i3.work], by rw [i3.status, i3.work, List.length_map], ?_, ?_⟩
    · intro h0 i hoff
      have hbuf' : L.shrinker.buffers = [] := hbuf.resolve_right (by rw [← hcount]; exact fun h => h h0)
      have hsdb : sd.1.buffers = [] := by
        unfold effShrink at hsd
        split at hsd
        · cases hsd; exact hbuf'
        · obtain ⟨s, hs, hsd⟩ := Res.bind_eq_ok.1 hsd
          obtain ⟨d', _, hsd⟩ := Res.bind_eq_ok.1 hsd
          cases hsd
          unfold Shrinker.setBinMap at hs
          rw [if_pos hbuf'] at hs
          cases hs; exact hbuf'
      have e := (f2 hsdb).1 h0
      have hoff2 : m2.status[i]? = some NormStatus.off := by rw [← s3.status]; exact hoff
      have hoffL : L.pdfs.status[i]? = some NormStatus.off := by rw [← hsame.status]; exact hoff
      rw [o3 i hoff2, e, o1 i hoffL]
    · intro j hj
      by_cases hjl : j < log.length
      · by_cases hbuf' : L.shrinker.buffers = []
        · have hsdb : sd.1.buffers = [] := by
            unfold effShrink at hsd
            split at hsd
            · cases hsd; exact hbuf'
            · obtain ⟨s, hs, hsd⟩ := Res.bind_eq_ok.1 hsd
              obtain ⟨d', _, hsd⟩ := Res.bind_eq_ok.1 hsd
              cases hsd
              unfold Shrinker.setBinMap at hs
              rw [if_pos hbuf'] at hs
              cases hs; exact hbuf'
          rw [hsame.orig] at hj
          have hj' : Kept sm m.orig j := by rw [s1.orig]; exact hj
          rw [w3, (f2 hsdb).2 j hj', w1]
        · exfalso
          have h0 : sm.countSystematics ≠ 0 := by rw [hcount]; exact hbuf.resolve_left hbuf'
          have hnr := hj.resolve_left h0
          have ho : L.pdfs.orig.length = log.length := by rw [iL.orig, List.length_map]
          have hjo : j < L.pdfs.orig.length := by omega
          obtain ⟨gs, hgs⟩ := hi.reg _ (List.getElem_mem hjo)
          refine hnr ⟨L.pdfs.orig[j], gs, ?_, ?_⟩
          · rw [hsame.orig]; simp [hjo]
          · rw [g2]; exact hgs
      · rw [List.getElem?_eq_none (by rw [i3.work]; omega), List.getElem?_eq_none (by rw [iL.work]; omega)]

end NLLH
end Oxsx
