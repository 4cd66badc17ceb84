import Verif.Spec.LikelihoodSys
import Verif.Props.Likelihood
/-
C87: the value of the likelihood with systematics; C88: the normalisations after an evaluation.
-/
set_option linter.unusedSectionVars false
set_option linter.unusedSimpArgs false
set_option linter.unusedVariables false
namespace Oxsx
variable {σ α : Type} [Field α] [LinearOrder α]
open NLLH
open SysManager (Rel rel_exec rel_new applied_of_rel)

theorem SysLog.known_step {name : Nat → String} {log : List ManagerCall} {c : ManagerCall}
    (hlog : ∀ d gs, SysLog.assigned log d = some gs → ∀ g ∈ gs, SysLog.Known log g) (hacc : SysLog.Accepts name log c) :
    ∀ d gs, SysLog.assigned (log ++ [c]) d = some gs → ∀ g ∈ gs, SysLog.Known (log ++ [c]) g := by
  have mono : ∀ g, SysLog.Known log g → SysLog.Known (log ++ [c]) g := by
    intro g hk
    rcases hk with hk | hk
    · exact Or.inl hk
    · right
      rw [SysManager.members_append]
      intro e
      exact hk (List.append_eq_nil_iff.1 e).1
  intro d gs hgs g hg
  rw [SysManager.assigned_append] at hgs
  cases c with
  | add p => exact mono g (hlog d gs hgs g hg)
  | addTo p g' => exact mono g (hlog d gs hgs g hg)
  | addDist d' gs' =>
    simp only at hgs
    split at hgs
    · cases hgs; exact mono g (hacc.1 g hg)
    · exact mono g (hlog d gs hgs g hg)

namespace NLLH

theorem setLoop_built {C : FitSys σ α} {d : ParamDict α} {log : List (BinnedED α × NormStatus)} (cs : List NllhComponent) :
    ∀ {L : NLLH σ α}, PdfManager.Built log L.pdfs → PdfManager.Built log (setLoop C d L cs).1.pdfs := by
  induction cs with
  | nil => intro L h; exact h
  | cons c cs ih =>
    intro L h
    unfold setLoop
    have hc : PdfManager.Built log (setComponent C d L c).1.pdfs := by
      cases c with
      | pdfs => exact h.setParameters d
      | sys p => exact h
    generalize setComponent C d L c = r at hc
    obtain ⟨L', r⟩ := r
    cases r with
    | ok u => exact ih hc
    | throw e => exact hc
    | ub => exact hc

/-- What a recorded history gives. -/
theorem Recorded.facts {name : Nat → String} {C : FitSys σ α} {M : CMath α} {calls : List ManagerCall}
    {log : List (BinnedED α × NormStatus)} {L : NLLH σ α} (h : Recorded name C M calls log L) :
    PdfManager.Built log L.pdfs ∧ Rel L.sys calls ∧ L.sys.RespOK ∧
      (∀ p ∈ log, ∃ gs, SysLog.assigned calls p.1.name = some gs) ∧
      ∀ d gs, SysLog.assigned calls d = some gs → ∀ g ∈ gs, SysLog.Known calls g := by
  induction h with
  | new objs => exact ⟨.new, rel_new, .new, (by intro p hp; cases hp), fun d gs h => by cases h⟩
  | @addPdf calls log L L' pdf groups rate st _ ha ih =>
    obtain ⟨i1, i2, i3, i4, i5⟩ := ih
    unfold NLLH.addPdf at ha
    obtain ⟨_, _, ha⟩ := Res.bind_eq_ok.1 ha
    obtain ⟨m, hm, ha⟩ := Res.bind_eq_ok.1 ha
    obtain ⟨s, hs, ha⟩ := Res.bind_eq_ok.1 ha
    cases ha
    obtain ⟨hr, hacc⟩ : Rel s (calls ++ [.addDist pdf.name (groups.getD [""])]) ∧
        SysLog.Accepts name calls (.addDist pdf.name (groups.getD [""])) := by
      rcases rel_exec name i2 (.addDist pdf.name (groups.getD [""])) with ⟨h0, s', h1, h2⟩ | ⟨_, h1 | h1⟩
      · have : L.sys.addDist name pdf.name (groups.getD [""]) = .ok s' := h1
        rw [hs] at this; cases this; exact ⟨h2, h0⟩
      · have : L.sys.addDist name pdf.name (groups.getD [""]) = _ := h1
        rw [hs] at this; cases this
      · have : L.sys.addDist name pdf.name (groups.getD [""]) = _ := h1
        rw [hs] at this; cases this
    have hs' := hs
    unfold SysManager.addDist at hs'
    obtain ⟨_, _, hs'⟩ := Res.bind_eq_ok.1 hs'
    cases hs'
    refine ⟨i1.addPdf pdf st hm, hr, ⟨i3.groups, i3.sorted, i3.keys⟩, ?_, SysLog.known_step i5 hacc⟩
    intro p hp
    rw [← hr.dists]
    simp only
    rw [SMap.find_insert]
    split
    · exact ⟨_, rfl⟩
    · rename_i hne
      rcases List.mem_append.1 hp with hp | hp
      · rw [i2.dists]; exact i4 p hp
      · simp at hp; subst hp; exact absurd rfl hne
  | @addSystematic calls log L L' p g _ ha ih =>
    obtain ⟨i1, i2, i3, i4, i5⟩ := ih
    unfold NLLH.addSystematic at ha
    obtain ⟨s, hs, ha⟩ := Res.bind_eq_ok.1 ha
    cases ha
    have hpush : ∃ g', s = L.sys.push p g' := by
      cases g with
      | none => exact ⟨"", SysManager.add_push hs⟩
      | some g => exact ⟨g, SysManager.addTo_push hs⟩
    obtain ⟨hr, hacc⟩ : Rel s (calls ++ [.addSys p g]) ∧ SysLog.Accepts name calls (.addSys p g) := by
      have hs' : L.sys.exec name (.addSys p g) = .ok s := by
        cases g <;> exact hs
      rcases rel_exec name i2 (.addSys p g) with ⟨h0, s', h1, h2⟩ | ⟨_, h1 | h1⟩
      · rw [hs'] at h1; cases h1; exact ⟨h2, h0⟩
      · rw [hs'] at h1; cases h1
      · rw [hs'] at h1; cases h1
    obtain ⟨g', rfl⟩ := hpush
    refine ⟨i1, hr, i3.push p g', ?_, SysLog.known_step i5 hacc⟩
    intro q hq
    rw [← hr.dists]
    have : (L.sys.push p g').edGroups = L.sys.edGroups := rfl
    rw [this, i2.dists]
    exact i4 q hq
  | @setNormalisations calls log L L' ns _ ha ih =>
    obtain ⟨i1, i2, i3, i4, i5⟩ := ih
    unfold NLLH.setNormalisations at ha
    obtain ⟨m, hm, ha⟩ := Res.bind_eq_ok.1 ha
    cases ha
    exact ⟨i1.setNormalisations ns hm, i2, i3, i4, i5⟩
  | setDataDist d _ ih => exact ih
  | setDataSet d _ ih => exact ih
  | setBarlowBeeston b _ ih => exact ih
  | setBuffer dim lower upper _ ih => exact ih
  | setBufferAsOverflow b _ ih => exact ih
  | registerFitComponents _ ih => exact ih
  | @setParameters calls log L d _ ih =>
    obtain ⟨i1, i2, i3, i4, i5⟩ := ih
    refine ⟨?_, by rw [setParameters_sys]; exact i2, by rw [setParameters_sys]; exact i3, i4, i5⟩
    unfold NLLH.setParameters
    split
    · exact i1
    · exact setLoop_built _ i1
  | setObjects objs _ ih => exact ih
  | setConstraints c _ ih => exact ih
  | setCuts c _ ih => exact ih
  | @evaluate calls log L L' v _ he ih =>
    obtain ⟨i1, i2, i3, i4, i5⟩ := ih
    have hinv : Inv L := ⟨i3, ⟨log, i1⟩, by
      intro o ho
      rw [(PdfManager.inv_of_built i1).orig] at ho
      obtain ⟨p, hp, rfl⟩ := List.mem_map.1 ho
      rw [i2.dists]; exact i4 p hp⟩
    have hi' := after_inv hinv he
    rw [evaluate_eq] at he
    obtain ⟨d, hd, he⟩ := Res.bind_eq_ok.1 he
    obtain ⟨m, hm, he⟩ := Res.bind_eq_ok.1 he
    obtain ⟨sd, hsd, he⟩ := Res.bind_eq_ok.1 he
    obtain ⟨⟨sm, ob⟩, hc, he⟩ := Res.bind_eq_ok.1 he
    obtain ⟨m2, hm2, he⟩ := Res.bind_eq_ok.1 he
    obtain ⟨⟨v1, m3⟩, hv, he⟩ := Res.bind_eq_ok.1 he
    obtain ⟨ps, hps, he⟩ := Res.bind_eq_ok.1 he
    obtain ⟨c, hcn, he⟩ := Res.bind_eq_ok.1 he
    have e : L' = L.after m3 (sm, ob) sd := by
      simp only [Res.pure_eq, Res.ok.injEq, Prod.mk.injEq] at he
      exact he.2.symm
    subst e
    obtain ⟨hb3, _, _, _⟩ := binSum_facts ((i1.reassertNorms false hm).late hm2) hv
    obtain ⟨r1, g1, g2, g3⟩ := SysManager.construct_inv i3 hc
    refine ⟨hb3, ?_, r1, i4, i5⟩
    exact ⟨by show SMap.Sorted sm.groups; rw [g1]; exact i2.sorted, by show ∀ g, SMap.find sm.groups g = _; rw [g1]; exact i2.groups,
      by show (sm.groups.flatMap (·.2)).Perm _; rw [g1]; exact i2.perm, by show ∀ d, SMap.find sm.edGroups d = _; rw [g2]; exact i2.dists,
      by show SMap.Sorted sm.edGroups; rw [g2]; exact i2.sortedD⟩

/-- A recorded history is a history. -/
theorem Recorded.reached {name : Nat → String} {C : FitSys σ α} {M : CMath α} {calls : List ManagerCall}
    {log : List (BinnedED α × NormStatus)} {L : NLLH σ α} (h : Recorded name C M calls log L) : Reached name C M L := by
  induction h with
  | new objs => exact .new objs
  | addPdf pdf groups rate st _ ha ih => exact .addPdf pdf groups rate st ih ha
  | addSystematic p g _ ha ih => exact .addSystematic p g ih ha
  | setNormalisations ns _ ha ih => exact .setNormalisations ns ih ha
  | setDataDist d _ ih => exact .setDataDist d ih
  | setDataSet d _ ih => exact .setDataSet d ih
  | setBarlowBeeston b _ ih => exact .setBarlowBeeston b ih
  | setBuffer dim lower upper _ ih => exact .setBuffer dim lower upper ih
  | setBufferAsOverflow b _ ih => exact .setBufferAsOverflow b ih
  | registerFitComponents _ ih => exact .registerFitComponents ih
  | setParameters d _ ih => exact .setParameters d ih
  | setObjects objs _ ih => exact .setObjects objs ih
  | setConstraints c _ ih => exact .setConstraints c ih
  | setCuts c _ ih => exact .setCuts c ih
  | evaluate _ he ih => exact .evaluate ih he

end NLLH

/-- Constructing every member of every group constructs each from its state before, however often it occurs. -/
theorem SysManager.constructAll_each {C : FitSys σ α} (hC : C.Refreshing) {m : SysManager α} {h h' : Nat → σ}
    (hc : m.constructAll C.toSysClass h = .ok h') : ∀ p ∈ m.groups.flatMap (·.2), C.construct (h p) = .ok (h' p) := by
  have inner : ∀ (ps : List Nat) (a b : Nat → σ) (D : List Nat),
      (∀ p, (p ∉ D → a p = h p) ∧ (p ∈ D → C.construct (h p) = .ok (a p))) →
      Res.forFold (fun (h : Nat → σ) p => do
        let s ← C.construct (h p)
        pure (Function.update h p s)) a ps = .ok b →
      ∀ p, (p ∉ D ++ ps → b p = h p) ∧ (p ∈ D ++ ps → C.construct (h p) = .ok (b p)) := by
    intro ps
    induction ps with
    | nil => intro a b D ha hb; cases hb; simpa using ha
    | cons q ps ih =>
      intro a b D ha hb
      obtain ⟨a1, e1, e2⟩ := Res.forFold_cons_eq_ok.1 hb
      obtain ⟨s, hs, e1⟩ := Res.bind_eq_ok.1 e1
      cases e1
      have hq : C.construct (h q) = .ok s := by
        by_cases hqD : q ∈ D
        · have h1 := (ha q).2 hqD
          have h2 := (hC _ _ h1).construct
          rw [← h2]; exact hs
        · rw [← (ha q).1 hqD]; exact hs
      have := ih (Function.update a q s) b (D ++ [q]) (by
        intro p
        by_cases hpq : p = q
        · subst hpq
          simp only [Function.update_self]
          exact ⟨fun hn => absurd (by simp) hn, fun _ => hq⟩
        · rw [Function.update_of_ne hpq]
          simpa [hpq] using ha p) e2
      simpa using this
  have outer : ∀ (gs : SMap (List Nat)) (a b : Nat → σ) (D : List Nat),
      (∀ p, (p ∉ D → a p = h p) ∧ (p ∈ D → C.construct (h p) = .ok (a p))) →
      Res.forFold (fun (h : Nat → σ) (g : String × List Nat) =>
        Res.forFold (fun (h : Nat → σ) p => do
          let s ← C.construct (h p)
          pure (Function.update h p s)) h g.2) a gs = .ok b →
      ∀ p, (p ∉ D ++ gs.flatMap (·.2) → b p = h p) ∧ (p ∈ D ++ gs.flatMap (·.2) → C.construct (h p) = .ok (b p)) := by
    intro gs
    induction gs with
    | nil => intro a b D ha hb; cases hb; simpa using ha
    | cons g gs ih =>
      intro a b D ha hb
      obtain ⟨a1, e1, e2⟩ := Res.forFold_cons_eq_ok.1 hb
      have := ih a1 b (D ++ g.2) (inner g.2 a a1 D ha e1) e2
      simpa [List.flatMap_cons] using this
  have := outer m.groups h h' [] (by intro p; simp) hc
  intro p hp
  exact (this p).2 (by simpa using hp)


theorem SysManager.count_ne {calls : List ManagerCall} {m : SysManager α} (h : Rel m calls) (hne : SysLog.added calls ≠ []) :
    m.countSystematics ≠ 0 := by
  unfold SysManager.countSystematics
  intro h0
  apply hne
  have hp := h.perm
  have : m.groups.flatMap (·.2) = [] := by
    rw [List.flatMap_eq_nil_iff]
    intro g hg
    exact List.length_eq_zero_iff.1 (List.sum_eq_zero_iff.1 h0 _ (List.mem_map.2 ⟨g, hg, rfl⟩))
  rw [this] at hp
  exact (List.nil_perm.1 hp)

/-- What `ApplySystematics` makes of the working distributions and the normalisations. -/
theorem PdfManager.apply_spec {C : FitSys σ α} {calls : List ManagerCall} {log : List (BinnedED α × NormStatus)} {m m' : PdfManager α}
    {sm0 sm : SysManager α} {h h' : Nat → σ} (hb : PdfManager.Built log m) (hrel : Rel sm0 calls)
    (hc : sm0.construct C.toSysClass h = .ok (sm, h')) (hn : sm.countSystematics ≠ 0) (ha : m.applySystematics sm = .ok m') :
    ∀ (j : Nat) p, log[j]? = some p → ∀ gs, SysLog.assigned calls p.1.name = some gs → ∃ v,
      Distorts calls (fun p => C.response (h' p)) gs p.1.hist.contents v ∧
      m'.work[j]? = some { p.1 with hist := { p.1.hist with contents := v } } ∧
      (p.1.hist.contents.length = p.1.hist.nBins → v.length = p.1.hist.nBins) ∧
      m'.norms[j]? = (match p.2 with
        | .direct => m.norms[j]?
        | .off => some ({ p.1.hist with contents := v } : Histogram α).integral
        | .indirect => (m.norms[j]?).map (· * ({ p.1.hist with contents := v } : Histogram α).integral)) := by
  have hi := PdfManager.inv_of_built hb
  intro j p hj gs hgs
  have hjl : j < log.length := (List.getElem?_eq_some_iff.1 hj).1
  have hjo : m.orig[j]? = some p.1 := by rw [hi.orig]; simp [hj]
  have hjs : m.status[j]? = some p.2 := by rw [hi.status]; simp [hj]
  have hjw : j < m.work.length := by rw [hi.work]; exact hjl
  unfold PdfManager.applySystematics at ha
  rw [if_neg hn] at ha
  by_cases hd : m.allDirect = true
  · rw [if_pos hd] at ha
    obtain ⟨⟨w, ns⟩, hw, ha⟩ := Res.bind_eq_ok.1 ha
    cases ha
    obtain ⟨_, k⟩ := applied_of_rel C.toSysClass hrel h h' sm hc _ _ _ _ _ hw
    obtain ⟨v, v1, v2, v3, _⟩ := (k j p.1 hjo hjw).2 gs hgs
    refine ⟨v, v1, v2, v3, ?_⟩
    have := hi.all_direct hd p.2 (List.mem_of_getElem? hjs)
    rw [this]
  · rw [if_neg hd] at ha
    obtain ⟨⟨w, ns⟩, hw, ha⟩ := Res.bind_eq_ok.1 ha
    simp only at ha
    obtain ⟨norms, hns, ha⟩ := Res.bind_eq_ok.1 ha
    cases ha
    obtain ⟨_, k⟩ := applied_of_rel C.toSysClass hrel h h' sm hc _ _ _ _ _ hw
    obtain ⟨v, v1, v2, v3, v4⟩ := (k j p.1 hjo hjw).2 gs hgs
    refine ⟨v, v1, v2, v3, ?_⟩
    have hlen := (distortEDs_len hw).2
    obtain ⟨ns', hns', hl'⟩ : ∃ ns', ns = some ns' ∧ ns'.length = m.norms.length := by
      cases ns with
      | none => simp at hlen
      | some ns' => exact ⟨ns', rfl, by simpa using hlen⟩
    subst hns'
    simp only [Option.getD_some] at hns
    have hnj := v4 ns' rfl
    set I := ({ p.1.hist with contents := v } : Histogram α).integral with hI
    -- the loop over the normalisations
    have inv : ∀ n, n ≤ ns'.length → ∀ s, Res.forFold (m.sysNormStep ns') m.norms (List.range n) = .ok s →
        s.length = m.norms.length ∧ s[j]? = (if j < n then (match p.2 with
          | .direct => m.norms[j]?
          | .off => some I
          | .indirect => (m.norms[j]?).map (· * I)) else m.norms[j]?) := by
      intro n
      induction n with
      | zero => intro _ s hs; cases hs; simp
      | succ n ih =>
        intro hn s hs
        rw [List.range_succ, Res.forFold_append] at hs
        cases hf : Res.forFold (m.sysNormStep ns') m.norms (List.range n) with
        | throw e => rw [hf] at hs; cases hs
        | ub => rw [hf] at hs; cases hs
        | ok s0 =>
          rw [hf] at hs
          obtain ⟨i1, i2⟩ := ih (by omega) s0 hf
          obtain ⟨s1, hs1, hs2⟩ := Res.forFold_cons_eq_ok.1 (show Res.forFold (m.sysNormStep ns') s0 [n] = .ok s from hs)
          cases hs2
          unfold PdfManager.sysNormStep at hs1
          obtain ⟨st, hst, hs1⟩ := Res.bind_eq_ok.1 hs1
          have hst' := at_ok.1 hst
          by_cases hnj' : n = j
          · subst hnj'
            rw [hjs] at hst'
            cases hst'
            rw [if_neg (by omega)] at i2
            rw [if_pos (by omega)]
            have hat : at_ ns' n = .ok I := at_ok.2 hnj
            cases hp2 : p.2 with
            | direct => rw [hp2] at hs1; cases hs1; exact ⟨i1, i2⟩
            | off =>
              rw [hp2] at hs1
              simp only [hat, Res.ok_bind] at hs1
              refine ⟨(setIdx_len hs1).trans i1, ?_⟩
              rw [setIdx_of_lt (by omega)] at hs1
              cases hs1
              simp [show n < s0.length by omega]
            | indirect =>
              rw [hp2] at hs1
              simp only [hat, Res.ok_bind] at hs1
              rw [idx_of_lt (by omega)] at hs1
              simp only [Res.ok_bind] at hs1
              refine ⟨(setIdx_len hs1).trans i1, ?_⟩
              rw [setIdx_of_lt (by omega)] at hs1
              cases hs1
              rw [← i2]
              simp [show n < s0.length by omega]
          · have hother : s.length = s0.length ∧ s[j]? = s0[j]? := by
              have hset : ∀ x, setIdx s0 n x = .ok s → s.length = s0.length ∧ s[j]? = s0[j]? := by
                intro x hx
                refine ⟨setIdx_len hx, ?_⟩
                unfold setIdx at hx
                split at hx
                · cases hx; rw [List.getElem?_set_ne hnj']
                · cases hx
              cases st with
              | direct => cases hs1; exact ⟨rfl, rfl⟩
              | off =>
                simp only at hs1
                obtain ⟨x, _, hs1⟩ := Res.bind_eq_ok.1 hs1
                exact hset _ hs1
              | indirect =>
                simp only at hs1
                obtain ⟨x, _, hs1⟩ := Res.bind_eq_ok.1 hs1
                obtain ⟨y, _, hs1⟩ := Res.bind_eq_ok.1 hs1
                exact hset _ hs1
            refine ⟨hother.1.trans i1, ?_⟩
            rw [hother.2, i2]
            by_cases hlt : j < n
            · rw [if_pos hlt, if_pos (by omega)]
            · rw [if_neg hlt, if_neg (by omega)]
    have := (inv ns'.length le_rfl norms hns).2
    rw [if_pos (by rw [hl', hi.norms]; exact hjl)] at this
    exact this


/-- The pieces of a successful evaluation without buffers, with systematics, of data given as a histogram. -/
theorem NLLH.evaluate_parts {C : FitSys σ α} {M : CMath α} {L L' : NLLH σ α} {v : Fl α}
    (hcal : L.calculated = true) (hbuf : L.shrinker.buffers = []) (h : L.evaluate C M = .ok (v, L')) :
    ∃ sm ob m m1 m2 v1 m3 ps c, L.pdfs.reassertNorms false = .ok m ∧ L.sys.construct C.toSysClass L.objs = .ok (sm, ob) ∧
      m.applySystematics sm = .ok m1 ∧ m1.assertDimensions L.dataDist.obs.names = .ok m2 ∧
      L.binSum M L.dataDist m2 = .ok (v1, m3) ∧ (L.after m3 (sm, ob) (L.shrinker, L.dataDist)).getParameters C = .ok ps ∧
      L.constraints.evaluate ps = .ok c ∧ v = Fl.add v1 c ∧ L' = L.after m3 (sm, ob) (L.shrinker, L.dataDist) := by
  rw [evaluate_eq] at h
  obtain ⟨d, hd, h⟩ := Res.bind_eq_ok.1 h
  obtain ⟨m, hm, h⟩ := Res.bind_eq_ok.1 h
  obtain ⟨sd, hsd, h⟩ := Res.bind_eq_ok.1 h
  obtain ⟨⟨sm, ob⟩, hc, h⟩ := Res.bind_eq_ok.1 h
  obtain ⟨m2, hm2, h⟩ := Res.bind_eq_ok.1 h
  obtain ⟨⟨v1, m3⟩, hv, h⟩ := Res.bind_eq_ok.1 h
  obtain ⟨ps, hps, h⟩ := Res.bind_eq_ok.1 h
  obtain ⟨c, hcn, h⟩ := Res.bind_eq_ok.1 h
  have hdd : d = L.dataDist := by
    unfold effData at hd
    obtain ⟨_, _, hd⟩ := Res.bind_eq_ok.1 hd
    rw [if_pos hcal] at hd
    exact (Res.ok.inj hd).symm
  subst hdd
  rw [effShrink_none hbuf] at hsd
  cases hsd
  unfold PdfManager.late at hm2
  obtain ⟨m1, h1, hm2⟩ := Res.bind_eq_ok.1 hm2
  obtain ⟨m2', h2, hm2⟩ := Res.bind_eq_ok.1 hm2
  unfold PdfManager.applyShrink at hm2
  rw [if_pos hbuf] at hm2
  cases hm2
  simp only [Res.pure_eq, Res.ok.injEq, Prod.mk.injEq] at h
  exact ⟨sm, ob, m, m1, _, v1, m3, ps, c, hm, hc, h1, h2, hv, hps, hcn, h.1.symm, h.2.symm⟩


/-- The object when the loop over bins starts. -/
theorem NLLH.prepare_parts {C : FitSys σ α} {L P : NLLH σ α} (hcal : L.calculated = true) (hbuf : L.shrinker.buffers = [])
    (h : L.prepare C = .ok P) :
    ∃ sm ob m m1 m2 sh sk, L.pdfs.reassertNorms false = .ok m ∧ L.sys.construct C.toSysClass L.objs = .ok (sm, ob) ∧
      m.applySystematics sm = .ok m1 ∧ m1.assertDimensions L.dataDist.obs.names = .ok m2 ∧
      P = { L with pdfs := m2, sys := sm, objs := ob, shrinker := sh, alreadyShrunk := sk } := by
  unfold prepare at h
  obtain ⟨_, _, h⟩ := Res.bind_eq_ok.1 h
  rw [if_pos hcal] at h
  simp only [pure_bind] at h
  obtain ⟨m, hm, h⟩ := Res.bind_eq_ok.1 h
  obtain ⟨L2, h2, h⟩ := Res.bind_eq_ok.1 h
  obtain ⟨⟨sm, ob⟩, h3, h⟩ := Res.bind_eq_ok.1 h
  obtain ⟨m2, h4, h⟩ := Res.bind_eq_ok.1 h
  obtain ⟨m3, h5, h⟩ := Res.bind_eq_ok.1 h
  obtain ⟨m4, h6, h⟩ := Res.bind_eq_ok.1 h
  have hL2 : ∃ sh sk, sh.buffers = [] ∧ L2 = { L with pdfs := m, shrinker := sh, alreadyShrunk := sk } := by
    unfold shrinkData at h2
    split at h2
    · cases h2; exact ⟨_, _, hbuf, rfl⟩
    · obtain ⟨s, hs, h2⟩ := Res.bind_eq_ok.1 h2
      obtain ⟨d, hd, h2⟩ := Res.bind_eq_ok.1 h2
      cases h2
      unfold Shrinker.setBinMap at hs
      rw [if_pos hbuf] at hs
      cases hs
      unfold Shrinker.shrinkDist at hd
      rw [if_pos hbuf] at hd
      cases hd
      exact ⟨_, _, hbuf, rfl⟩
  obtain ⟨sh, sk, hsh, rfl⟩ := hL2
  unfold PdfManager.applyShrink at h6
  rw [if_pos hsh] at h6
  cases h6
  cases h
  exact ⟨sm, ob, m, m2, _, sh, sk, hm, h3, h4, h5, rfl⟩

/-- Distributions that have the observables asked for are left alone. -/
theorem PdfManager.assert_id {m m' : PdfManager α} {obs : List String} (hw : ∀ w ∈ m.work, w.obs.names = obs)
    (h : m.assertDimensions obs = .ok m') : m' = m := by
  have gen : ∀ l : List (BinnedED α), (∀ w ∈ l, w.obs.names = obs) →
      Res.traverse (fun (d : BinnedED α) => if d.obs.names ≠ obs then d.marginalise obs else pure d) l = .ok l := by
    intro l
    induction l with
    | nil => intro _; rfl
    | cons w l ih =>
      intro hl
      unfold Res.traverse
      rw [if_neg (by rw [hl w (by simp)]; simp), ih (fun w hw => hl w (by simp [hw]))]
      rfl
  unfold PdfManager.assertDimensions at h
  rw [gen _ hw] at h
  exact (Res.ok.inj h).symm

/-- The working distributions after systematics, all at once. -/
theorem PdfManager.apply_all {C : FitSys σ α} (hC : C.Refreshing) {calls : List ManagerCall} {log : List (BinnedED α × NormStatus)}
    {m m' : PdfManager α} {sm0 sm : SysManager α} {h h' : Nat → σ} (hb : PdfManager.Built log m) (hrel : Rel sm0 calls)
    (hadd : SysLog.added calls ≠ []) (hass : ∀ p ∈ log, ∃ gs, SysLog.assigned calls p.1.name = some gs)
    (hc : sm0.construct C.toSysClass h = .ok (sm, h')) (ha : m.applySystematics sm = .ok m') :
    ∃ (R : Nat → Matrix' α) (cs : List (List α)),
      (∀ p ∈ SysLog.added calls, ∃ s, C.construct (h p) = .ok s ∧ C.response s = R p) ∧ cs.length = log.length ∧
      (∀ (j : Nat) p, log[j]? = some p → ∃ gs c, SysLog.assigned calls p.1.name = some gs ∧ cs[j]? = some c ∧
        Distorts calls R gs p.1.hist.contents c ∧ (p.1.hist.contents.length = p.1.hist.nBins → c.length = p.1.hist.nBins) ∧
        m'.norms[j]? = (match p.2 with
          | .direct => m.norms[j]?
          | .off => some ({ p.1.hist with contents := c } : Histogram α).integral
          | .indirect => (m.norms[j]?).map (· * ({ p.1.hist with contents := c } : Histogram α).integral))) ∧
      m'.work = List.zipWith (fun p c => { p.1 with hist := { p.1.hist with contents := c } }) log cs := by
  have hcn : sm0.countSystematics ≠ 0 := SysManager.count_ne hrel hadd
  have hgr : sm.groups = sm0.groups := by
    unfold SysManager.construct at hc
    rw [if_neg hcn] at hc
    obtain ⟨a, _, hc⟩ := Res.bind_eq_ok.1 hc
    obtain ⟨b, _, hc⟩ := Res.bind_eq_ok.1 hc
    cases hc; rfl
  have hcn' : sm.countSystematics ≠ 0 := by
    unfold SysManager.countSystematics at hcn ⊢; rw [hgr]; exact hcn
  have hall : sm0.constructAll C.toSysClass h = .ok h' := by
    unfold SysManager.construct at hc
    rw [if_neg hcn] at hc
    obtain ⟨a, ha', hc⟩ := Res.bind_eq_ok.1 hc
    obtain ⟨b, _, hc⟩ := Res.bind_eq_ok.1 hc
    cases hc; exact ha'
  have spec := PdfManager.apply_spec hb hrel hc hcn' ha
  have hlen : m'.work.length = log.length := by
    rw [(PdfManager.apply_same ha).wlen, (PdfManager.inv_of_built hb).work]
  refine ⟨fun p => C.response (h' p), m'.work.map (fun w => w.hist.contents), ?_, by simp [hlen], ?_, ?_⟩
  · intro p hp
    have : p ∈ sm0.groups.flatMap (·.2) := hrel.perm.mem_iff.2 hp
    exact ⟨h' p, SysManager.constructAll_each hC hall p this, rfl⟩
  · intro j p hj
    obtain ⟨gs, hgs⟩ := hass p (List.mem_of_getElem? hj)
    obtain ⟨v, v1, v2, v3, v4⟩ := spec j p hj gs hgs
    exact ⟨gs, v, hgs, by simp [v2], v1, v3, v4⟩
  · refine List.ext_getElem? (fun j => ?_)
    rw [List.getElem?_zipWith]
    by_cases hj : j < log.length
    · obtain ⟨p, hp⟩ : ∃ p, log[j]? = some p := ⟨_, List.getElem?_eq_getElem hj⟩
      obtain ⟨gs, hgs⟩ := hass p (List.mem_of_getElem? hp)
      obtain ⟨v, v1, v2, v3, v4⟩ := spec j p hp gs hgs
      simp [hp, v2]
    · rw [List.getElem?_eq_none (by omega), List.getElem?_eq_none (by omega : log.length ≤ j)]

theorem expectedRate_distorted (value : String → α) (log : List (BinnedED α × NormStatus)) (cs : List (List α)) (b : Nat) :
    expectedRate value log (List.zipWith (fun p c => { p.1 with hist := { p.1.hist with contents := c } }) log cs) b =
      distortedRate value log cs b := by
  unfold expectedRate distortedRate
  congr 1
  induction log generalizing cs with
  | nil => rfl
  | cons p log ih =>
    cases cs with
    | nil => rfl
    | cons c cs => simp only [List.zipWith_cons_cons, List.zip_cons_cons, List.map_cons, ih]

/-- What follows from a successful preparation. -/
theorem NLLH.value_core {name : Nat → String} {C : FitSys σ ℝ} (hC : C.Refreshing) {calls : List ManagerCall}
    {log : List (BinnedED ℝ × NormStatus)} {L P : NLLH σ ℝ} (hR : Recorded name C CMath.real calls log L)
    (hadd : SysLog.added calls ≠ []) (hbb : L.useBB = false) (hbuf : L.shrinker.buffers = []) (hcal : L.calculated = true)
    (hd : PdfLog.DistinctNames log) (ho : PdfLog.Before .direct .indirect log)
    (hdata : L.dataDist.hist.contents.length = L.dataDist.hist.nBins)
    (hdim : ∀ p ∈ log, p.1.obs.names = L.dataDist.obs.names ∧ L.dataDist.hist.nBins ≤ p.1.hist.nBins ∧
      p.1.hist.contents.length = p.1.hist.nBins)
    (value : String → ℝ) (hval : ∀ n ∈ PdfLog.fitted log, L.pdfs.getParameter n = .ok (value n)) (hP : L.prepare C = .ok P) :
    P.getParameters C = L.getParameters C ∧ ∃ (R : Nat → Matrix' ℝ) (cs : List (List ℝ)),
      (∀ p ∈ SysLog.added calls, L.CurrentResponse C p (R p)) ∧ cs.length = log.length ∧
      (∀ (j : Nat) p, log[j]? = some p → ∃ gs c, SysLog.assigned calls p.1.name = some gs ∧ cs[j]? = some c ∧
        Distorts calls R gs p.1.hist.contents c) ∧
      ((∃ b, b < L.dataDist.hist.nBins ∧ distortedRate value log cs b = 0) → L.evaluate C CMath.real = .throw .runtime) ∧
      ∀ ps c, (∀ b, b < L.dataDist.hist.nBins → distortedRate value log cs b ≠ 0) → L.getParameters C = .ok ps →
        L.constraints.evaluate ps = .ok c → ∃ L',
        L.evaluate C CMath.real = .ok (Fl.add (if ∀ b, b < L.dataDist.hist.nBins → 0 < distortedRate value log cs b then
          some ((List.range L.dataDist.hist.nBins).map (fun b => poissonTerm (L.dataDist.hist.contents.getD b 0)
            (distortedRate value log cs b))).sum else none) c, L') := by
  obtain ⟨hb, hrel, hresp, hass, hkn⟩ := hR.facts
  obtain ⟨sm, ob, m, m1, m2, sh, sk, hm, hcon, h1, h2, hPe⟩ := prepare_parts hcal hbuf hP
  obtain ⟨hbP, hsame, hbbP, hcP⟩ := prepare_facts hb hP
  have hbm := hb.reassertNorms false hm
  obtain ⟨R, cs, k1, k2, k3, k4⟩ := PdfManager.apply_all hC hbm hrel hadd hass hcon h1
  have hw1 : ∀ w ∈ m1.work, w.obs.names = L.dataDist.obs.names ∧ L.dataDist.hist.nBins ≤ w.hist.nBins ∧
      w.hist.contents.length = w.hist.nBins := by
    intro w hw
    obtain ⟨j, hj⟩ := List.mem_iff_getElem?.1 hw
    rw [k4, List.getElem?_zipWith] at hj
    cases hlj : log[j]? with
    | none => rw [hlj] at hj; simp at hj
    | some p =>
      obtain ⟨gs, c, c1, c2, c3, c4, _⟩ := k3 j p hlj
      rw [hlj, c2] at hj
      simp only [Option.some.injEq] at hj
      subst hj
      obtain ⟨d1, d2, d3⟩ := hdim p (List.mem_of_getElem? hlj)
      exact ⟨d1, d2, c4 d3⟩
  have hm2 : m2 = m1 := PdfManager.assert_id (fun w hw => (hw1 w hw).1) h2
  subst hm2
  subst hPe
  have key := C31_value_partial (C := C) hb hbb hd ho hP hdata (fun w hw => (hw1 w hw).2) value hval
  simp only at key
  rw [k4] at key
  simp only [expectedRate_distorted] at key
  have hg2 : ({ L with pdfs := m2, sys := sm, objs := ob, shrinker := sh, alreadyShrunk := sk } : NLLH σ ℝ).getParameters C =
      L.getParameters C :=
    getParameters_sim rfl hsame (PdfManager.inv_of_built hbP) (fun p => SysManager.construct_equiv hC hcon p)
  refine ⟨hg2, R, cs, k1, k2, fun j p hj => by
    obtain ⟨gs, c, c1, c2, c3, _⟩ := k3 j p hj
    exact ⟨gs, c, c1, c2, c3⟩, key.1, ?_⟩
  intro ps c hne hps hc
  exact key.2 ps c hne (hg2.trans hps) hc

/-- C87 (partial): after any history of calls that added at least one systematic, with data given as a histogram in the observables of
the distributions, no buffers and no Barlow-Beeston: if the likelihood evaluates, its value is the sum over the data's bins of
`mu - n log mu` (not finite if some `mu` is negative) plus the constraint term at the current parameters, where `mu` sums, over the
distributions added, the normalisation parameter times the distribution's original contents distorted by the responses, at the current
parameters, of the systematics acting on it. Nothing earlier evaluations left behind enters. Missing: what C31 misses (equal names, an
indirectly fitted distribution before a directly fitted one, Barlow-Beeston), and buffers, for which C29 and C30 fail. -/
theorem C87_value_partial {name : Nat → String} {C : FitSys σ ℝ} (hC : C.Refreshing) {calls : List ManagerCall}
    {log : List (BinnedED ℝ × NormStatus)} {L L' : NLLH σ ℝ} {v : Fl ℝ} (hR : Recorded name C CMath.real calls log L)
    (hadd : SysLog.added calls ≠ []) (hbb : L.useBB = false) (hbuf : L.shrinker.buffers = []) (hcal : L.calculated = true)
    (hd : PdfLog.DistinctNames log) (ho : PdfLog.Before .direct .indirect log)
    (hdata : L.dataDist.hist.contents.length = L.dataDist.hist.nBins)
    (hdim : ∀ p ∈ log, p.1.obs.names = L.dataDist.obs.names ∧ L.dataDist.hist.nBins ≤ p.1.hist.nBins ∧
      p.1.hist.contents.length = p.1.hist.nBins)
    (value : String → ℝ) (hval : ∀ n ∈ PdfLog.fitted log, L.pdfs.getParameter n = .ok (value n))
    (h : L.evaluate C CMath.real = .ok (v, L')) :
    ∃ (R : Nat → Matrix' ℝ) (cs : List (List ℝ)) (ps : ParamDict ℝ) (c : Fl ℝ),
      (∀ p ∈ SysLog.added calls, L.CurrentResponse C p (R p)) ∧ cs.length = log.length ∧
      (∀ (j : Nat) p, log[j]? = some p → ∃ gs c, SysLog.assigned calls p.1.name = some gs ∧ cs[j]? = some c ∧
        Distorts calls R gs p.1.hist.contents c) ∧
      L.getParameters C = .ok ps ∧ L.constraints.evaluate ps = .ok c ∧
      v = Fl.add (if ∀ b, b < L.dataDist.hist.nBins → 0 < distortedRate value log cs b then
          some ((List.range L.dataDist.hist.nBins).map (fun b => poissonTerm (L.dataDist.hist.contents.getD b 0)
            (distortedRate value log cs b))).sum else none) c := by
  obtain ⟨hb, hrel, hresp, hass, hkn⟩ := hR.facts
  have hev := h
  unfold evaluate at h
  obtain ⟨P, hP, h⟩ := Res.bind_eq_ok.1 h
  obtain ⟨⟨v1, m3⟩, hloop, h⟩ := Res.bind_eq_ok.1 h
  obtain ⟨ps, hps, h⟩ := Res.bind_eq_ok.1 h
  obtain ⟨c, hc, h⟩ := Res.bind_eq_ok.1 h
  obtain ⟨hbP, hsame, hbbP, hcP⟩ := prepare_facts hb hP
  obtain ⟨hg2, R, cs, k1, k2, k3, k4, k5⟩ := value_core hC hR hadd hbb hbuf hcal hd ho hdata hdim value hval hP
  have hbs := binSum_facts (L := P) (d := P.dataDist) (M := CMath.real) hbP hloop
  have hg1 : ({ P with pdfs := m3 } : NLLH σ ℝ).getParameters C = P.getParameters C :=
    getParameters_sim rfl hbs.2.1 (PdfManager.inv_of_built hbs.1) (fun p => .refl C _)
  have hps' : L.getParameters C = .ok ps := (hg2.symm.trans hg1.symm).trans hps
  have hc' : L.constraints.evaluate ps = .ok c := by rw [← hcP]; exact hc
  have hne : ∀ b, b < L.dataDist.hist.nBins → distortedRate value log cs b ≠ 0 := by
    intro b hb0 h0
    have := k4 ⟨b, hb0, h0⟩
    rw [hev] at this
    cases this
  obtain ⟨L'', he⟩ := k5 ps c hne hps' hc'
  rw [hev] at he
  exact ⟨R, cs, ps, c, k1, k2, k3, hps', hc', (Prod.mk.inj (Res.ok.inj he)).1⟩

/-- The normalisation loop succeeds. -/
theorem PdfManager.apply_ok {log : List (BinnedED α × NormStatus)} {m : PdfManager α} {sm : SysManager α}
    (hb : PdfManager.Built log m)
    (hw : ∀ norms, (∀ ns, norms = some ns → m.work.length ≤ ns.length) → ∃ r, sm.distortEDs m.orig m.work norms = .ok r) :
    ∃ m', m.applySystematics sm = .ok m' := by
  have hi := PdfManager.inv_of_built hb
  unfold PdfManager.applySystematics
  split
  · exact ⟨_, rfl⟩
  · split
    · obtain ⟨r, hr⟩ := hw none (fun ns h => by cases h)
      rw [hr]; exact ⟨_, rfl⟩
    · obtain ⟨⟨w, ns⟩, hr⟩ := hw (some (List.replicate m.norms.length 0)) (fun ns h => by
        cases h; rw [List.length_replicate, hi.work, hi.norms])
      rw [hr]
      simp only [Res.ok_bind]
      have hlen := (distortEDs_len hr).2
      obtain ⟨ns', hns', hl'⟩ : ∃ ns', ns = some ns' ∧ ns'.length = m.norms.length := by
        cases ns with
        | none => simp at hlen
        | some ns' => exact ⟨ns', rfl, by simpa using hlen⟩
      subst hns'
      simp only [Option.getD_some]
      have inv : ∀ n, n ≤ ns'.length → ∃ s, Res.forFold (m.sysNormStep ns') m.norms (List.range n) = .ok s ∧
          s.length = m.norms.length := by
        intro n
        induction n with
        | zero => intro _; exact ⟨_, rfl, rfl⟩
        | succ n ih =>
          intro hn
          obtain ⟨s, s1, s2⟩ := ih (by omega)
          rw [List.range_succ, Res.forFold_append, s1]
          have hstep : ∃ t, m.sysNormStep ns' s n = .ok t ∧ t.length = s.length := by
            unfold PdfManager.sysNormStep
            rw [at_of_lt (by rw [hi.status, List.length_map, ← hi.norms, ← hl']; omega)]
            simp only [Res.ok_bind]
            split
            · rw [at_of_lt (by omega)]
              simp only [Res.ok_bind]
              rw [setIdx_of_lt (by omega)]
              exact ⟨_, rfl, by simp⟩
            · rw [at_of_lt (by omega)]
              simp only [Res.ok_bind]
              rw [idx_of_lt (by omega)]
              simp only [Res.ok_bind]
              rw [setIdx_of_lt (by omega)]
              exact ⟨_, rfl, by simp⟩
            · exact ⟨_, rfl, rfl⟩
          obtain ⟨t, t1, t2⟩ := hstep
          refine ⟨t, ?_, t2.trans s2⟩
          show Res.forFold _ s [n] = _
          exact Res.forFold_cons_eq_ok.2 ⟨t, t1, rfl⟩
      obtain ⟨s, s1, _⟩ := inv _ le_rfl
      rw [s1]
      exact ⟨_, rfl⟩

/-- Construction succeeds with an n by n response. -/
def FitSys.Constructs (C : FitSys σ α) (n : Nat) (s : σ) : Prop := ∃ s', C.construct s = .ok s' ∧ SysManager.Square n (C.response s')

theorem FitSys.constructs_step (C : FitSys σ α) (hC : C.Refreshing) (n : Nat) :
    ∀ s, C.Constructs n s → ∃ s', C.construct s = .ok s' ∧ C.Constructs n s' ∧ SysManager.Square n (C.response s') := by
  rintro s ⟨s', h1, h2⟩
  have := (hC s s' h1 []).1
  exact ⟨s', h1, ⟨s', by rw [show C.construct s' = C.construct s from this]; exact h1, h2⟩, h2⟩

/-- With square responses of the right size that can be computed, the preparation of an evaluation succeeds. -/
theorem NLLH.prepare_succeeds {name : Nat → String} {C : FitSys σ ℝ} (hC : C.Refreshing) {calls : List ManagerCall}
    {log : List (BinnedED ℝ × NormStatus)} {L : NLLH σ ℝ} (hR : Recorded name C CMath.real calls log L)
    (hadd : SysLog.added calls ≠ []) (hbuf : L.shrinker.buffers = []) (hcal : L.calculated = true) (n : Nat)
    (hn : L.dataDist.hist.nBins ≤ n)
    (hdim : ∀ p ∈ log, p.1.obs.names = L.dataDist.obs.names ∧ p.1.hist.nBins = n ∧ p.1.hist.contents.length = n)
    (hobjs : ∀ p ∈ SysLog.added calls, ∃ s, C.construct (L.objs p) = .ok s ∧ SysManager.Square n (C.response s)) : ∃ P, L.prepare C = .ok P := by
  obtain ⟨hb, hrel, hresp, hass, hkn⟩ := hR.facts
  have hi := PdfManager.inv_of_built hb
  -- the preparation succeeds
  have hre : ∃ m, L.pdfs.reassertNorms false = .ok m := by
    by_cases ha : L.pdfs.allDirect = true
    · unfold PdfManager.reassertNorms
      rw [if_pos ha]; exact ⟨_, rfl⟩
    · obtain ⟨ns, h1, _⟩ := PdfManager.reassert_ok hi false (by simpa using ha) _ rfl
      exact ⟨_, h1⟩
  obtain ⟨m, hm⟩ := hre
  have hbm := hb.reassertNorms false hm
  have him := PdfManager.inv_of_built hbm
  obtain ⟨sm, ob, hcon, _, hdist⟩ := SysManager.succeeds_of_rel C.toSysClass n (C.Constructs n) (C.constructs_step hC n) hrel hkn L.objs hobjs
  obtain ⟨m1, h1⟩ := PdfManager.apply_ok (sm := sm) hbm (fun norms hns => hdist m.orig m.work norms
    (by rw [him.work, him.orig, List.length_map]) hns (by
      intro d hd'
      rw [him.orig] at hd'
      obtain ⟨p, hp, rfl⟩ := List.mem_map.1 hd'
      exact ⟨(hdim p hp).2.2, (hdim p hp).2.1⟩))
  have hdim' : ∀ p ∈ log, p.1.obs.names = L.dataDist.obs.names ∧ L.dataDist.hist.nBins ≤ p.1.hist.nBins ∧
      p.1.hist.contents.length = p.1.hist.nBins := by
    intro p hp
    obtain ⟨d1, d2, d3⟩ := hdim p hp
    exact ⟨d1, by omega, by omega⟩
  obtain ⟨R, cs, k1, k2, k3, k4⟩ := PdfManager.apply_all hC hbm hrel hadd hass hcon h1
  have hass2 : m1.assertDimensions L.dataDist.obs.names = .ok m1 := by
    have gen : ∀ l : List (BinnedED ℝ), (∀ w ∈ l, w.obs.names = L.dataDist.obs.names) →
        Res.traverse (fun (d : BinnedED ℝ) => if d.obs.names ≠ L.dataDist.obs.names then d.marginalise L.dataDist.obs.names else pure d)
          l = .ok l := by
      intro l
      induction l with
      | nil => intro _; rfl
      | cons w l ih =>
        intro hl
        unfold Res.traverse
        rw [if_neg (by rw [hl w (by simp)]; simp), ih (fun w hw => hl w (by simp [hw]))]
        rfl
    unfold PdfManager.assertDimensions
    rw [gen]
    · rfl
    · intro w hw
      obtain ⟨j, hj⟩ := List.mem_iff_getElem?.1 hw
      rw [k4, List.getElem?_zipWith] at hj
      cases hlj : log[j]? with
      | none => rw [hlj] at hj; simp at hj
      | some p =>
        obtain ⟨gs, c, c1, c2, c3, c4, _⟩ := k3 j p hlj
        rw [hlj, c2] at hj
        simp only [Option.some.injEq] at hj
        subst hj
        exact (hdim p (List.mem_of_getElem? hlj)).1
  have hshr : ∃ sh, sh.buffers = [] ∧
      shrinkData { L with pdfs := m } = .ok { L with pdfs := m, shrinker := sh, alreadyShrunk := true } := by
    unfold shrinkData
    by_cases ha : L.alreadyShrunk = true
    · rw [if_pos ha]; exact ⟨_, hbuf, by rw [← ha]⟩
    · rw [if_neg ha]
      unfold Shrinker.setBinMap
      simp only
      rw [if_pos hbuf]
      simp only [Res.ok_bind]
      unfold Shrinker.shrinkDist
      rw [if_pos hbuf]
      exact ⟨_, hbuf, rfl⟩
  obtain ⟨sh, hsb, hshr⟩ := hshr
  unfold prepare
  rw [Res.throwIf_false_of (by rw [hcal]; simp)]
  simp only [Res.ok_bind]
  rw [if_pos hcal]
  simp only [pure_bind]
  rw [hm]
  simp only [Res.ok_bind]
  rw [hshr]
  simp only [Res.ok_bind]
  rw [hcon]
  simp only [Res.ok_bind]
  rw [h1]
  simp only [Res.ok_bind]
  rw [hass2]
  simp only [Res.ok_bind]
  unfold PdfManager.applyShrink
  rw [if_pos hsb]
  exact ⟨_, rfl⟩

/-- C87 (partial), the outcome: under the hypotheses of `C87_value_partial`, if moreover the systematics can be constructed, have
responses of the number of bins of the distributions, and the constraints can be evaluated at the current parameters, then the likelihood
evaluates to the value of the formula when no bin has rate zero, and throws when some bin has. Missing: as for `C87_value_partial`. -/
theorem C87_outcome_partial {name : Nat → String} {C : FitSys σ ℝ} (hC : C.Refreshing) {calls : List ManagerCall}
    {log : List (BinnedED ℝ × NormStatus)} {L : NLLH σ ℝ} (hR : Recorded name C CMath.real calls log L)
    (hadd : SysLog.added calls ≠ []) (hbb : L.useBB = false) (hbuf : L.shrinker.buffers = []) (hcal : L.calculated = true)
    (hd : PdfLog.DistinctNames log) (ho : PdfLog.Before .direct .indirect log)
    (hdata : L.dataDist.hist.contents.length = L.dataDist.hist.nBins) (n : Nat) (hn : L.dataDist.hist.nBins ≤ n)
    (hdim : ∀ p ∈ log, p.1.obs.names = L.dataDist.obs.names ∧ p.1.hist.nBins = n ∧ p.1.hist.contents.length = n)
    (hobjs : ∀ p ∈ SysLog.added calls, ∃ s, C.construct (L.objs p) = .ok s ∧ SysManager.Square n (C.response s))
    (value : String → ℝ) (hval : ∀ n ∈ PdfLog.fitted log, L.pdfs.getParameter n = .ok (value n))
    {ps : ParamDict ℝ} {c : Fl ℝ} (hps : L.getParameters C = .ok ps) (hc : L.constraints.evaluate ps = .ok c) :
    ∃ (R : Nat → Matrix' ℝ) (cs : List (List ℝ)),
      (∀ p ∈ SysLog.added calls, L.CurrentResponse C p (R p)) ∧ cs.length = log.length ∧
      (∀ (j : Nat) p, log[j]? = some p → ∃ gs c, SysLog.assigned calls p.1.name = some gs ∧ cs[j]? = some c ∧
        Distorts calls R gs p.1.hist.contents c) ∧
      ((∃ b, b < L.dataDist.hist.nBins ∧ distortedRate value log cs b = 0) → L.evaluate C CMath.real = .throw .runtime) ∧
      ((∀ b, b < L.dataDist.hist.nBins → distortedRate value log cs b ≠ 0) → ∃ L',
        L.evaluate C CMath.real = .ok (Fl.add (if ∀ b, b < L.dataDist.hist.nBins → 0 < distortedRate value log cs b then
          some ((List.range L.dataDist.hist.nBins).map (fun b => poissonTerm (L.dataDist.hist.contents.getD b 0)
            (distortedRate value log cs b))).sum else none) c, L')) := by
  have hdim' : ∀ p ∈ log, p.1.obs.names = L.dataDist.obs.names ∧ L.dataDist.hist.nBins ≤ p.1.hist.nBins ∧
      p.1.hist.contents.length = p.1.hist.nBins := by
    intro p hp
    obtain ⟨d1, d2, d3⟩ := hdim p hp
    exact ⟨d1, by omega, by omega⟩
  obtain ⟨P, hP⟩ := prepare_succeeds hC hR hadd hbuf hcal n hn hdim hobjs
  obtain ⟨_, R, cs, q1, q2, q3, q4, q5⟩ := value_core hC hR hadd hbb hbuf hcal hd ho hdata hdim' value hval hP
  exact ⟨R, cs, q1, q2, q3, q4, fun hne => q5 ps c hne hps hc⟩

theorem PdfLog.before_of_not_left {a b : NormStatus} {log : List (BinnedED α × NormStatus)} (h : ∀ p ∈ log, p.2 ≠ a) :
    PdfLog.Before a b log := by
  unfold PdfLog.Before
  refine List.Pairwise.imp_of_mem (R := fun _ _ => True) ?_ (List.pairwise_of_forall (fun _ _ => trivial))
  rintro x y hx hy _ ⟨_, hy'⟩
  obtain ⟨p, hp, rfl⟩ := List.mem_map.1 hy
  exact h p hp hy'

theorem PdfLog.before_of_not_right {a b : NormStatus} {log : List (BinnedED α × NormStatus)} (h : ∀ p ∈ log, p.2 ≠ b) :
    PdfLog.Before a b log := by
  unfold PdfLog.Before
  refine List.Pairwise.imp_of_mem (R := fun _ _ => True) ?_ (List.pairwise_of_forall (fun _ _ => trivial))
  rintro x y hx hy _ ⟨hx', _⟩
  obtain ⟨p, hp, rfl⟩ := List.mem_map.1 hx
  exact h p hp hx'

/-- The loop over at least one bin puts the parameters of the directly fitted distributions in their normalisations and leaves the
others alone. -/
theorem NLLH.binSum_norms {M : CMath α} {L : NLLH σ α} {d : BinnedED α} {m : PdfManager α} {vm : Fl α × PdfManager α}
    {log : List (BinnedED α × NormStatus)} (hb : PdfManager.Built log m) (hd : PdfLog.DistinctNames log)
    (ho : PdfLog.Before .direct .indirect log) (hn : 0 < d.hist.nBins) (h : L.binSum M d m = .ok vm) :
    ∀ (j : Nat) p, log[j]? = some p →
      (p.2 = .direct → ∃ x, m.getParameter p.1.name = .ok x ∧ vm.2.norms[j]? = some x) ∧
      (p.2 ≠ .direct → vm.2.norms[j]? = m.norms[j]?) := by
  have inv : ∀ n (vm : Fl α × PdfManager α), Res.forFold (binStep M { L with dataDist := d }) (some 0, m) (List.range n) = .ok vm →
      PdfManager.Built log vm.2 ∧ (∀ k, vm.2.getParameter k = m.getParameter k) ∧ ∀ (j : Nat) p, log[j]? = some p →
        (0 < n → p.2 = .direct → ∃ x, m.getParameter p.1.name = .ok x ∧ vm.2.norms[j]? = some x) ∧
        (p.2 ≠ .direct → vm.2.norms[j]? = m.norms[j]?) := by
    intro n
    induction n with
    | zero => intro vm hv; cases hv; exact ⟨hb, fun _ => rfl, fun j p _ => ⟨fun h => by omega, fun _ => rfl⟩⟩
    | succ n ih =>
      intro vm hv
      rw [List.range_succ, Res.forFold_append] at hv
      cases hf : Res.forFold (binStep M { L with dataDist := d }) (some 0, m) (List.range n) with
      | throw e => rw [hf] at hv; cases hv
      | ub => rw [hf] at hv; cases hv
      | ok s0 =>
        rw [hf] at hv
        obtain ⟨i1, i2, i3⟩ := ih s0 hf
        obtain ⟨s1, hs1, hs2⟩ := Res.forFold_cons_eq_ok.1 (show Res.forFold (binStep M { L with dataDist := d }) s0 [n] = .ok vm from hv)
        cases hs2
        obtain ⟨p, hp⟩ := binStep_pdfs hs1
        have hr := binProbability_facts hp
        obtain ⟨m', r1, r2, r3⟩ := C28_reassert_partial i1 hd true (by simpa using ho)
        rw [hr] at r1
        cases r1
        refine ⟨i1.binProbability n hp, fun k => (r2 k).trans (i2 k), ?_⟩
        intro j q hj
        obtain ⟨r4, r5⟩ := r3 j q hj
        simp only [if_true] at r4 r5
        refine ⟨?_, fun hq => (r5 hq).trans ((i3 j q hj).2 hq)⟩
        intro _ hq
        obtain ⟨x, x1, x2⟩ := r4 hq
        exact ⟨x, (i2 _).symm.trans x1, x2⟩
  intro j p hj
  obtain ⟨_, _, h3⟩ := inv _ vm h
  exact ⟨(h3 j p hj).1 hn, (h3 j p hj).2⟩

/-- C88 (partial): after any history that added a systematic, with data given as a histogram of at least one bin and no buffers, if the
likelihood evaluates, the normalisation left for each distribution is: its parameter if fitted directly; its parameter times the
integral of its distorted contents if fitted indirectly; the integral of its distorted contents if not fitted - the distortion being
that of the systematics acting on it at the current parameters. Missing: distributions fitted directly together with ones fitted
indirectly, for which the claim is false (`C88_mixed_wrong`), equal names, and buffers (C30). -/
theorem C88_normalisations_partial {name : Nat → String} {C : FitSys σ α} (hC : C.Refreshing) {M : CMath α} {calls : List ManagerCall}
    {log : List (BinnedED α × NormStatus)} {L L' : NLLH σ α} {v : Fl α} (hR : Recorded name C M calls log L)
    (hadd : SysLog.added calls ≠ []) (hbuf : L.shrinker.buffers = []) (hcal : L.calculated = true)
    (hd : PdfLog.DistinctNames log) (hmix : (∀ p ∈ log, p.2 ≠ .direct) ∨ (∀ p ∈ log, p.2 ≠ .indirect))
    (hn : 0 < L.dataDist.hist.nBins) (h : L.evaluate C M = .ok (v, L')) :
    ∃ R : Nat → Matrix' α, (∀ p ∈ SysLog.added calls, L.CurrentResponse C p (R p)) ∧
      ∀ (j : Nat) p, log[j]? = some p → ∃ gs c, SysLog.assigned calls p.1.name = some gs ∧
        Distorts calls R gs p.1.hist.contents c ∧
        match p.2 with
        | .direct => ∃ x, L.pdfs.getParameter p.1.name = .ok x ∧ L'.pdfs.getNormalisations[j]? = some x
        | .indirect => ∃ x, L.pdfs.getParameter p.1.name = .ok x ∧
            L'.pdfs.getNormalisations[j]? = some (x * ({ p.1.hist with contents := c } : Histogram α).integral)
        | .off => L'.pdfs.getNormalisations[j]? = some ({ p.1.hist with contents := c } : Histogram α).integral := by
  obtain ⟨hb, hrel, hresp, hass, hkn⟩ := hR.facts
  have ho1 : PdfLog.Before .direct .indirect log := hmix.elim PdfLog.before_of_not_left PdfLog.before_of_not_right
  have ho2 : PdfLog.Before .indirect .direct log := hmix.elim PdfLog.before_of_not_right PdfLog.before_of_not_left
  obtain ⟨sm, ob, m, m1, m2, v1, m3, ps, c, hm, hcon, h1, h2, hv, _, _, _, hL'⟩ := evaluate_parts hcal hbuf h
  have hbm := hb.reassertNorms false hm
  have hb1 := hbm.applySystematics sm h1
  have hb2 := hb1.assertDimensions _ h2
  obtain ⟨R, cs, k1, k2, k3, k4⟩ := PdfManager.apply_all hC hbm hrel hadd hass hcon h1
  obtain ⟨m', r1, r2, r3⟩ := C28_reassert_partial hb hd false (by simpa using ho2)
  rw [hm] at r1
  cases r1
  have hbs := NLLH.binSum_norms hb2 hd ho1 hn hv
  obtain ⟨s2, n2, _⟩ := PdfManager.assert_facts h2
  have s1 := PdfManager.apply_same h1
  refine ⟨R, k1, ?_⟩
  intro j p hj
  obtain ⟨gs, c, c1, c2, c3, c4, c5⟩ := k3 j p hj
  obtain ⟨b1, b2⟩ := hbs j p hj
  obtain ⟨r4, r5⟩ := r3 j p hj
  refine ⟨gs, c, c1, c3, ?_⟩
  subst hL'
  show match p.2 with
    | .direct => ∃ x, L.pdfs.getParameter p.1.name = .ok x ∧ m3.norms[j]? = some x
    | .indirect => ∃ x, L.pdfs.getParameter p.1.name = .ok x ∧
        m3.norms[j]? = some (x * ({ p.1.hist with contents := c } : Histogram α).integral)
    | .off => m3.norms[j]? = some ({ p.1.hist with contents := c } : Histogram α).integral
  simp only at b1 b2
  rw [n2] at b2
  cases hp2 : p.2 with
  | direct =>
    simp only
    obtain ⟨x, x1, x2⟩ := b1 hp2
    refine ⟨x, ?_, x2⟩
    rw [← x1, ← r2]
    exact (PdfManager.getParameter_congr (s2.trans s1) (PdfManager.inv_of_built hb2) _).symm
  | indirect =>
    simp only
    obtain ⟨x, x1, x2⟩ := r4 (by simp [hp2])
    refine ⟨x, x1, ?_⟩
    rw [b2 (by simp [hp2]), c5, hp2]
    have : m.norms[j]? = some x := x2
    rw [this]; rfl
  | off =>
    simp only
    rw [b2 (by simp [hp2]), c5, hp2]


/-! ### Examples -/

/-- A systematic for examples: it multiplies the first of two bins by a gain, its parameter. -/
def exGain : FitSys α α where
  response g := ⟨2, 2, ⟨2, 2, fun i j => if i = j then (if i = 0 then g else 1) else 0⟩⟩
  construct g := .ok g
  getParameters g := .ok [("g", g)]
  setParameters g d := ((SMap.find d "g").getD g, .ok ())

theorem exGain_refreshing : (exGain (α := α)).Refreshing := by
  intro s s' h
  cases h
  exact .refl _ _

/-- A likelihood with the gain, one directly fitted distribution, normalisation 3 and gain 2, and data 4 and 5. -/
noncomputable def exGainFit : Res (NLLH ℝ ℝ) := do
  let L ← (NLLH.new (fun _ => 1) : NLLH ℝ ℝ).addSystematic exSysName 0 none
  let L ← L.addPdf exSysName (exRealPdf "s" (1/2) (1/2)) none none .direct
  pure (((L.registerFitComponents exSysName).setParameters exGain [("g", 2), ("s", 3)]).1.setDataDist (exRealPdf "d" 4 5))

/-- Non-vacuity of C87: rates 3 · (1/2 · 2) = 3 and 3 · 1/2 = 3/2. -/
example : ∃ L L', exGainFit = .ok L ∧
    L.evaluate exGain CMath.real = .ok (some ((3 - 4 * Real.log 3) + (3/2 - 5 * Real.log (3/2))), L') := by
  obtain ⟨L, hL, hrec, e1, e2, e3, e4, e5, e6, e7⟩ : ∃ L, exGainFit = .ok L ∧
      Recorded exSysName exGain CMath.real [.add 0, .addDist "s" [""]] [(exRealPdf "s" (1/2) (1/2), .direct)] L ∧
      L.useBB = false ∧ L.shrinker.buffers = [] ∧ L.calculated = true ∧ L.dataDist = exRealPdf "d" 4 5 ∧
      L.pdfs.getParameter "s" = .ok 3 ∧ L.getParameters exGain = .ok [("g", 2), ("s", 3)] ∧
      (L.objs 0 = 2 ∧ L.constraints.evaluate [("g", 2), ("s", 3)] = .ok (some 0)) := by
    refine ⟨_, rfl, ?_, rfl, rfl, rfl, rfl, rfl, rfl, rfl, rfl⟩
    exact .setDataDist (exRealPdf "d" 4 5) (.setParameters [("g", 2), ("s", 3)] (.registerFitComponents
        (.addPdf (exRealPdf "s" (1/2) (1/2)) none none .direct (.addSystematic 0 none (.new (fun _ => 1)) rfl) rfl)))
  obtain ⟨R, cs, h1, h2, h3, h4, h5⟩ := C87_outcome_partial exGain_refreshing hrec (by simp [SysLog.added, ManagerCall.added?]) e1 e2 e3
    (by show (["s"] : List String).Nodup; decide) (by show ([NormStatus.direct]).Pairwise _; decide) (by rw [e4]; rfl) 2
    (by rw [e4]; exact le_refl 2)
    (by intro p hp
        simp only [List.mem_cons, List.not_mem_nil, or_false] at hp
        subst hp; rw [e4]; exact ⟨rfl, rfl, rfl⟩)
    (fun p _ => ⟨_, rfl, rfl, rfl⟩)
    (fun _ => 3) (by
      intro n hn
      have : n ∈ (["s"] : List String) := hn
      rw [List.mem_singleton] at this
      subst this; exact e5) e6 e7.2
  rw [e4] at h4 h5
  obtain ⟨gs, c, c1, c2, c3⟩ := h3 0 _ rfl
  have hgs : gs = [""] := by
    have : SysLog.assigned [.add 0, .addDist "s" [""]] "s" = some [""] := by decide +kernel
    rw [show (exRealPdf "s" (1/2) (1/2)).name = "s" from rfl] at c1
    exact Option.some.inj (c1.symm.trans this)
  subst hgs
  obtain ⟨g, g1, g2⟩ := h1 0 (by simp [SysLog.added, ManagerCall.added?])
  have hg : g = 2 := by
    rw [← e7.1]; exact (Res.ok.inj g1).symm
  subst hg
  have hc : c = [1, 1/2] := by
    unfold Distorts applyInOrder at c3
    have hact : SysLog.acting [.add 0, .addDist "s" [""]] [""] = [0] := by decide +kernel
    rw [hact] at c3
    simp only [List.map_cons, List.map_nil, Res.forFold, ← g2] at c3
    have he : (exGain.response (2 : ℝ)).apply (exRealPdf "s" (1/2) (1/2)).hist.contents = .ok [1, 1/2] := by
      unfold Matrix'.apply ArmaMat.mulVec
      simp [exGain, exRealPdf, List.range_succ]
      rfl
    rw [he] at c3
    exact (Res.ok.inj c3).symm
  subst hc
  have hcs : cs = [[1, 1/2]] := by
    match cs, h2, c2 with
    | [x], _, c2 => simpa using c2
  subst hcs
  have hr0 : distortedRate (fun _ => (3 : ℝ)) [(exRealPdf "s" (1/2) (1/2), .direct)] [[1, 1/2]] 0 = 3 := by
    norm_num [distortedRate, normOf, NormStatus.fittable]
  have hr1 : distortedRate (fun _ => (3 : ℝ)) [(exRealPdf "s" (1/2) (1/2), .direct)] [[1, 1/2]] 1 = 3/2 := by
    norm_num [distortedRate, normOf, NormStatus.fittable]
  have hpos : ∀ b, b < 2 → 0 < distortedRate (fun _ => (3 : ℝ)) [(exRealPdf "s" (1/2) (1/2), .direct)] [[1, 1/2]] b := by
    intro b hb
    have hb' : b = 0 ∨ b = 1 := by omega
    rcases hb' with rfl | rfl
    · rw [hr0]; norm_num
    · rw [hr1]; norm_num
  obtain ⟨L', hL'⟩ := h5 (fun b hb => ne_of_gt (hpos b hb))
  refine ⟨L, L', hL, ?_⟩
  refine hL'.trans ?_
  rw [if_pos (show ∀ b, b < (exRealPdf "d" 4 5).hist.nBins → _ from hpos)]
  congr 2
  show some (((List.range 2).map _).sum + (0 : ℝ)) = _
  congr 1
  rw [show List.range 2 = [0, 1] from rfl]
  simp only [List.map_cons, List.map_nil, List.sum_cons, List.sum_nil, add_zero]
  rw [hr0, hr1]
  rfl

/-- Two distributions, fitted as told, a gain of 2 on the first bin, parameters 3 for `a` and 5 for `b`. -/
def exGainTwo (sa sb : NormStatus) : Res (NLLH ℚ ℚ) := do
  let a ← exFitPdf "a" [("x", 2)] [1/2, 1/2]
  let b ← exFitPdf "b" [("x", 2)] [1/4, 3/4]
  let L ← (NLLH.new (fun _ => 1) : NLLH ℚ ℚ).addSystematic exSysName 0 none
  let L ← L.addPdf exSysName a none none sa
  let L ← L.addPdf exSysName b none none sb
  pure (((L.registerFitComponents exSysName).setParameters exGain [("a", 3), ("b", 5), ("g", 2)]).1.setDataDist b)

theorem exGainTwo_recorded {sa sb : NormStatus} {L : NLLH ℚ ℚ} (h : exGainTwo sa sb = .ok L) (M : CMath ℚ) :
    ∃ a b, exFitPdf "a" [("x", 2)] [1/2, 1/2] = .ok a ∧ exFitPdf "b" [("x", 2)] [1/4, 3/4] = .ok b ∧
      Recorded exSysName exGain M [.add 0, .addDist a.name [""], .addDist b.name [""]] [(a, sa), (b, sb)] L ∧ L.dataDist = b ∧
      L.calculated = true ∧ L.shrinker.buffers = [] := by
  unfold exGainTwo at h
  obtain ⟨a, ha, h⟩ := Res.bind_eq_ok.1 h
  obtain ⟨b, hb, h⟩ := Res.bind_eq_ok.1 h
  obtain ⟨L1, h1, h⟩ := Res.bind_eq_ok.1 h
  obtain ⟨L2, h2, h⟩ := Res.bind_eq_ok.1 h
  obtain ⟨L3, h3, h⟩ := Res.bind_eq_ok.1 h
  cases h
  refine ⟨a, b, ha, hb, .setDataDist _ (.setParameters _ (.registerFitComponents
    (.addPdf b none none sb (.addPdf a none none sa (.addSystematic 0 none (.new _) h1) h2) h3))), rfl, rfl, ?_⟩
  have hbuf : ∀ (K K' : NLLH ℚ ℚ) p st, K.addPdf exSysName p none none st = .ok K' → K'.shrinker = K.shrinker := by
    intro K K' p st hk
    unfold NLLH.addPdf at hk
    obtain ⟨_, _, hk⟩ := Res.bind_eq_ok.1 hk
    obtain ⟨_, _, hk⟩ := Res.bind_eq_ok.1 hk
    obtain ⟨_, _, hk⟩ := Res.bind_eq_ok.1 hk
    cases hk; rfl
  have hs1 : L1.shrinker = (NLLH.new (fun _ => 1) : NLLH ℚ ℚ).shrinker := by
    unfold NLLH.addSystematic at h1
    obtain ⟨_, _, h1⟩ := Res.bind_eq_ok.1 h1
    cases h1; rfl
  have hset : ∀ (cs : List NllhComponent) (K : NLLH ℚ ℚ) d, (setLoop exGain d K cs).1.shrinker = K.shrinker := by
    intro cs
    induction cs with
    | nil => intro K d; rfl
    | cons c cs ih =>
      intro K d
      unfold setLoop
      have hc : (setComponent exGain d K c).1.shrinker = K.shrinker := by cases c <;> rfl
      generalize setComponent exGain d K c = r at hc
      obtain ⟨K', r⟩ := r
      cases r with
      | ok u => exact (ih K' d).trans hc
      | throw e => exact hc
      | ub => exact hc
  show ((L3.registerFitComponents exSysName).setParameters exGain [("a", 3), ("b", 5), ("g", 2)]).1.shrinker.buffers = []
  unfold NLLH.setParameters
  rw [if_neg (by simp), hset]
  show L3.shrinker.buffers = []
  rw [hbuf _ _ _ _ h3, hbuf _ _ _ _ h2, hs1]
  rfl

/-- **C88 is false when distributions are fitted both ways.** `a` is fitted directly with value 3, `b` indirectly with value 5; the gain
of 2 takes the integral of `b` to 5/4. After an evaluation the normalisation of `b` is 3 · 5/4, not 5 · 5/4: the value of `a` was used. -/
theorem C88_mixed_wrong : ∃ (a b : BinnedED ℚ) (L : NLLH ℚ ℚ) (v : Fl ℚ) (L' : NLLH ℚ ℚ),
    Recorded exSysName exGain exMath [.add 0, .addDist a.name [""], .addDist b.name [""]] [(a, .direct), (b, .indirect)] L ∧
    L.pdfs.getParameter "b" = .ok 5 ∧ L.evaluate exGain exMath = .ok (v, L') ∧
    (({ b.hist with contents := [1/2, 3/4] } : Histogram ℚ).integral = 5/4) ∧
    L'.pdfs.getNormalisations = [3, 3 * (5/4)] := by
  have hw : (exGainTwo .direct .indirect >>= fun L => L.pdfs.getParameter "b" >>= fun x => L.evaluate exGain exMath >>= fun r =>
      Res.ok (x, r.2.pdfs.getNormalisations)) = .ok (5, [3, 3 * (5/4)]) := by decide +kernel
  obtain ⟨L, hL, hw⟩ := Res.bind_eq_ok.1 hw
  obtain ⟨x, hx, hw⟩ := Res.bind_eq_ok.1 hw
  obtain ⟨⟨v, L'⟩, h1, hw⟩ := Res.bind_eq_ok.1 hw
  have hw := Res.ok.inj hw
  simp only [Prod.mk.injEq] at hw
  obtain ⟨rfl, hn⟩ := hw
  obtain ⟨a, b, ha, hb, hrec, _⟩ := exGainTwo_recorded hL exMath
  refine ⟨a, b, L, v, L', hrec, hx, h1, ?_, hn⟩
  have : (exFitPdf "b" [("x", 2)] [1/4, 3/4] >>= fun b =>
    Res.ok ({ b.hist with contents := [1/2, 3/4] } : Histogram ℚ).integral) = .ok (5/4) := by decide +kernel
  rw [hb] at this
  exact Res.ok.inj this

/-- Non-vacuity of C88: `a` not fitted, `b` fitted indirectly: the normalisations are 3/2 and 5 · 5/4. -/
example : ∃ (L : NLLH ℚ ℚ) (v : Fl ℚ) (L' : NLLH ℚ ℚ), exGainTwo .off .indirect = .ok L ∧ L.evaluate exGain exMath = .ok (v, L') ∧
    0 < L.dataDist.hist.nBins ∧ L'.pdfs.getNormalisations = [3/2, 5 * (5/4)] := by
  have hw : (exGainTwo .off .indirect >>= fun L => L.evaluate exGain exMath >>= fun r =>
      Res.ok (L.dataDist.hist.nBins, r.2.pdfs.getNormalisations)) = .ok (2, [3/2, 5 * (5/4)]) := by decide +kernel
  obtain ⟨L, hL, hw⟩ := Res.bind_eq_ok.1 hw
  obtain ⟨⟨v, L'⟩, h1, hw⟩ := Res.bind_eq_ok.1 hw
  have hw := Res.ok.inj hw
  simp only [Prod.mk.injEq] at hw
  obtain ⟨h2, hn⟩ := hw
  exact ⟨L, v, L', hL, h1, by rw [h2]; decide, hn⟩

end Oxsx
