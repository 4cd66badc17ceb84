import Verif.Lemmas.FailedInv
/- Invariants of every likelihood made by public calls. -/
set_option linter.unusedSectionVars false
set_option linter.unusedSimpArgs false
set_option linter.unusedVariables false
namespace Oxsx
variable {σ α : Type} [Field α] [LinearOrder α]

theorem SysManager.RespOK.new : (SysManager.new : SysManager α).RespOK :=
  ⟨List.pairwise_singleton _ _, SMap.sorted_nil, by intro k r h; cases h⟩

theorem SysManager.RespOK.push {m : SysManager α} (h : m.RespOK) (p : Nat) (g : String) : (m.push p g).RespOK := by
  refine ⟨SMap.sorted_insert h.groups _ _, h.sorted, ?_⟩
  intro k r hk
  show ∃ p' l, SMap.find (SMap.insert g _ m.groups) k = some (p' :: l)
  rw [SMap.find_insert]
  by_cases hkg : g = k
  · rw [if_pos hkg]
    cases (SMap.find m.groups g).getD [] with
    | nil => exact ⟨p, [], rfl⟩
    | cons q l => exact ⟨q, l ++ [p], rfl⟩
  · rw [if_neg hkg]; exact h.keys k r hk

theorem SysManager.add_push {name : Nat → String} {m m' : SysManager α} {p : Nat} (h : m.add name p = .ok m') :
    m' = m.push p "" := by
  unfold SysManager.add at h
  obtain ⟨_, _, h⟩ := Res.bind_eq_ok.1 h
  cases h; rfl

theorem SysManager.addTo_push {name : Nat → String} {m m' : SysManager α} {p : Nat} {g : String}
    (h : m.addTo name p g = .ok m') : m' = m.push p g := by
  unfold SysManager.addTo at h
  split at h
  · rename_i hg; subst hg; exact add_push h
  · cases h; rfl

namespace NLLH
open PdfManager

theorem setComponent_inv {C : FitSys σ α} {d : ParamDict α} {L : NLLH σ α} (h : Inv L) (c : NllhComponent) :
    Inv (setComponent C d L c).1 := by
  cases c with
  | pdfs =>
    obtain ⟨log, hb⟩ := h.built
    exact ⟨h.resp, ⟨log, hb.setParameters d⟩, h.reg⟩
  | sys p => exact ⟨h.resp, h.built, h.reg⟩

theorem setLoop_inv {C : FitSys σ α} {d : ParamDict α} (cs : List NllhComponent) : ∀ {L : NLLH σ α}, Inv L →
    Inv (setLoop C d L cs).1 := by
  induction cs with
  | nil => intro L h; exact h
  | cons c cs ih =>
    intro L h
    unfold setLoop
    have hc := setComponent_inv (C := C) (d := d) h c
    generalize setComponent C d L c = r at hc
    obtain ⟨L', o⟩ := r
    cases o with
    | ok u => exact ih hc
    | throw e => exact hc
    | ub => exact hc

theorem setParameters_inv {C : FitSys σ α} {L : NLLH σ α} (h : Inv L) (d : ParamDict α) : Inv (L.setParameters C d).1 := by
  unfold setParameters
  split
  · exact h
  · exact setLoop_inv _ h

theorem inv_of_reached {name : Nat → String} {C : FitSys σ α} {M : CMath α} {L : NLLH σ α} (h : Reached name C M L) : Inv L := by
  induction h with
  | new objs => exact ⟨.new, ⟨[], .new⟩, by intro o ho; cases ho⟩
  | @addPdf L L' pdf groups rate st _ ha ih =>
    unfold NLLH.addPdf at ha
    obtain ⟨_, _, ha⟩ := Res.bind_eq_ok.1 ha
    obtain ⟨m, hm, ha⟩ := Res.bind_eq_ok.1 ha
    obtain ⟨s, hs, ha⟩ := Res.bind_eq_ok.1 ha
    cases ha
    obtain ⟨log, hb⟩ := ih.built
    have hb' := hb.addPdf pdf st hm
    have iL := inv_of_built hb
    have iM := inv_of_built hb'
    unfold SysManager.addDist at hs
    obtain ⟨_, _, hs⟩ := Res.bind_eq_ok.1 hs
    cases hs
    refine ⟨⟨ih.resp.groups, ih.resp.sorted, ih.resp.keys⟩, ⟨_, hb'⟩, ?_⟩
    intro o ho
    simp only at ho ⊢
    rw [iM.orig, List.map_append, ← iL.orig] at ho
    rw [SMap.find_insert]
    split
    · exact ⟨_, rfl⟩
    · rename_i hne
      rcases List.mem_append.1 ho with ho | ho
      · exact ih.reg o ho
      · simp at ho; subst ho; exact absurd rfl hne
  | @setNormalisations L L' ns _ ha ih =>
    unfold NLLH.setNormalisations at ha
    obtain ⟨m, hm, ha⟩ := Res.bind_eq_ok.1 ha
    cases ha
    obtain ⟨log, hb⟩ := ih.built
    refine ⟨ih.resp, ⟨log, hb.setNormalisations ns hm⟩, ?_⟩
    have : m.orig = L.pdfs.orig := by
      unfold PdfManager.setNormalisations at hm
      split at hm
      · cases hm
      · cases hm; rfl
    intro o ho
    exact ih.reg o (this ▸ ho)
  | setDataDist d _ ih => exact ⟨ih.resp, ih.built, ih.reg⟩
  | setDataSet d _ ih => exact ⟨ih.resp, ih.built, ih.reg⟩
  | setBarlowBeeston b _ ih => exact ⟨ih.resp, ih.built, ih.reg⟩
  | setBuffer dim lower upper _ ih => exact ⟨ih.resp, ih.built, ih.reg⟩
  | setBufferAsOverflow b _ ih => exact ⟨ih.resp, ih.built, ih.reg⟩
  | @addSystematic L L' p g _ ha ih =>
    unfold NLLH.addSystematic at ha
    obtain ⟨s, hs, ha⟩ := Res.bind_eq_ok.1 ha
    cases ha
    have : ∃ g', s = L.sys.push p g' := by
      cases g with
      | none => exact ⟨"", SysManager.add_push hs⟩
      | some g => exact ⟨g, SysManager.addTo_push hs⟩
    obtain ⟨g', rfl⟩ := this
    exact ⟨ih.resp.push p g', ih.built, ih.reg⟩
  | registerFitComponents _ ih => exact ⟨ih.resp, ih.built, ih.reg⟩
  | setParameters d _ ih => exact setParameters_inv ih d
  | setObjects objs _ ih => exact ⟨ih.resp, ih.built, ih.reg⟩
  | setConstraints c _ ih => exact ⟨ih.resp, ih.built, ih.reg⟩
  | setCuts c _ ih => exact ⟨ih.resp, ih.built, ih.reg⟩
  | evaluate _ he ih => exact after_inv ih he
  | evaluateLeft fail _ ih => exact evaluateLeft_inv fail M ih

end NLLH
end Oxsx
