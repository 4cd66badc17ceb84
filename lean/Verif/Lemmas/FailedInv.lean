import Verif.Lemmas.NllhAfter
import Verif.Lemmas.FailedCalls
/- The invariant of likelihoods made by public calls survives evaluations that fail. -/
set_option linter.unusedSectionVars false
set_option linter.unusedSimpArgs false
set_option linter.unusedVariables false
namespace Oxsx
variable {σ α : Type} [Field α] [LinearOrder α]

theorem Res.fst_of {S A : Type} {r : S × Res A} {s : S} {q : Res A} (h : r = (s, q)) : s = r.1 := by rw [h]

namespace PdfManager

theorem binProbabilityLeft_fst (m : PdfManager α) (i : Nat) : (m.binProbabilityLeft i).1 = (m.reassertNormsLeft true).1 := by
  unfold binProbabilityLeft Res.andThen
  split <;> rfl

end PdfManager

namespace SysManager

theorem constructLeft_facts (C : SysClass σ α) (fail : σ → σ) (m : SysManager α) (h : Nat → σ) (hr : RespOK m) :
    RespOK (m.constructLeft C fail h).1.1 ∧ (m.constructLeft C fail h).1.1.groups = m.groups ∧
    (m.constructLeft C fail h).1.1.edGroups = m.edGroups ∧ (m.constructLeft C fail h).1.1.nGroups = m.nGroups ∧
    ((m.constructLeft C fail h).1.2 = (m.constructAllLeft C fail h).1 ∨ (m.constructLeft C fail h).1.2 = h) := by
  unfold constructLeft
  split
  · exact ⟨hr, rfl, rfl, rfl, .inr rfl⟩
  · simp only
    refine Res.andThen_inv (fun (s : SysManager α × (Nat → σ)) => RespOK s.1 ∧ s.1.groups = m.groups ∧ s.1.edGroups = m.edGroups ∧
      s.1.nGroups = m.nGroups ∧ (s.2 = (m.constructAllLeft C fail h).1 ∨ s.2 = h)) ⟨hr, rfl, rfl, rfl, .inl rfl⟩ ?_
    rintro s u hs
    have e := (congrArg Prod.fst hs).symm
    subst e
    have inv := Res.forLeft_inv (l := m.groups) (f := fun (rs : SMap (Matrix' α)) (g : String × List Nat) => Res.keep rs (
        if g.1 = "" ∧ g.2.length = 0 then pure rs
        else do
          let r ← groupResponse C (m.constructAllLeft C fail h).1 g.2
          pure (rs.insert g.1 r)))
      (fun (rs : SMap (Matrix' α)) => rs.Sorted ∧ ∀ k r, SMap.find rs k = some r → ∃ p l, SMap.find m.groups k = some (p :: l))
      ⟨hr.sorted, hr.keys⟩ (by
        intro rs g hrs hg
        refine Res.keep_inv (fun (rs : SMap (Matrix' α)) => rs.Sorted ∧
          ∀ k r, SMap.find rs k = some r → ∃ p l, SMap.find m.groups k = some (p :: l)) hrs ?_
        intro t ht
        split at ht
        · cases ht; exact hrs
        · obtain ⟨r, hgr, ht⟩ := Res.bind_eq_ok.1 ht
          cases ht
          refine ⟨SMap.sorted_insert hrs.1 _ _, ?_⟩
          intro k r' hk
          rw [SMap.find_insert] at hk
          split at hk
          · rename_i hkg
            subst hkg
            unfold groupResponse at hgr
            obtain ⟨q, hq, _⟩ := Res.bind_eq_ok.1 hgr
            obtain ⟨g1, g2⟩ := g
            cases g2 with
            | nil => cases hq
            | cons a l => exact ⟨a, l, SMap.find_of_mem hr.groups hg⟩
          · exact hrs.2 k r' hk)
    exact ⟨⟨hr.groups, inv.1, inv.2⟩, rfl, rfl, rfl, .inl rfl⟩

end SysManager

namespace NLLH
open PdfManager

theorem shape_aux (L : NLLH σ α) (r : (BinnedED α × CutLog) × Res Unit) : ∃ x,
    (Res.andThen ({ L with dataDist := r.1.1 }, r.2) (fun (L : NLLH σ α) _ => ({ L with calculated := true }, Res.ok ()))).1 =
      { L with dataDist := x } ∨
    Res.andThen ({ L with dataDist := r.1.1 }, r.2) (fun (L : NLLH σ α) _ => ({ L with calculated := true }, Res.ok ())) =
      ({ L with dataDist := x, calculated := true }, .ok ()) := by
  obtain ⟨r1, r2⟩ := r
  refine ⟨r1.1, ?_⟩
  cases r2 with
  | ok u => exact .inr rfl
  | throw e => exact .inl rfl
  | ub => exact .inl rfl

theorem binDataLeft_shape (L : NLLH σ α) : ∃ x, L.binDataLeft.1 = { L with dataDist := x } ∨
    L.binDataLeft = ({ L with dataDist := x, calculated := true }, .ok ()) := by
  unfold binDataLeft
  cases at_ L.pdfs.orig 0 with
  | throw e => exact ⟨L.dataDist, .inl rfl⟩
  | ub => exact ⟨L.dataDist, .inl rfl⟩
  | ok o =>
    simp only
    cases hD : L.data with
    | none => exact ⟨L.dataDist, .inl (by simp only; rw [← hD])⟩
    | some d =>
      simp only
      rw [← hD]
      exact shape_aux L _

/-- The invariant of likelihoods made by public calls survives evaluations that fail. -/
theorem evaluateLeft_inv {C : FitSys σ α} (fail : σ → σ) (M : CMath α) {L : NLLH σ α} (hi : Inv L) : Inv (L.evaluateLeft C fail M).1 := by
  have pd : ∀ {X : NLLH σ α} {m : PdfManager α}, Inv X → (∃ log, Built log m) → Core m X.pdfs → Inv { X with pdfs := m } := by
    intro X m h hb hc
    exact ⟨h.resp, hb, fun o ho => h.reg o (by rw [← hc.orig]; exact ho)⟩
  have re : ∀ {X : NLLH σ α} (b : Bool), Inv X → Inv { X with pdfs := (X.pdfs.reassertNormsLeft b).1 } := by
    intro X b h
    obtain ⟨log, hb⟩ := h.built
    exact pd h ⟨log, hb.reassertNormsLeft b⟩ (reassertLeft_core _ _)
  have prep : Inv (L.prepareLeft C fail).1 := by
    unfold prepareLeft
    split
    · exact hi
    · have s1 : Inv (if L.calculated = true then (L, Res.ok ()) else L.binDataLeft).1 := by
        split
        · exact hi
        · obtain ⟨x, hx | hx⟩ := binDataLeft_shape L <;> rw [hx] <;> exact ⟨hi.resp, hi.built, hi.reg⟩
      refine Res.andThen_inv (fun (X : NLLH σ α) => Inv X) s1 ?_
      intro L1 _ h1
      rw [h1] at s1
      have s1 : Inv L1 := s1
      refine Res.andThen_inv (fun (X : NLLH σ α) => Inv X) (re false s1) ?_
      intro L2 _ h2
      have s2 : Inv L2 := by rw [Res.fst_of h2]; exact re false s1
      have shr : Inv L2.shrinkDataLeft.1 := by
        unfold shrinkDataLeft
        split
        · exact s2
        · refine Res.andThen_inv (fun (X : NLLH σ α) => Inv X) ⟨s2.resp, s2.built, s2.reg⟩ ?_
          intro X _ hX
          have iX : Inv X := by rw [Res.fst_of hX]; exact ⟨s2.resp, s2.built, s2.reg⟩
          refine Res.keep_inv (fun (X : NLLH σ α) => Inv X) iX ?_
          intro Y hY
          obtain ⟨d, _, hY⟩ := Res.bind_eq_ok.1 hY
          cases hY
          exact ⟨iX.resp, iX.built, iX.reg⟩
      refine Res.andThen_inv (fun (X : NLLH σ α) => Inv X) shr ?_
      intro L3 _ h3
      have s3 : Inv L3 := by rw [Res.fst_of h3]; exact shr
      have con : Inv ({ L3 with sys := (L3.sys.constructLeft C.toSysClass fail L3.objs).1.1, objs := (L3.sys.constructLeft C.toSysClass fail L3.objs).1.2 } : NLLH σ α) := by
        obtain ⟨h1, h2, h3, h4, h5⟩ := SysManager.constructLeft_facts C.toSysClass fail L3.sys L3.objs s3.resp
        exact ⟨h1, s3.built, by simp only; rw [h3]; exact s3.reg⟩
      refine Res.andThen_inv (fun (X : NLLH σ α) => Inv X) con ?_
      intro L4 _ h4
      have s4 : Inv L4 := by rw [Res.fst_of h4]; exact con
      have app : Inv { L4 with pdfs := (L4.pdfs.applySystematicsLeft L4.sys).1 } := by
        obtain ⟨log, hb⟩ := s4.built
        exact pd s4 ⟨log, hb.applySystematicsLeft _⟩ (applyLeft_core _ _)
      refine Res.andThen_inv (fun (X : NLLH σ α) => Inv X) app ?_
      intro L5 _ h5
      have s5 : Inv L5 := by rw [Res.fst_of h5]; exact app
      have asr : Inv { L5 with pdfs := (L5.pdfs.assertDimensionsLeft L5.dataDist.obs.names).1 } := by
        obtain ⟨log, hb⟩ := s5.built
        exact pd s5 ⟨log, hb.assertDimensionsLeft _⟩ (assertLeft_core _ _)
      refine Res.andThen_inv (fun (X : NLLH σ α) => Inv X) asr ?_
      intro L6 _ h6
      have s6 : Inv L6 := by rw [Res.fst_of h6]; exact asr
      obtain ⟨log, hb⟩ := s6.built
      exact pd s6 ⟨log, hb.applyShrinkLeft _⟩ (shrinkLeft_core _ _)
  unfold evaluateLeft
  refine Res.andThen_inv (fun (X : NLLH σ α) => Inv X) prep ?_
  intro L1 _ h1
  have s1 : Inv L1 := by rw [Res.fst_of h1]; exact prep
  have loop : Inv { L1 with pdfs := (Res.forLeft (binStepLeft M L1) (some 0, L1.pdfs) (List.range L1.dataDist.hist.nBins)).1.2 } := by
    refine Res.forLeft_inv (fun (s : Fl α × PdfManager α) => Inv { L1 with pdfs := s.2 }) s1 ?_
    rintro ⟨v, m⟩ i hs _
    unfold binStepLeft
    simp only
    have hr := re true hs
    simp only at hr
    refine Res.andThen_inv (fun (s : Fl α × PdfManager α) => Inv { L1 with pdfs := s.2 }) ?_ ?_
    · simp only; rw [binProbabilityLeft_fst]; exact hr
    · rintro ⟨v', m'⟩ p hp
      have e : m' = (m.reassertNormsLeft true).1 := by
        rw [← binProbabilityLeft_fst m i]
        exact (congrArg (fun x => x.1.2) hp).symm
      subst e
      refine Res.keep_inv (fun (s : Fl α × PdfManager α) => Inv { L1 with pdfs := s.2 }) hr ?_
      intro t ht
      obtain ⟨_, _, ht⟩ := Res.bind_eq_ok.1 ht
      obtain ⟨n, _, ht⟩ := Res.bind_eq_ok.1 ht
      split at ht
      · obtain ⟨_, _, ht⟩ := Res.bind_eq_ok.1 ht
        obtain ⟨_, _, ht⟩ := Res.bind_eq_ok.1 ht
        cases ht; exact hr
      · cases ht; exact hr
  refine Res.andThen_inv (fun (X : NLLH σ α) => Inv X) loop ?_
  intro L2 _ h2
  rw [Res.fst_of h2]
  exact loop

end NLLH
end Oxsx
