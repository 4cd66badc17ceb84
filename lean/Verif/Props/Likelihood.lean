import Verif.Lemmas.NllhCalls
import Verif.Lemmas.FitSystematics
import Verif.Props.PdfManager
import Verif.Props.SystematicManager
import Verif.Props.BarlowBeeston
import Mathlib.Data.Rat.Sqrt
/-
C29 (evaluating again gives the same value), C33 (replacing the data after an evaluation) and C31 (the value of the likelihood).
-/
set_option linter.unusedSectionVars false
set_option linter.unusedSimpArgs false
set_option linter.unusedVariables false
namespace Oxsx
variable {σ α : Type} [Field α] [LinearOrder α]
open NLLH
open scoped List

theorem Res.Rel.value {β γ : Type} {x y : Res (β × γ)} (h : Res.Rel (fun a b => a.1 = b.1) x y) :
    (x >>= fun r => pure r.1 : Res β) = (y >>= fun r => pure r.1) := by
  refine Res.Rel.eq (Res.Rel.bind h ?_)
  intro a b hab
  exact hab

theorem NLLH.value_eq (C : FitSys σ α) (M : CMath α) (L : NLLH σ α) : L.value C M = (L.evaluate C M >>= fun r => pure r.1) := rfl

theorem NLLH.after_buffers {C : FitSys σ α} {M : CMath α} {L L' : NLLH σ α} {v : Fl α} (h : L.evaluate C M = .ok (v, L')) :
    L'.shrinker.buffers = L.shrinker.buffers := by
  rw [evaluate_eq] at h
  obtain ⟨d, hd, h⟩ := Res.bind_eq_ok.1 h
  obtain ⟨m, hm, h⟩ := Res.bind_eq_ok.1 h
  obtain ⟨sd, hsd, h⟩ := Res.bind_eq_ok.1 h
  obtain ⟨so, hso, h⟩ := Res.bind_eq_ok.1 h
  obtain ⟨m1, hm1, h⟩ := Res.bind_eq_ok.1 h
  obtain ⟨vm, hvm, h⟩ := Res.bind_eq_ok.1 h
  obtain ⟨ps, hps, h⟩ := Res.bind_eq_ok.1 h
  obtain ⟨c, hc, h⟩ := Res.bind_eq_ok.1 h
  cases h
  show sd.1.buffers = _
  unfold effShrink at hsd
  split at hsd
  · cases hsd; rfl
  · obtain ⟨s, hs, hsd⟩ := Res.bind_eq_ok.1 hsd
    obtain ⟨d', hd', hsd⟩ := Res.bind_eq_ok.1 hsd
    cases hsd
    unfold Shrinker.setBinMap at hs
    split at hs
    · cases hs; rfl
    · obtain ⟨c, hc, hs⟩ := Res.bind_eq_ok.1 hs
      split at hs
      · cases hs
      · obtain ⟨es, hes, hs⟩ := Res.bind_eq_ok.1 hs
        cases hs; rfl

/-! ### C29 -/

/-- C29 (partial): after any history of calls, if the likelihood has no buffers or at least one systematic, and evaluates to `v`, it
evaluates to `v` any number of times (`Refreshing` holds for the systematics of the library, `AnySys.refreshing`). Missing: buffers
without systematics, for which the claim is false (`C29_buffers_wrong`, `C29_indirect_wrong`). -/
theorem C29_idempotent_partial {name : Nat → String} {C : FitSys σ α} (hC : C.Refreshing) {M : CMath α} {L L' : NLLH σ α} {v : Fl α}
    (hR : Reached name C M L) (hbuf : L.shrinker.buffers = [] ∨ L.sys.countSystematics ≠ 0) (h : L.evaluate C M = .ok (v, L'))
    (n : Nat) : L.evaluations C M n = .ok (List.replicate n v) := by
  induction n generalizing L L' with
  | zero => rfl
  | succ n ih =>
    have hs := after_sim hC M (inv_of_reached hR) hbuf h
    have hR' : Reached name C M L' := hR.evaluate h
    have hbuf' : L'.shrinker.buffers = [] ∨ L'.sys.countSystematics ≠ 0 := by
      rcases hbuf with hb | hb
      · exact .inl ((after_buffers h).trans hb)
      · refine .inr ?_
        unfold SysManager.countSystematics at hb ⊢
        rw [hs.groups]; exact hb
    have he := sim_eval M hs
    rw [h] at he
    cases h2 : L'.evaluate C M with
    | throw e => rw [h2] at he; exact he.elim
    | ub => rw [h2] at he; exact he.elim
    | ok r =>
      obtain ⟨v', L''⟩ := r
      rw [h2] at he
      have hv : v' = v := he
      subst hv
      unfold evaluations
      rw [h]
      simp only [Res.ok_bind]
      rw [ih hR' hbuf' h2]
      rfl

/-- Without Barlow-Beeston, the kind of outcome and the object left behind do not depend on the logarithm. -/
theorem NLLH.evaluate_indep {C : FitSys σ α} (M M' : CMath α) {L : NLLH σ α} (hb : L.useBB = false) :
    Res.Rel (fun a b => a.2 = b.2) (L.evaluate C M) (L.evaluate C M') := by
  rw [evaluate_eq, evaluate_eq]
  refine Res.Rel.bind (Res.Rel.of_eq rfl) ?_
  rintro d _ rfl
  refine Res.Rel.bind (Res.Rel.of_eq rfl) ?_
  rintro m _ rfl
  refine Res.Rel.bind (Res.Rel.of_eq rfl) ?_
  rintro sd _ rfl
  refine Res.Rel.bind (Res.Rel.of_eq rfl) ?_
  rintro so _ rfl
  refine Res.Rel.bind (Res.Rel.of_eq rfl) ?_
  rintro m1 _ rfl
  refine Res.Rel.bind (R := fun a b => a.2 = b.2) ?_ ?_
  · unfold binSum
    refine Res.Rel.forFold_range (fun _ (a b : Fl α × PdfManager α) => a.2 = b.2) _ rfl ?_
    rintro i ⟨a, m⟩ ⟨b, n⟩ _ h
    simp only at h
    subst h
    unfold binStep
    simp only [hb]
    refine Res.Rel.bind (Res.Rel.of_eq rfl) ?_
    rintro p _ rfl
    refine Res.Rel.bind (Res.Rel.of_eq rfl) ?_
    rintro u _ rfl
    refine Res.Rel.bind (Res.Rel.of_eq rfl) ?_
    rintro n _ rfl
    exact rfl
  · rintro ⟨v, m⟩ ⟨v', m'⟩ h
    simp only at h
    subst h
    refine Res.Rel.bind (Res.Rel.of_eq rfl) ?_
    rintro ps _ rfl
    refine Res.Rel.bind (Res.Rel.of_eq rfl) ?_
    rintro c _ rfl
    exact rfl

/-! ### C33 -/

/-- A likelihood made by public calls leaves no more trace than itself. -/
theorem NLLH.trace_self {name : Nat → String} {C : FitSys σ α} {M : CMath α} {L : NLLH σ α} (hR : Reached name C M L) (hs : L.Settled)
    (cs : List (FitCall α)) (hobs : L.sys.countSystematics ≠ 0 ∨ L.SameObservables cs) :
    ∃ O log, (L.sys.countSystematics = 0 → ∀ c ∈ cs, c.HasObs O) ∧ Trace C O log L L := by
  have hi := inv_of_reached hR
  obtain ⟨log, hb⟩ := hi.built
  obtain ⟨O, hO, hd, hf⟩ : ∃ O, (L.sys.countSystematics = 0 → ∀ c ∈ cs, c.HasObs O) ∧
      (L.sys.countSystematics = 0 → ∀ d, L.effData = .ok d → d.obs.names = O) ∧
      (L.sys.countSystematics = 0 → ∀ o, L.pdfs.orig[0]? = some o → o.obs.names = O) := by
    rcases hobs with h0 | ⟨o, ho, hcal, hcs⟩
    · exact ⟨[], fun h => absurd h h0, fun h => absurd h h0, fun h => absurd h h0⟩
    · refine ⟨o.obs.names, fun _ => hcs, ?_, ?_⟩
      · intro _ d hd
        unfold effData at hd
        obtain ⟨_, _, hd⟩ := Res.bind_eq_ok.1 hd
        by_cases hc : L.calculated = true
        · rw [if_pos hc] at hd; cases hd; exact hcal hc
        · rw [if_neg hc] at hd
          obtain ⟨o', ho', hd⟩ := Res.bind_eq_ok.1 hd
          have : o' = o := by
            unfold at_ at ho'
            rw [ho] at ho'
            exact (Res.ok.inj ho').symm
          subst this
          cases hdata : L.data with
          | none => rw [hdata] at hd; cases hd
          | some D =>
            rw [hdata] at hd
            simp only at hd
            obtain ⟨⟨dist, log'⟩, hfill, hd⟩ := Res.bind_eq_ok.1 hd
            cases hd
            have := fillDistLog_obs hfill
            simp only at this
            rw [this]
      · intro _ o' ho'
        rw [ho] at ho'
        cases ho'
        rfl
  exact ⟨O, log, hO, ⟨rfl, rfl, rfl, hi.resp, hi.resp, fun p => .refl C _, rfl, rfl, rfl, rfl, rfl, hb, hb, hi.reg,
    .refl _, fun _ _ _ => rfl, fun _ _ => rfl, rfl, hs, hs, rfl, hd, hf⟩⟩

/-- C33 (partial): for any likelihood without buffers, after any calls that set data or parameters or evaluate, the next evaluation
gives the same value (or error) as if the calls had been made without the evaluations between them, provided there are systematics
or all data has the observables of the distributions. Missing: buffers, and data of other observables without systematics, for which
the claim is false (`C33_buffers_wrong`, `C33_observables_wrong`). -/
theorem C33_history_partial {name : Nat → String} {C : FitSys σ α} (hC : C.Refreshing) {M : CMath α} {L L₁ : NLLH σ α}
    (hR : Reached name C M L) (hbuf : L.shrinker.buffers = []) (cs : List (FitCall α))
    (hobs : L.sys.countSystematics ≠ 0 ∨ L.SameObservables cs) (h : L.fitCalls C M cs = .ok L₁) :
    ∃ L₂, L.fitCalls C M (cs.filter FitCall.notEvaluate) = .ok L₂ ∧ L₁.value C M = L₂.value C M := by
  obtain ⟨O, log, hO, ht⟩ := trace_self hR (.inl hbuf) cs hobs
  obtain ⟨L₂, h2, ht2⟩ := calls_trace hC cs hO ht h
  exact ⟨L₂, h2, Res.Rel.value (sim_eval M ht2.sim)⟩

/-- C33 (partial), one replacement: the value for data set after an evaluation is that of a likelihood which never evaluated.
Missing: as for `C33_history_partial`. -/
theorem C33_replaced_partial {name : Nat → String} {C : FitSys σ α} (hC : C.Refreshing) {M : CMath α} {L L' : NLLH σ α} {v : Fl α}
    (hR : Reached name C M L) (hbuf : L.shrinker.buffers = []) (d : BinnedED α)
    (hobs : L.sys.countSystematics ≠ 0 ∨ L.SameObservables [.setDataDist d]) (h : L.evaluate C M = .ok (v, L')) :
    (L'.setDataDist d).value C M = (L.setDataDist d).value C M := by
  obtain ⟨L₂, h2, hv⟩ := C33_history_partial hC hR hbuf [.evaluate, .setDataDist d]
    (hobs.imp id (fun ⟨o, h1, h2, h3⟩ => ⟨o, h1, h2, fun c hc => by
      rcases List.mem_cons.1 hc with rfl | hc
      · trivial
      · exact h3 c hc⟩)) (L₁ := L'.setDataDist d) (by
        unfold fitCalls
        refine Res.forFold_cons_eq_ok.2 ⟨L', ?_, rfl⟩
        unfold fitCall
        rw [h]; rfl)
  have : L₂ = L.setDataDist d := (Res.ok.inj h2).symm
  rw [hv, this]

/-! ### C31 -/

theorem PdfManager.getParameter_congr {log : List (BinnedED α × NormStatus)} {m n : PdfManager α} (h : PdfManager.Same m n)
    (hi : PdfManager.Inv log m) (k : String) : m.getParameter k = n.getParameter k := by
  unfold PdfManager.getParameter ParamManager.getParameter
  rw [← h.params]
  cases hk : SMap.find m.params k with
  | none => rfl
  | some r =>
    have hk' := hk
    rw [hi.params] at hk'
    obtain ⟨i, hr⟩ := PdfManager.regOf_refs _ _ hk'
    subst hr
    show Res.mapExc toParameterError (at_ (m.store.cont (PdfManager.slot m)) i) = Res.mapExc toParameterError (at_ (n.store.cont (PdfManager.slot m)) i)
    rw [h.cont]

theorem expectedRate_congr {value value' : String → α} {log : List (BinnedED α × NormStatus)}
    (h : ∀ n ∈ PdfLog.fitted log, value n = value' n) (work : List (BinnedED α)) (b : Nat) :
    expectedRate value log work b = expectedRate value' log work b := by
  unfold expectedRate
  congr 1
  refine List.map_congr_left ?_
  intro q hq
  congr 1
  unfold normOf
  by_cases hf : q.1.2.fittable = true
  · rw [if_pos hf, if_pos hf]
    exact h _ (List.mem_map.2 ⟨q.1, List.mem_filter.2 ⟨(List.of_mem_zip hq).1, hf⟩, rfl⟩)
  · rw [if_neg hf, if_neg hf]

/-- What the preparation keeps. -/
theorem NLLH.prepare_facts {C : FitSys σ α} {L P : NLLH σ α} {log : List (BinnedED α × NormStatus)}
    (hb : PdfManager.Built log L.pdfs) (h : L.prepare C = .ok P) :
    PdfManager.Built log P.pdfs ∧ PdfManager.Same P.pdfs L.pdfs ∧ P.useBB = L.useBB ∧ P.constraints = L.constraints := by
  unfold prepare at h
  obtain ⟨_, _, h⟩ := Res.bind_eq_ok.1 h
  obtain ⟨L1, h1, h⟩ := Res.bind_eq_ok.1 h
  obtain ⟨m, hm, h⟩ := Res.bind_eq_ok.1 h
  obtain ⟨L2, h2, h⟩ := Res.bind_eq_ok.1 h
  obtain ⟨so, h3, h⟩ := Res.bind_eq_ok.1 h
  obtain ⟨m2, h4, h⟩ := Res.bind_eq_ok.1 h
  obtain ⟨m3, h5, h⟩ := Res.bind_eq_ok.1 h
  obtain ⟨m4, h6, h⟩ := Res.bind_eq_ok.1 h
  cases h
  have e1 : L1.pdfs = L.pdfs ∧ L1.useBB = L.useBB ∧ L1.constraints = L.constraints := by
    by_cases hc : L.calculated = true
    · rw [if_pos hc] at h1; cases h1; exact ⟨rfl, rfl, rfl⟩
    · rw [if_neg hc] at h1
      unfold binData at h1
      obtain ⟨o, _, h1⟩ := Res.bind_eq_ok.1 h1
      cases hd : L.data with
      | none => rw [hd] at h1; cases h1
      | some d =>
        rw [hd] at h1
        simp only at h1
        obtain ⟨r, _, h1⟩ := Res.bind_eq_ok.1 h1
        cases h1; exact ⟨rfl, rfl, rfl⟩
  have e2 : L2.pdfs = m ∧ L2.useBB = L1.useBB ∧ L2.constraints = L1.constraints := by
    unfold shrinkData at h2
    split at h2
    · cases h2; exact ⟨rfl, rfl, rfl⟩
    · obtain ⟨s, _, h2⟩ := Res.bind_eq_ok.1 h2
      obtain ⟨d, _, h2⟩ := Res.bind_eq_ok.1 h2
      cases h2; exact ⟨rfl, rfl, rfl⟩
  rw [e1.1] at hm
  rw [e2.1] at h4
  have b1 := hb.reassertNorms false hm
  have b2 := b1.applySystematics _ h4
  have b3 := b2.assertDimensions _ h5
  have b4 := b3.applyShrink _ h6
  refine ⟨b4, ?_, e2.2.1.trans e1.2.1, e2.2.2.trans e1.2.2⟩
  have s1 := (PdfManager.reassert_facts hm).1
  have s2 := PdfManager.apply_same h4
  have s3 := (PdfManager.assert_facts h5).1
  have s4 := PdfManager.shrink_same (fun ha => PdfManager.Inv.all_direct (PdfManager.inv_of_built b3) ha) h6
  exact ((s4.trans s3).trans s2).trans s1

/-- The value of the likelihood from the expected rate in each bin. -/
theorem NLLH.value_given {C : FitSys σ ℝ} {L P : NLLH σ ℝ} {log : List (BinnedED ℝ × NormStatus)}
    (hb : PdfManager.Built log L.pdfs) (hbb : L.useBB = false) (hP : L.prepare C = .ok P)
    (hdata : P.dataDist.hist.contents.length = P.dataDist.hist.nBins) (mu : Nat → ℝ)
    (hrate : ∀ m, PdfManager.Built log m → m.work = P.pdfs.work → (∀ k, m.getParameter k = P.pdfs.getParameter k) →
      ∀ b, b < P.dataDist.hist.nBins → ∃ m', m.binProbability b = .ok (mu b, m') ∧ m'.work = m.work ∧ ∀ k, m'.getParameter k = m.getParameter k) :
    ((∃ b, b < P.dataDist.hist.nBins ∧ mu b = 0) → L.evaluate C CMath.real = .throw .runtime) ∧
    (∀ ps c, (∀ b, b < P.dataDist.hist.nBins → mu b ≠ 0) → P.getParameters C = .ok ps →
      L.constraints.evaluate ps = .ok c → ∃ L',
        L.evaluate C CMath.real = .ok (Fl.add (if ∀ b, b < P.dataDist.hist.nBins → 0 < mu b then
          some ((List.range P.dataDist.hist.nBins).map (fun b => poissonTerm (P.dataDist.hist.contents.getD b 0)
            (mu b))).sum else none) c, L')) := by
  classical
  obtain ⟨hbP, hsame, hbbP, hcP⟩ := prepare_facts hb hP
  set n := fun b => P.dataDist.hist.contents.getD b 0 with hn
  set N := P.dataDist.hist.nBins with hN
  -- one step
  have step : ∀ b, b < N → ∀ (acc : Fl ℝ) (m : PdfManager ℝ), PdfManager.Built log m → m.work = P.pdfs.work →
      (∀ k, m.getParameter k = P.pdfs.getParameter k) →
      ∃ m', (if mu b = 0 then binStep CMath.real P (acc, m) b = .throw .runtime
        else binStep CMath.real P (acc, m) b = .ok (addTerm CMath.real acc (n b) (some (mu b, 0)), m')) ∧
        PdfManager.Built log m' ∧ m'.work = P.pdfs.work ∧ ∀ k, m'.getParameter k = P.pdfs.getParameter k := by
    intro b hbN acc m hbm hw hk
    obtain ⟨m', e1, e2, e3⟩ := hrate m hbm hw hk b hbN
    refine ⟨m', ?_, hbm.binProbability b e1, e2.trans hw, fun k => (e3 k).trans (hk k)⟩
    have hcont : P.dataDist.hist.getBinContent b = .ok (n b) := by
      unfold Histogram.getBinContent
      rw [if_neg (by omega), idx_of_lt (by omega)]
      simp [hn, List.getD, show b < P.dataDist.hist.contents.length by omega]
    unfold binStep
    simp only
    rw [e1]
    simp only [Res.ok_bind]
    by_cases h0 : mu b = 0
    · rw [if_pos h0, Res.throwIf_true_of h0]; rfl
    · rw [if_neg h0, Res.throwIf_false_of h0]
      simp only [Res.ok_bind]
      rw [hcont]
      simp only [Res.ok_bind]
      rw [if_neg (by rw [hbbP, hbb]; decide)]
      rfl
  -- all bins
  have loop : ∀ k, k ≤ N →
      ((∃ b, b < k ∧ mu b = 0) → Res.forFold (binStep CMath.real P) (some 0, P.pdfs) (List.range k) = .throw .runtime) ∧
      ((∀ b, b < k → mu b ≠ 0) → ∃ m, Res.forFold (binStep CMath.real P) (some 0, P.pdfs) (List.range k) =
        .ok (if ∀ b, b < k → 0 < mu b then some ((List.range k).map (fun b => poissonTerm (n b) (mu b))).sum else none, m) ∧
        PdfManager.Built log m ∧ m.work = P.pdfs.work ∧ ∀ j, m.getParameter j = P.pdfs.getParameter j) := by
    intro k
    induction k with
    | zero =>
      intro _
      refine ⟨fun ⟨b, hb, _⟩ => by omega, fun _ => ⟨P.pdfs, ?_, hbP, rfl, fun _ => rfl⟩⟩
      simp [Res.forFold]
    | succ k ih =>
      intro hk
      obtain ⟨ih1, ih2⟩ := ih (by omega)
      rw [List.range_succ, Res.forFold_append]
      by_cases hz : ∃ b, b < k ∧ mu b = 0
      · rw [ih1 hz]
        refine ⟨fun _ => rfl, fun h => ?_⟩
        obtain ⟨b, hb1, hb2⟩ := hz
        exact absurd hb2 (h b (by omega))
      · push Not at hz
        obtain ⟨m, h1, h2, h3, h4⟩ := ih2 hz
        rw [h1]
        simp only [Res.bind]
        obtain ⟨m', g1, g2, g3, g4⟩ := step k (by omega) _ m h2 h3 h4
        refine ⟨?_, ?_⟩
        · rintro ⟨b, hb1, hb2⟩
          have : b = k := by
            by_contra hne
            exact hz b (by omega) hb2
          subst this
          rw [if_pos hb2] at g1
          simp only [Res.forFold]
          rw [g1]
        · intro hall
          rw [if_neg (hall k (by omega))] at g1
          refine ⟨m', ?_, g2, g3, g4⟩
          simp only [Res.forFold]
          rw [g1]
          simp only
          congr 2
          by_cases hpos : ∀ b, b < k → 0 < mu b
          · rw [if_pos hpos]
            unfold addTerm
            simp only [CMath.real]
            by_cases hpk : 0 < mu k
            · rw [if_neg (not_le.2 hpk), if_pos (by
                intro b hb
                rcases Nat.lt_succ_iff_lt_or_eq.1 hb with h | h
                · exact hpos b h
                · exact h ▸ hpk)]
              simp only [List.map_append, List.map_cons, List.map_nil, List.sum_append, List.sum_cons, List.sum_nil, poissonTerm]
              congr 1
              ring
            · rw [if_pos (not_lt.1 hpk), if_neg (fun h => hpk (h k (by omega)))]
          · rw [if_neg hpos, if_neg (fun h => hpos (fun b hb => h b (by omega)))]
            rfl
  obtain ⟨l1, l2⟩ := loop N le_rfl
  unfold evaluate
  rw [hP]
  simp only [Res.ok_bind]
  refine ⟨fun h => ?_, ?_⟩
  · rw [l1 h]; rfl
  · intro ps c hne hps hc
    obtain ⟨m, h1, h2, h3, h4⟩ := l2 hne
    rw [h1]
    simp only [Res.ok_bind]
    have hbs : P.binSum CMath.real P.dataDist P.pdfs = .ok (if ∀ b, b < N → 0 < mu b then
        some ((List.range N).map (fun b => poissonTerm (n b) (mu b))).sum else none, m) := h1
    obtain ⟨_, hsm, _⟩ := binSum_facts hbP hbs
    have hg : ({ P with pdfs := m } : NLLH σ ℝ).getParameters C = P.getParameters C :=
      getParameters_sim rfl hsm (PdfManager.inv_of_built h2) (fun p => .refl C _)
    rw [hg, hps]
    simp only [Res.ok_bind]
    rw [hcP, hc]
    exact ⟨_, rfl⟩

/-- C31 (partial): after any history, without Barlow-Beeston, the value is the sum over the data's bins of `mu - n log mu` plus the
constraint term, where `mu` is the expected rate from the current parameter values and the working distributions (`P` is the object
when the loop over bins starts; the working distributions are the subject of C25, C29, C30); a bin of rate 0 makes it throw; a bin of
negative rate makes it not finite. Missing: fitted distributions with equal names, or an indirectly fitted one added before a directly
fitted one (`C27_order_wrong`, `C28_duplicate_wrong`), and Barlow-Beeston (C32). -/
theorem C31_value_partial {C : FitSys σ ℝ} {L P : NLLH σ ℝ} {log : List (BinnedED ℝ × NormStatus)}
    (hb : PdfManager.Built log L.pdfs) (hbb : L.useBB = false) (hd : PdfLog.DistinctNames log)
    (ho : PdfLog.Before .direct .indirect log) (hP : L.prepare C = .ok P)
    (hdata : P.dataDist.hist.contents.length = P.dataDist.hist.nBins)
    (hdim : ∀ w ∈ P.pdfs.work, P.dataDist.hist.nBins ≤ w.hist.nBins ∧ w.hist.contents.length = w.hist.nBins)
    (value : String → ℝ) (hval : ∀ n ∈ PdfLog.fitted log, L.pdfs.getParameter n = .ok (value n)) :
    ((∃ b, b < P.dataDist.hist.nBins ∧ expectedRate value log P.pdfs.work b = 0) → L.evaluate C CMath.real = .throw .runtime) ∧
    (∀ ps c, (∀ b, b < P.dataDist.hist.nBins → expectedRate value log P.pdfs.work b ≠ 0) → P.getParameters C = .ok ps →
      L.constraints.evaluate ps = .ok c → ∃ L',
        L.evaluate C CMath.real = .ok (Fl.add (if ∀ b, b < P.dataDist.hist.nBins → 0 < expectedRate value log P.pdfs.work b then
          some ((List.range P.dataDist.hist.nBins).map (fun b => poissonTerm (P.dataDist.hist.contents.getD b 0)
            (expectedRate value log P.pdfs.work b))).sum else none) c, L')) := by
  obtain ⟨hbP, hsame, _, _⟩ := prepare_facts hb hP
  refine NLLH.value_given hb hbb hP hdata (expectedRate value log P.pdfs.work) ?_
  intro m hbm hw hk b hbN
  obtain ⟨v', hv', m', e1, e2, e3⟩ := C27_bin_rate_partial hbm hd ho b (fun w hw' => by
    have := hdim w (hw ▸ hw')
    exact ⟨by omega, this.2⟩)
  have hveq : expectedRate v' log m.work b = expectedRate value log P.pdfs.work b := by
    rw [hw]
    refine expectedRate_congr (fun k hk' => ?_) _ _
    have := hv' k hk'
    rw [hk k, PdfManager.getParameter_congr hsame (PdfManager.inv_of_built hbP) k, hval k hk'] at this
    exact (Res.ok.inj this).symm
  rw [hveq] at e1
  exact ⟨m', e1, e2, e3⟩

/-- What `configured` makes. -/
theorem NLLH.configured_facts {name : Nat → String} {C : FitSys σ α} {objs : Nat → σ} {log : List (BinnedED α × NormStatus)}
    {cons : ConstraintManager α} {ps : ParamDict α} {d : BinnedED α} (hd : PdfLog.DistinctNames log) (hne : ps ≠ [])
    (hall : ∀ n ∈ PdfLog.fitted log, (SMap.find ps n).isSome) :
    ∃ L, NLLH.configured name C objs log cons ps d = .ok L ∧ PdfManager.Built log L.pdfs ∧ L.pdfs.work = log.map (·.1) ∧
      (∀ n ∈ PdfLog.fitted log, ∀ v, SMap.find ps n = some v → L.pdfs.getParameter n = .ok v) ∧ L.useBB = false ∧
      L.shrinker.buffers = [] ∧ L.sys.countSystematics = 0 ∧ L.dataDist = d ∧ L.calculated = true ∧ L.constraints = cons ∧
      L.components = [.pdfs] := by
  have add : ∀ (l : List (BinnedED α × NormStatus)) (L : NLLH σ α) (l0 : List (BinnedED α × NormStatus)),
      PdfManager.Built l0 L.pdfs → L.pdfs.work = l0.map (·.1) → L.useBB = false → L.shrinker.buffers = [] →
      L.sys.groups = [("", [])] →
      ∃ L', Res.forFold (fun (L : NLLH σ α) (p : BinnedED α × NormStatus) => L.addPdf name p.1 none none p.2) L l = .ok L' ∧
        PdfManager.Built (l0 ++ l) L'.pdfs ∧ L'.pdfs.work = (l0 ++ l).map (·.1) ∧ L'.useBB = false ∧ L'.shrinker.buffers = [] ∧
        L'.sys.groups = [("", [])] := by
    intro l
    induction l with
    | nil => intro L l0 h1 h2 h3 h4 h5; exact ⟨L, rfl, by simpa using h1, by simpa using h2, h3, h4, h5⟩
    | cons p l ih =>
      intro L l0 h1 h2 h3 h4 h5
      obtain ⟨m, hm⟩ := addPdf_ok h1 p.1 p.2
      have hsys : L.sys.addDist name p.1.name [""] = .ok { L.sys with edGroups := L.sys.edGroups.insert p.1.name [""] } := by
        unfold SysManager.addDist SysManager.uniqueSystematics
        have : Res.forFold (L.sys.uniqueStep name) [] ([""] : List String).zipIdx = .ok [] := by
          simp only [List.zipIdx_cons, List.zipIdx_nil, Res.forFold]
          have : L.sys.uniqueStep name [] ("", 0) = .ok [] := by
            unfold SysManager.uniqueStep
            rw [h5]; rfl
          rw [this]
        rw [this]
        rfl
      have ha : L.addPdf name p.1 none none p.2 = .ok { L with pdfs := m, sys := { L.sys with edGroups := L.sys.edGroups.insert p.1.name [""] } } := by
        unfold NLLH.addPdf
        rw [Res.throwIf_false_of (by rw [h3]; simp), hm]
        simp only [Res.ok_bind, Option.getD_none]
        rw [hsys]
        rfl
      have hw : m.work = (l0 ++ [p]).map (·.1) := by
        unfold PdfManager.addPdf PdfManager.registerParameters at hm
        obtain ⟨ns, _, hm⟩ := Res.bind_eq_ok.1 hm
        obtain ⟨pp, _, hm⟩ := Res.bind_eq_ok.1 hm
        cases hm
        show L.pdfs.work ++ [p.1] = _
        rw [h2]; simp
      obtain ⟨L', g1, g2, g3, g4, g5, g6⟩ := ih { L with pdfs := m, sys := { L.sys with edGroups := L.sys.edGroups.insert p.1.name [""] } }
        (l0 ++ [p]) (h1.addPdf p.1 p.2 hm) hw h3 h4 h5
      refine ⟨L', Res.forFold_cons_eq_ok.2 ⟨_, ha, g1⟩, by simpa using g2, by simpa using g3, g4, g5, g6⟩
  obtain ⟨L1, e1, e2, e3, e4, e5, e6⟩ := add log (.new objs) [] .new rfl rfl rfl rfl
  rw [List.nil_append] at e2 e3
  obtain ⟨_, s1, s2⟩ := C28_set_get_partial e2 hd ps hall
  have hcomp : (({ L1 with constraints := cons } : NLLH σ α).registerFitComponents name).components = [.pdfs] := by
    unfold registerFitComponents
    simp only
    rw [e6]; rfl
  have hset : (({ L1 with constraints := cons } : NLLH σ α).registerFitComponents name).setParameters C ps =
      ({ ({ L1 with constraints := cons } : NLLH σ α).registerFitComponents name with pdfs := (L1.pdfs.setParameters ps).1 }, .ok ()) := by
    unfold setParameters
    rw [if_neg (by intro h; exact hne (List.length_eq_zero_iff.1 h)), hcomp]
    unfold setLoop setComponent
    simp only
    have : (({ L1 with constraints := cons } : NLLH σ α).registerFitComponents name).pdfs = L1.pdfs := rfl
    rw [this, s1]
    rfl
  refine ⟨({ ({ L1 with constraints := cons } : NLLH σ α).registerFitComponents name with pdfs := (L1.pdfs.setParameters ps).1 } : NLLH σ α).setDataDist d,
    ?_, e2.setParameters ps, ?_, s2, e4, e5, ?_, rfl, rfl, rfl, hcomp⟩
  · unfold NLLH.configured
    rw [e1]
    simp only [Res.ok_bind]
    rw [hset]
    rfl
  · exact (PdfManager.setParameters_congr (.refl _) (PdfManager.inv_of_built e2) (PdfManager.inv_of_built e2) ps).2.2.2.1.trans e3
  · show L1.sys.countSystematics = 0
    unfold SysManager.countSystematics
    rw [e6]; rfl

/-- The preparation of a configured likelihood changes neither distributions nor data. -/
theorem NLLH.configured_prepare {C : FitSys σ α} {L : NLLH σ α} {log : List (BinnedED α × NormStatus)}
    (hb : PdfManager.Built log L.pdfs) (hw : L.pdfs.work = log.map (·.1)) (hbuf : L.shrinker.buffers = [])
    (hc : L.sys.countSystematics = 0) (hcal : L.calculated = true) (hobs : ∀ p ∈ log, p.1.obs.names = L.dataDist.obs.names)
    (hd : PdfLog.DistinctNames log) :
    ∃ m sh, sh.buffers = [] ∧ m.work = log.map (·.1) ∧ L.pdfs.reassertNorms false = .ok m ∧
      L.prepare C = .ok { L with pdfs := m, shrinker := sh, alreadyShrunk := true } := by
  have hi := PdfManager.inv_of_built hb
  have hre : ∃ m, L.pdfs.reassertNorms false = .ok m := by
    by_cases ha : L.pdfs.allDirect = true
    · unfold PdfManager.reassertNorms
      rw [if_pos ha]; exact ⟨_, rfl⟩
    · obtain ⟨ns, h1, _⟩ := PdfManager.reassert_ok hi false (by simpa using ha) _ rfl
      exact ⟨_, h1⟩
  obtain ⟨m, hm⟩ := hre
  have hmw : m.work = log.map (·.1) := (PdfManager.reassert_facts hm).2.1.trans hw
  have hshr : ∃ sh, sh.buffers = [] ∧
      shrinkData { L with pdfs := m } = .ok { L with pdfs := m, shrinker := sh, alreadyShrunk := true } := by
    unfold shrinkData
    by_cases ha : L.alreadyShrunk = true
    · rw [if_pos ha]; exact ⟨_, hbuf, by rw [← ha]⟩
    · rw [if_neg ha]
      unfold Shrinker.setBinMap
      simp only
      rw [if_pos hbuf]
      simp only [Res.ok_bind]
      unfold Shrinker.shrinkDist
      rw [if_pos hbuf]
      exact ⟨_, hbuf, rfl⟩
  obtain ⟨sh, hsb, hshr⟩ := hshr
  have hass : m.assertDimensions L.dataDist.obs.names = .ok m := by
    unfold PdfManager.assertDimensions
    have : Res.traverse (fun (d : BinnedED α) => if d.obs.names ≠ L.dataDist.obs.names then d.marginalise L.dataDist.obs.names else pure d)
        m.work = .ok m.work := by
      have gen : ∀ l : List (BinnedED α), (∀ w ∈ l, w.obs.names = L.dataDist.obs.names) →
          Res.traverse (fun (d : BinnedED α) => if d.obs.names ≠ L.dataDist.obs.names then d.marginalise L.dataDist.obs.names else pure d)
            l = .ok l := by
        intro l
        induction l with
        | nil => intro _; rfl
        | cons w l ih =>
          intro hl
          unfold Res.traverse
          rw [if_neg (by rw [hl w (by simp)]; simp), ih (fun w hw => hl w (by simp [hw]))]
          rfl
      refine gen _ (fun w hw' => ?_)
      rw [hmw] at hw'
      obtain ⟨p, hp, rfl⟩ := List.mem_map.1 hw'
      exact hobs p hp
    rw [this]; rfl
  refine ⟨m, sh, hsb, hmw, hm, ?_⟩
  unfold prepare
  rw [Res.throwIf_false_of (by rw [hcal]; simp)]
  simp only [Res.ok_bind]
  rw [if_pos hcal]
  simp only [pure_bind]
  rw [hm]
  simp only [Res.ok_bind]
  rw [hshr]
  simp only [Res.ok_bind]
  unfold SysManager.construct
  rw [if_pos hc]
  simp only [pure_bind]
  unfold PdfManager.applySystematics
  rw [if_pos hc]
  simp only [Res.ok_bind]
  rw [hass]
  simp only [Res.ok_bind]
  unfold PdfManager.applyShrink
  rw [if_pos hsb]
  rfl

/-- What `GetParameters` of the distributions reports once every fitted normalisation has been set. -/
theorem PdfManager.getParameters_built {log : List (BinnedED α × NormStatus)} {m : PdfManager α} (h : PdfManager.Built log m)
    (hd : PdfLog.DistinctNames log) {ps : ParamDict α} (hs : SMap.Sorted ps)
    (hval : ∀ n ∈ PdfLog.fitted log, ∃ v, SMap.find ps n = some v ∧ m.getParameter n = .ok v) :
    m.getParameters = .ok (ps.filter (fun p => p.1 ∈ PdfLog.fitted log)) := by
  have hi := PdfManager.inv_of_built h
  have hkeys : ∀ n, n ∈ m.params.getParameterNames ↔ n ∈ PdfLog.fitted log := by
    intro n; rw [hi.params]; exact regOf_keys n
  have hfnone : ∀ n, n ∉ PdfLog.fitted log → m.params.find n = none := by
    intro n hn
    rw [SMap.find_none_iff]
    exact fun h => hn ((hkeys n).1 h)
  have hget : ∀ n r, m.params.find n = some r → ∃ v, SMap.find ps n = some v ∧ r.get m.store = .ok v := by
    intro n r hr
    have hn : n ∈ PdfLog.fitted log := by
      by_contra hn
      rw [hfnone n hn] at hr; cases hr
    obtain ⟨v, h1, h2⟩ := hval n hn
    refine ⟨v, h1, ?_⟩
    unfold PdfManager.getParameter ParamManager.getParameter at h2
    rw [hr] at h2
    simp only at h2
    cases hg : r.get m.store with
    | ok x => rw [hg] at h2; exact h2
    | throw e => rw [hg] at h2; cases h2
    | ub => rw [hg] at h2; cases h2
  have hsorted : m.params.Sorted := by rw [hi.params]; exact regOf_sorted _ _
  obtain ⟨g, g1, g2, _, g4, g5⟩ := ParamManager.getParameters_ok (α := α) hsorted (s := m.store) (by
    rintro ⟨n, r⟩ hp
    obtain ⟨v, _, h2⟩ := hget n r (SMap.find_of_mem hsorted hp)
    exact ⟨v, h2⟩)
  unfold PdfManager.getParameters
  rw [g1]
  congr 1
  refine SMap.ext g2 (hs.filter _) (fun k => ?_)
  have hfilter : SMap.find (ps.filter (fun p => p.1 ∈ PdfLog.fitted log)) k =
      if k ∈ PdfLog.fitted log then SMap.find ps k else none := by
    clear hval hget g4 g5 hs
    induction ps with
    | nil => simp [SMap.find]
    | cons p r ih =>
      rw [List.filter_cons]
      by_cases hp : p.1 ∈ PdfLog.fitted log
      · rw [if_pos (by simpa using hp)]
        obtain ⟨k', v⟩ := p
        simp only at hp
        rw [SMap.find_cons, SMap.find_cons, ih]
        by_cases hk : k' = k
        · subst hk; simp [hp]
        · simp [hk]
      · rw [if_neg (by simpa using hp)]
        obtain ⟨k', v⟩ := p
        simp only at hp
        rw [SMap.find_cons, ih]
        by_cases hk : k' = k
        · subst hk; simp [hp]
        · simp [hk]
  rw [hfilter]
  by_cases hk : k ∈ PdfLog.fitted log
  · rw [if_pos hk]
    cases hf : m.params.find k with
    | none => rw [SMap.find_none_iff] at hf; exact absurd ((hkeys k).2 hk) hf
    | some r =>
      obtain ⟨v, e1, e2⟩ := g4 k r hf
      obtain ⟨v', e3, e4⟩ := hget k r hf
      rw [e1, e3]
      rw [e2] at e4
      exact congrArg some (Res.ok.inj e4)
  · rw [if_neg hk]
    exact g5 k (hfnone k hk)

/-- A likelihood of distributions `log`, constraints `cons` and data `d`, without Barlow-Beeston, systematics or buffers. -/
structure NLLH.Simple (log : List (BinnedED α × NormStatus)) (cons : ConstraintManager α) (d : BinnedED α) (L : NLLH σ α) : Prop where
  built : PdfManager.Built log L.pdfs
  work : L.pdfs.work = log.map (·.1)
  bb : L.useBB = false
  buf : L.shrinker.buffers = []
  sys : L.sys.countSystematics = 0
  data : L.dataDist = d
  calced : L.calculated = true
  cons : L.constraints = cons
  comp : L.components = [.pdfs]

theorem NLLH.configured_simple {name : Nat → String} {C : FitSys σ α} {objs : Nat → σ} {log : List (BinnedED α × NormStatus)}
    {cons : ConstraintManager α} {ps : ParamDict α} {d : BinnedED α} (hd : PdfLog.DistinctNames log) (hne : ps ≠ [])
    (hall : ∀ n ∈ PdfLog.fitted log, (SMap.find ps n).isSome) :
    ∃ L, NLLH.configured name C objs log cons ps d = .ok L ∧ L.Simple log cons d ∧
      ∀ n ∈ PdfLog.fitted log, ∀ v, SMap.find ps n = some v → L.pdfs.getParameter n = .ok v := by
  obtain ⟨L, h1, hb, hw, hset, hbb, hbuf, hsys, hdd, hcal, hcons, hcomp⟩ :=
    NLLH.configured_facts (name := name) (C := C) (objs := objs) (cons := cons) (d := d) hd hne hall
  exact ⟨L, h1, ⟨hb, hw, hbb, hbuf, hsys, hdd, hcal, hcons, hcomp⟩, hset⟩

theorem NLLH.Simple.getParameters {log : List (BinnedED α × NormStatus)} {cons : ConstraintManager α} {d : BinnedED α}
    {L : NLLH σ α} (h : L.Simple log cons d) (C : FitSys σ α) (hd : PdfLog.DistinctNames log) {ps : ParamDict α} (hs : SMap.Sorted ps)
    (hval : ∀ n ∈ PdfLog.fitted log, ∃ v, SMap.find ps n = some v ∧ L.pdfs.getParameter n = .ok v) :
    L.getParameters C = .ok (ps.filter (fun p => p.1 ∈ PdfLog.fitted log)) := by
  unfold NLLH.getParameters
  rw [h.comp]
  simp only [Res.forFold, componentParameters]
  rw [PdfManager.getParameters_built h.built hd hs hval]
  simp only [Res.ok_bind]
  show Res.ok (SMap.insertAll [] _) = _
  congr 1
  exact SMap.ext (SMap.sorted_insertAll SMap.sorted_nil _) (hs.filter _) (fun k => by rw [SMap.find_insertAll]; rfl)

theorem NLLH.Simple.setParameters {log : List (BinnedED α × NormStatus)} {cons : ConstraintManager α} {d : BinnedED α}
    {L : NLLH σ α} (h : L.Simple log cons d) (C : FitSys σ α) (hd : PdfLog.DistinctNames log) {ps : ParamDict α} (hne : ps ≠ [])
    (hall : ∀ n ∈ PdfLog.fitted log, (SMap.find ps n).isSome) :
    (L.setParameters C ps).2 = .ok () ∧ (L.setParameters C ps).1.Simple log cons d ∧
      ∀ n ∈ PdfLog.fitted log, ∃ v, SMap.find ps n = some v ∧ (L.setParameters C ps).1.pdfs.getParameter n = .ok v := by
  obtain ⟨_, s1, s2⟩ := C28_set_get_partial h.built hd ps hall
  have hset : L.setParameters C ps = ({ L with pdfs := (L.pdfs.setParameters ps).1 }, .ok ()) := by
    unfold NLLH.setParameters
    rw [if_neg (by intro h; exact hne (List.length_eq_zero_iff.1 h)),
      show setLoop C ps L L.components = setLoop C ps L [.pdfs] from congrArg _ h.comp]
    unfold setLoop setComponent
    simp only
    rw [s1]
    rfl
  rw [hset]
  have hi := PdfManager.inv_of_built h.built
  refine ⟨rfl, ⟨h.built.setParameters ps, (PdfManager.setParameters_congr (.refl _) hi hi ps).2.2.2.1.trans h.work, h.bb, h.buf, h.sys,
    h.data, h.calced, h.cons, h.comp⟩, ?_⟩
  intro n hn
  obtain ⟨v, hv⟩ := Option.isSome_iff_exists.1 (hall n hn)
  exact ⟨v, hv, s2 n hn v hv⟩

theorem NLLH.Simple.evaluate {log : List (BinnedED ℝ × NormStatus)} {cons : ConstraintManager ℝ} {d : BinnedED ℝ}
    {L : NLLH σ ℝ} (h : L.Simple log cons d) (C : FitSys σ ℝ) (hd : PdfLog.DistinctNames log)
    (ho : PdfLog.Before .direct .indirect log) {ps : ParamDict ℝ} (hs : SMap.Sorted ps)
    (hval : ∀ n ∈ PdfLog.fitted log, ∃ v, SMap.find ps n = some v ∧ L.pdfs.getParameter n = .ok v)
    (hobs : ∀ p ∈ log, p.1.obs.names = d.obs.names ∧ p.1.hist.nBins = d.hist.nBins ∧ p.1.hist.contents.length = d.hist.nBins)
    (hdl : d.hist.contents.length = d.hist.nBins)
    (hpos : ∀ b, b < d.hist.nBins → 0 < expectedRate (fun n => (SMap.find ps n).getD 0) log (log.map (·.1)) b) {c : Fl ℝ}
    (hc : cons.evaluate (ps.filter (fun p => p.1 ∈ PdfLog.fitted log)) = .ok c) :
    ∃ L', L.evaluate C CMath.real = .ok (Fl.add (some (binnedNLL (fun n => (SMap.find ps n).getD 0) log d)) c, L') ∧
      L'.Simple log cons d ∧ ∀ n ∈ PdfLog.fitted log, ∃ v, SMap.find ps n = some v ∧ L'.pdfs.getParameter n = .ok v := by
  obtain ⟨m, sh, hsb, p1, _, hP⟩ := NLLH.configured_prepare (C := C) h.built h.work h.buf h.sys h.calced
    (by rw [h.data]; exact fun p hp => (hobs p hp).1) hd
  obtain ⟨hbP, hsame, _, _⟩ := prepare_facts h.built hP
  simp only at hbP hsame
  have hSP : ({ L with pdfs := m, shrinker := sh, alreadyShrunk := true } : NLLH σ ℝ).Simple log cons d :=
    ⟨hbP, p1, h.bb, hsb, h.sys, h.data, h.calced, h.cons, h.comp⟩
  have hvalm : ∀ n ∈ PdfLog.fitted log, ∃ v, SMap.find ps n = some v ∧ m.getParameter n = .ok v := by
    intro n hn
    obtain ⟨v, e1, e2⟩ := hval n hn
    exact ⟨v, e1, (PdfManager.getParameter_congr hsame (PdfManager.inv_of_built hbP) n).trans e2⟩
  have hgp := hSP.getParameters C hd hs hvalm
  have main := C31_value_partial h.built h.bb hd ho hP (by
      show L.dataDist.hist.contents.length = L.dataDist.hist.nBins
      rw [h.data]; exact hdl) (by
    intro w hw'
    have hw'' : w ∈ m.work := hw'
    rw [p1] at hw''
    obtain ⟨p, hp, rfl⟩ := List.mem_map.1 hw''
    obtain ⟨_, e2, e3⟩ := hobs p hp
    show L.dataDist.hist.nBins ≤ _ ∧ _
    rw [h.data]
    exact ⟨e2.ge, e3.trans e2.symm⟩) (fun n => (SMap.find ps n).getD 0) (by
      intro n hn
      obtain ⟨v, e1, e2⟩ := hval n hn
      rw [e2, e1]; rfl)
  simp only at main
  rw [p1, h.data, h.cons] at main
  obtain ⟨L', hL'⟩ := main.2 _ c (fun b hb => (hpos b hb).ne') hgp hc
  rw [if_pos hpos] at hL'
  refine ⟨L', hL', ?_⟩
  unfold NLLH.evaluate at hL'
  rw [hP] at hL'
  simp only [Res.ok_bind] at hL'
  obtain ⟨⟨v, m'⟩, e1, hL'⟩ := Res.bind_eq_ok.1 hL'
  obtain ⟨g, e2, hL'⟩ := Res.bind_eq_ok.1 hL'
  obtain ⟨c', e3, hL'⟩ := Res.bind_eq_ok.1 hL'
  have hLe := (Prod.mk.inj (Res.ok.inj hL')).2
  simp only at hLe
  have hbs : ({ L with pdfs := m, shrinker := sh, alreadyShrunk := true } : NLLH σ ℝ).binSum CMath.real L.dataDist m = .ok (v, m') := e1
  obtain ⟨b1, b2, b3, _⟩ := binSum_facts hbP hbs
  simp only at b1 b2 b3
  rw [← hLe]
  refine ⟨⟨b1, b3.trans p1, h.bb, hsb, h.sys, h.data, h.calced, h.cons, h.comp⟩, ?_⟩
  intro n hn
  obtain ⟨v', e1', e2'⟩ := hvalm n hn
  exact ⟨v', e1', (PdfManager.getParameter_congr b2 (PdfManager.inv_of_built b1) n).trans e2'⟩

/-- C31 (partial), from the configuration to the value: distributions added to a new likelihood, all in the data's observables and
binning, no systematics, no buffers, constraints, the fit components registered, the parameters and the data set. Then every step
succeeds and the evaluation returns the Poisson sum over the data's bins at those parameters plus the constraint term at the fitted
ones. Missing: fitted distributions with equal names, or an indirectly fitted one added before a directly fitted one
(`C27_order_wrong`, `C28_duplicate_wrong`). -/
theorem C31_configured_partial {name : Nat → String} {C : FitSys σ ℝ} {objs : Nat → σ} {log : List (BinnedED ℝ × NormStatus)}
    {cons : ConstraintManager ℝ} {ps : ParamDict ℝ} {d : BinnedED ℝ} {c : Fl ℝ} (hd : PdfLog.DistinctNames log)
    (ho : PdfLog.Before .direct .indirect log) (hne : ps ≠ []) (hs : SMap.Sorted ps)
    (hall : ∀ n ∈ PdfLog.fitted log, (SMap.find ps n).isSome)
    (hobs : ∀ p ∈ log, p.1.obs.names = d.obs.names ∧ p.1.hist.nBins = d.hist.nBins ∧ p.1.hist.contents.length = d.hist.nBins)
    (hdl : d.hist.contents.length = d.hist.nBins)
    (hpos : ∀ b, b < d.hist.nBins → 0 < expectedRate (fun n => (SMap.find ps n).getD 0) log (log.map (·.1)) b)
    (hc : cons.evaluate (ps.filter (fun p => p.1 ∈ PdfLog.fitted log)) = .ok c) :
    ∃ L L', NLLH.configured name C objs log cons ps d = .ok L ∧
      L.evaluate C CMath.real = .ok (Fl.add (some (binnedNLL (fun n => (SMap.find ps n).getD 0) log d)) c, L') := by
  obtain ⟨L, h1, hS, hset⟩ := NLLH.configured_simple (name := name) (C := C) (objs := objs) (cons := cons) (d := d) hd hne hall
  obtain ⟨L', h2, _⟩ := hS.evaluate C hd ho hs (fun n hn => by
    obtain ⟨v, hv⟩ := Option.isSome_iff_exists.1 (hall n hn)
    exact ⟨v, hv, hset n hn v hv⟩) hobs hdl hpos hc
  exact ⟨L, L', h1, h2⟩

/-- C31 (partial): the value does not depend on the order in which the distributions are added. Missing: as in
`C31_configured_partial`. -/
theorem C31_order_partial {name name' : Nat → String} {C : FitSys σ ℝ} {objs objs' : Nat → σ} {log log' : List (BinnedED ℝ × NormStatus)}
    {cons : ConstraintManager ℝ} {ps : ParamDict ℝ} {d : BinnedED ℝ} {c : Fl ℝ} (hd : PdfLog.DistinctNames log)
    (ho : PdfLog.Before .direct .indirect log) (ho' : PdfLog.Before .direct .indirect log') (hperm : log ~ log')
    (hne : ps ≠ []) (hs : SMap.Sorted ps)
    (hall : ∀ n ∈ PdfLog.fitted log, (SMap.find ps n).isSome)
    (hobs : ∀ p ∈ log, p.1.obs.names = d.obs.names ∧ p.1.hist.nBins = d.hist.nBins ∧ p.1.hist.contents.length = d.hist.nBins)
    (hdl : d.hist.contents.length = d.hist.nBins)
    (hpos : ∀ b, b < d.hist.nBins → 0 < expectedRate (fun n => (SMap.find ps n).getD 0) log (log.map (·.1)) b)
    (hc : cons.evaluate (ps.filter (fun p => p.1 ∈ PdfLog.fitted log)) = .ok c) :
    ∃ v L L₁ L' L₁', NLLH.configured name C objs log cons ps d = .ok L ∧ L.evaluate C CMath.real = .ok (v, L₁) ∧
      NLLH.configured name' C objs' log' cons ps d = .ok L' ∧ L'.evaluate C CMath.real = .ok (v, L₁') := by
  have hfit : PdfLog.fitted log ~ PdfLog.fitted log' := by
    unfold PdfLog.fitted
    exact (hperm.filter _).map _
  have hrate : ∀ b, expectedRate (fun n => (SMap.find ps n).getD 0) log (log.map (·.1)) b =
      expectedRate (fun n => (SMap.find ps n).getD 0) log' (log'.map (·.1)) b := by
    intro b
    have gen : ∀ l : List (BinnedED ℝ × NormStatus), l.zip (l.map (·.1)) = l.map (fun p => (p, p.1)) := by
      intro l
      induction l with
      | nil => rfl
      | cons p l ih => simp [ih]
    unfold expectedRate
    rw [gen, gen]
    exact ((hperm.map _).map _).sum_eq
  obtain ⟨L, L₁, h1, h2⟩ := C31_configured_partial (name := name) (C := C) (objs := objs) hd ho hne hs hall hobs hdl hpos hc
  have hfilt : ps.filter (fun p => p.1 ∈ PdfLog.fitted log) = ps.filter (fun p => p.1 ∈ PdfLog.fitted log') := by
    congr 1
    funext p
    exact decide_eq_decide.2 hfit.mem_iff
  obtain ⟨L', L₁', h3, h4⟩ := C31_configured_partial (name := name') (C := C) (objs := objs') (log := log')
    (by unfold PdfLog.DistinctNames at hd ⊢; exact hfit.nodup_iff.1 hd) ho' hne hs (fun n hn => hall n (hfit.mem_iff.2 hn))
    (fun p hp => hobs p (hperm.mem_iff.2 hp)) hdl (fun b hb => by rw [← hrate]; exact hpos b hb) (by rw [← hfilt]; exact hc)
  refine ⟨_, L, L₁, L', L₁', h1, h2, h3, ?_⟩
  rw [h4]
  congr 4
  unfold binnedNLL
  congr 1
  refine List.map_congr_left (fun b _ => ?_)
  rw [hrate]

/-! ### Examples -/

/-- A distribution over unit bins with the given contents. -/
def exFitPdf (name : String) (axes : List (String × Nat)) (contents : List ℚ) : Res (BinnedED ℚ) := do
  let as ← Res.traverse (fun (p : String × Nat) => BinAxis.mkEqual p.1 (0 : ℚ) (p.2 : ℚ) p.2) axes
  let c ← (AxisCollection.empty : AxisCollection ℚ).addAxes as
  let h ← (Histogram.ofAxes c).setBinContents contents
  pure ⟨name, h, ObsSet.ofNames (axes.map (·.1))⟩

/-- A likelihood with one distribution, whose normalisation is `v` if fitted. -/
def exFit (bb : Bool) (pdf : BinnedED ℚ) (st : NormStatus) (bufs : List (String × Nat × Nat)) (v : ℚ) (d : BinnedED ℚ) :
    Res (NLLH (AnySys ℚ) ℚ) := do
  let L ← ((NLLH.new (fun _ => .renorm ⟨.new, none, []⟩) : NLLH (AnySys ℚ) ℚ).setBarlowBeeston bb).addPdf exSysName pdf none (some 100) st
  let L := bufs.foldl (fun (L : NLLH (AnySys ℚ) ℚ) b => L.setBuffer b.1 b.2.1 b.2.2) L
  pure (((L.registerFitComponents exSysName).setParameters AnySys.fit [(pdf.name, v)]).1.setDataDist d)

theorem exFit_reached {bb : Bool} {pdf : BinnedED ℚ} {st : NormStatus} {bufs : List (String × Nat × Nat)} {v : ℚ} {d : BinnedED ℚ}
    {L : NLLH (AnySys ℚ) ℚ} (h : exFit bb pdf st bufs v d = .ok L) (M : CMath ℚ) : Reached exSysName AnySys.fit M L := by
  unfold exFit at h
  obtain ⟨L1, h1, h⟩ := Res.bind_eq_ok.1 h
  cases h
  refine .setDataDist _ (.setParameters _ (.registerFitComponents ?_))
  have : ∀ (l : List (String × Nat × Nat)) (L : NLLH (AnySys ℚ) ℚ), Reached exSysName AnySys.fit M L →
      Reached exSysName AnySys.fit M (l.foldl (fun (L : NLLH (AnySys ℚ) ℚ) b => L.setBuffer b.1 b.2.1 b.2.2) L) := by
    intro l
    induction l with
    | nil => exact fun L h => h
    | cons b l ih => exact fun L h => ih _ (.setBuffer _ _ _ h)
  exact this _ _ (.addPdf _ _ _ _ (.setBarlowBeeston _ (.new _)) h1)

/-- Outcomes that can be compared. -/
def Res.excOf {β : Type} : Res β → Option Exc
  | .throw e => some e
  | _ => none

/-- A logarithm for examples in which its value plays no role, and a root that is right for squares of rationals. -/
def exMath : CMath ℚ := ⟨fun x => if x ≤ 0 then none else some 0, fun x => if x < 0 then none else some (Rat.sqrt x)⟩

/-- **C29 is false for buffers without systematics in more than one dimension.** A 3 × 3 distribution with one buffer bin on each
side of each axis: the first evaluation succeeds, the second throws DimensionError. -/
theorem C29_buffers_wrong (M : CMath ℚ) : ∃ L : NLLH (AnySys ℚ) ℚ, Reached exSysName AnySys.fit M L ∧
    ∃ v L', L.evaluate AnySys.fit M = .ok (v, L') ∧ L'.evaluate AnySys.fit M = .throw .dimension := by
  have hw : (exFitPdf "a" [("x", 3), ("y", 3)] [1, 1, 1, 1, 1, 1, 1, 1, 1] >>= fun pdf =>
      exFit false pdf .direct [("x", 1, 1), ("y", 1, 1)] 10 pdf >>= fun L =>
      L.evaluate AnySys.fit exMath >>= fun r => Res.ok (L.useBB, r.2.useBB, (r.2.evaluate AnySys.fit exMath).excOf)) =
      .ok (false, false, some .dimension) := by decide +kernel
  obtain ⟨pdf, _, hw⟩ := Res.bind_eq_ok.1 hw
  obtain ⟨L, hL, hw⟩ := Res.bind_eq_ok.1 hw
  obtain ⟨⟨v, L'⟩, h1, hw⟩ := Res.bind_eq_ok.1 hw
  have hw := Res.ok.inj hw
  simp only [Prod.mk.injEq] at hw
  obtain ⟨b1, b2, h2⟩ := hw
  refine ⟨L, exFit_reached hL M, ?_⟩
  have e1 := evaluate_indep (C := AnySys.fit) exMath M b1
  have e2 := evaluate_indep (C := AnySys.fit) exMath M b2
  obtain ⟨⟨v', L''⟩, h3, h4⟩ := Res.Rel.ok_left e1 h1
  simp only at h4
  subst h4
  refine ⟨v', L', h3, ?_⟩
  cases h5 : L'.evaluate AnySys.fit exMath with
  | ok r => rw [h5] at h2; cases h2
  | ub => rw [h5] at h2; cases h2
  | throw e =>
    rw [h5] at h2 e2
    cases h2
    cases h6 : L'.evaluate AnySys.fit M with
    | ok r => rw [h6] at e2; exact e2.elim
    | ub => rw [h6] at e2; exact e2.elim
    | throw e' => rw [h6] at e2; exact congrArg Res.throw e2.symm

/-- **C29 is false for Barlow-Beeston with buffers, an indirectly fitted distribution and no systematics**: the normalisation entering
the uncertainty is scaled down for the cut bins by the first evaluation only. No data, 4 bins, one buffer bin on each side: the two
values differ. -/
theorem C29_indirect_wrong : ∃ L : NLLH (AnySys ℚ) ℚ, Reached exSysName AnySys.fit exMath L ∧
    ∃ v v' L' L'', L.evaluate AnySys.fit exMath = .ok (some v, L') ∧ L'.evaluate AnySys.fit exMath = .ok (some v', L'') ∧ v ≠ v' := by
  have hw : (exFitPdf "a" [("x", 4)] [1/4, 1/4, 1/4, 1/4] >>= fun pdf => exFitPdf "d" [("x", 4)] [0, 0, 0, 0] >>= fun d =>
      exFit true pdf .indirect [("x", 1, 1)] 10 d >>= fun L =>
      L.evaluate AnySys.fit exMath >>= fun r => r.2.evaluate AnySys.fit exMath >>= fun r' => Res.ok (r.1, r'.1)) =
      .ok (some (99/20), some (49/10)) := by decide +kernel
  obtain ⟨pdf, _, hw⟩ := Res.bind_eq_ok.1 hw
  obtain ⟨d, _, hw⟩ := Res.bind_eq_ok.1 hw
  obtain ⟨L, hL, hw⟩ := Res.bind_eq_ok.1 hw
  obtain ⟨⟨v, L'⟩, h1, hw⟩ := Res.bind_eq_ok.1 hw
  obtain ⟨⟨v', L''⟩, h2, hw⟩ := Res.bind_eq_ok.1 hw
  have hw := Res.ok.inj hw
  simp only [Prod.mk.injEq] at hw
  obtain ⟨rfl, rfl⟩ := hw
  exact ⟨L, exFit_reached hL exMath, _, _, L', L'', h1, h2, by norm_num⟩

/-- What the two C33 witnesses below share: evaluate, set new data, evaluate fails; a likelihood that never evaluated succeeds. -/
theorem replaced_fails {L : NLLH (AnySys ℚ) ℚ} {d : BinnedED ℚ} (M : CMath ℚ)
    (hw : (L.evaluate AnySys.fit exMath >>= fun r => (L.setDataDist d).evaluate AnySys.fit exMath >>= fun r2 =>
      Res.ok (L.useBB, r.2.useBB, ((r.2.setDataDist d).evaluate AnySys.fit exMath).isOk)) = .ok (false, false, false)) :
    ∃ v L', L.evaluate AnySys.fit M = .ok (v, L') ∧ ((L'.setDataDist d).evaluate AnySys.fit M).isOk = false ∧
      ∃ v' L'', (L.setDataDist d).evaluate AnySys.fit M = .ok (v', L'') := by
  obtain ⟨⟨v, L'⟩, h1, hw⟩ := Res.bind_eq_ok.1 hw
  obtain ⟨⟨v2, L2⟩, h2, hw⟩ := Res.bind_eq_ok.1 hw
  have hw := Res.ok.inj hw
  simp only [Prod.mk.injEq] at hw
  obtain ⟨b1, b2, h3⟩ := hw
  have e1 := evaluate_indep (C := AnySys.fit) exMath M b1
  have e2 := evaluate_indep (C := AnySys.fit) exMath M (show (L.setDataDist d).useBB = false from b1)
  have e3 := evaluate_indep (C := AnySys.fit) exMath M (show (L'.setDataDist d).useBB = false from b2)
  obtain ⟨⟨v', L''⟩, h5, h4⟩ := Res.Rel.ok_left e1 h1
  simp only at h4
  subst h4
  obtain ⟨⟨v3, L3⟩, h6, _⟩ := Res.Rel.ok_left e2 h2
  refine ⟨v', L', h5, ?_, v3, L3, h6⟩
  cases h8 : (L'.setDataDist d).evaluate AnySys.fit M with
  | ok r =>
    cases h7 : (L'.setDataDist d).evaluate AnySys.fit exMath with
    | ok r' => rw [h7] at h3; cases h3
    | ub => rw [h7, h8] at e3; exact e3.elim
    | throw e => rw [h7, h8] at e3; exact e3.elim
  | ub => rfl
  | throw e' => rfl

/-- **C33 is false with buffers**: data set after an evaluation is not shrunk, and the evaluation reads past the end of the
working distribution; the same data set before the first evaluation is accepted. -/
theorem C33_buffers_wrong (M : CMath ℚ) : ∃ (L : NLLH (AnySys ℚ) ℚ) (d : BinnedED ℚ), Reached exSysName AnySys.fit M L ∧
    ∃ v L', L.evaluate AnySys.fit M = .ok (v, L') ∧ ((L'.setDataDist d).evaluate AnySys.fit M).isOk = false ∧
      ∃ v' L'', (L.setDataDist d).evaluate AnySys.fit M = .ok (v', L'') := by
  have hw : (exFitPdf "a" [("x", 4)] [1/4, 1/4, 1/4, 1/4] >>= fun pdf => exFitPdf "d" [("x", 4)] [1, 2, 3, 4] >>= fun d =>
      exFit false pdf .direct [("x", 1, 1)] 10 d >>= fun L => L.evaluate AnySys.fit exMath >>= fun r =>
      (L.setDataDist d).evaluate AnySys.fit exMath >>= fun r2 =>
      Res.ok (L.useBB, r.2.useBB, ((r.2.setDataDist d).evaluate AnySys.fit exMath).isOk)) = .ok (false, false, false) := by
    decide +kernel
  obtain ⟨pdf, _, hw⟩ := Res.bind_eq_ok.1 hw
  obtain ⟨d, _, hw⟩ := Res.bind_eq_ok.1 hw
  obtain ⟨L, hL, hw⟩ := Res.bind_eq_ok.1 hw
  exact ⟨L, d, exFit_reached hL M, replaced_fails M hw⟩

/-- **C33 is false for data in other observables without systematics**: after fitting the `x` projection of a 2 × 2 distribution, data
in `y` is refused, because the working distribution was projected; a likelihood which never evaluated accepts it. -/
theorem C33_observables_wrong (M : CMath ℚ) : ∃ (L : NLLH (AnySys ℚ) ℚ) (d : BinnedED ℚ), Reached exSysName AnySys.fit M L ∧
    ∃ v L', L.evaluate AnySys.fit M = .ok (v, L') ∧ ((L'.setDataDist d).evaluate AnySys.fit M).isOk = false ∧
      ∃ v' L'', (L.setDataDist d).evaluate AnySys.fit M = .ok (v', L'') := by
  have hw : (exFitPdf "a" [("x", 2), ("y", 2)] [1/4, 1/4, 1/4, 1/4] >>= fun pdf => exFitPdf "d" [("x", 2)] [1, 2] >>= fun d =>
      exFitPdf "d" [("y", 2)] [1, 2] >>= fun d' =>
      exFit false pdf .direct [] 10 d >>= fun L => L.evaluate AnySys.fit exMath >>= fun r =>
      (L.setDataDist d').evaluate AnySys.fit exMath >>= fun r2 =>
      Res.ok (L.useBB, r.2.useBB, ((r.2.setDataDist d').evaluate AnySys.fit exMath).isOk)) = .ok (false, false, false) := by
    decide +kernel
  obtain ⟨pdf, _, hw⟩ := Res.bind_eq_ok.1 hw
  obtain ⟨d, _, hw⟩ := Res.bind_eq_ok.1 hw
  obtain ⟨d', _, hw⟩ := Res.bind_eq_ok.1 hw
  obtain ⟨L, hL, hw⟩ := Res.bind_eq_ok.1 hw
  exact ⟨L, d', exFit_reached hL M, replaced_fails M hw⟩

/-- Non-vacuity of C29 and C33: a likelihood without buffers which evaluates. -/
example (M : CMath ℚ) : ∃ (L : NLLH (AnySys ℚ) ℚ) (d : BinnedED ℚ) (v : Fl ℚ) (L' : NLLH (AnySys ℚ) ℚ),
    Reached exSysName AnySys.fit M L ∧ L.shrinker.buffers = [] ∧ L.evaluate AnySys.fit M = .ok (v, L') ∧
    L.SameObservables [.setDataDist d] := by
  have hw : (exFitPdf "a" [("x", 2)] [1/4, 3/4] >>= fun pdf => exFitPdf "d" [("x", 2)] [3, 4] >>= fun d =>
      exFit false pdf .indirect [] 10 d >>= fun L => L.evaluate AnySys.fit exMath >>= fun r =>
      Res.ok (L.useBB, L.shrinker.buffers.length, L.pdfs.orig.map (·.obs.names), L.dataDist.obs.names, d.obs.names)) =
      .ok (false, 0, [["x"]], ["x"], ["x"]) := by decide +kernel
  obtain ⟨pdf, _, hw⟩ := Res.bind_eq_ok.1 hw
  obtain ⟨d, _, hw⟩ := Res.bind_eq_ok.1 hw
  obtain ⟨L, hL, hw⟩ := Res.bind_eq_ok.1 hw
  obtain ⟨⟨v, L'⟩, h1, hw⟩ := Res.bind_eq_ok.1 hw
  have hw := Res.ok.inj hw
  simp only [Prod.mk.injEq] at hw
  obtain ⟨b1, b2, b3, b4, b5⟩ := hw
  obtain ⟨⟨v', L''⟩, h2, h3⟩ := Res.Rel.ok_left (evaluate_indep (C := AnySys.fit) exMath M b1) h1
  refine ⟨L, d, v', L'', exFit_reached hL M, List.length_eq_zero_iff.1 b2, h2, ?_⟩
  cases ho : L.pdfs.orig with
  | nil => rw [ho] at b3; cases b3
  | cons o os =>
    rw [ho] at b3
    simp only [List.map_cons, List.cons.injEq] at b3
    refine ⟨o, by rw [ho]; rfl, fun _ => by rw [b4, b3.1], ?_⟩
    intro c hc
    rw [List.mem_singleton] at hc
    subst hc
    show d.obs.names = _
    rw [b5, b3.1]

/-- A likelihood with one distribution, a scale systematic on `x` and buffers. -/
def exFitScale (pdf : BinnedED ℚ) (st : NormStatus) (bufs : List (String × Nat × Nat)) (v f : ℚ) (d : BinnedED ℚ) :
    Res (NLLH (AnySys ℚ) ℚ) := do
  let L ← (NLLH.new (fun _ => .scale ⟨((AxisSys.new.setAxes pdf.hist.axes).setObs (.ofNames ["x"]) pdf.obs), ⟨"f", 1⟩⟩) :
    NLLH (AnySys ℚ) ℚ).addSystematic exSysName 0 none
  let L ← L.addPdf exSysName pdf none none st
  let L := bufs.foldl (fun (L : NLLH (AnySys ℚ) ℚ) b => L.setBuffer b.1 b.2.1 b.2.2) L
  pure (((L.registerFitComponents exSysName).setParameters AnySys.fit (SMap.insert pdf.name v [("f", f)])).1.setDataDist d)

/-- Non-vacuity of C29 with buffers: a two dimensional likelihood with a scale systematic which evaluates. -/
example (M : CMath ℚ) : ∃ (L : NLLH (AnySys ℚ) ℚ) (v : Fl ℚ) (L' : NLLH (AnySys ℚ) ℚ),
    Reached exSysName AnySys.fit M L ∧ L.sys.countSystematics ≠ 0 ∧ L.evaluate AnySys.fit M = .ok (v, L') ∧
    L.shrinker.buffers ≠ [] := by
  have hw : (exFitPdf "a" [("x", 4), ("y", 2)] [1, 1, 1, 1, 1, 1, 1, 1] >>= fun pdf =>
      exFitScale pdf .direct [("x", 1, 1)] 10 (11/10) pdf >>= fun L => L.evaluate AnySys.fit exMath >>= fun r =>
      Res.ok (L.useBB, L.shrinker.buffers.length, L.sys.countSystematics)) = .ok (false, 1, 1) := by decide +kernel
  obtain ⟨pdf, _, hw⟩ := Res.bind_eq_ok.1 hw
  obtain ⟨L, hL, hw⟩ := Res.bind_eq_ok.1 hw
  obtain ⟨⟨v, L'⟩, h1, hw⟩ := Res.bind_eq_ok.1 hw
  have hw := Res.ok.inj hw
  simp only [Prod.mk.injEq] at hw
  obtain ⟨b1, b2, b3⟩ := hw
  obtain ⟨⟨v', L''⟩, h2, h3⟩ := Res.Rel.ok_left (evaluate_indep (C := AnySys.fit) exMath M b1) h1
  refine ⟨L, v', L'', ?_, by rw [b3]; exact one_ne_zero, h2, fun h => by rw [h] at b2; cases b2⟩
  unfold exFitScale at hL
  obtain ⟨L1, e1, hL⟩ := Res.bind_eq_ok.1 hL
  obtain ⟨L2, e2, hL⟩ := Res.bind_eq_ok.1 hL
  cases hL
  exact .setDataDist _ (.setParameters _ (.registerFitComponents (.setBuffer _ _ _ (.addPdf _ _ _ _ (.addSystematic _ _ (.new _) e1) e2))))

/-- Non-vacuity of `C31_configured_partial` and `C31_order_partial`: a signal and a background on two bins, fitted normalisations 2 and
3, data 4 and 5, no constraints. -/
noncomputable def exRealPdf (name : String) (c c' : ℝ) : BinnedED ℝ :=
  ⟨name, ⟨⟨[⟨"x", "", 2, 0, 2, [0, 1], [1, 2], [1/2, 3/2], [1, 1]⟩], ["x"], [2], 2, 1⟩, [c, c'], 2, 1⟩, ObsSet.ofNames ["x"]⟩

example : ∃ (L L' : NLLH (AnySys ℝ) ℝ),
    NLLH.configured exSysName AnySys.fit (fun _ => .renorm ⟨.new, none, []⟩)
      [(exRealPdf "s" (1/2) (1/2), .direct), (exRealPdf "b" (1/4) (3/4), .indirect)]
      .empty [("b", 3), ("s", 2)] (exRealPdf "d" 4 5) = .ok L ∧
    L.evaluate AnySys.fit CMath.real = .ok (some ((7/4 - 4 * Real.log (7/4)) + (13/4 - 5 * Real.log (13/4))), L') := by
  have key := C31_configured_partial (name := exSysName) (C := AnySys.fit) (objs := fun _ => .renorm ⟨.new, none, []⟩)
    (log := [(exRealPdf "s" (1/2) (1/2), .direct), (exRealPdf "b" (1/4) (3/4), .indirect)])
    (cons := .empty) (ps := [("b", 3), ("s", 2)]) (d := exRealPdf "d" 4 5) (c := some 0)
    (by show (["s", "b"] : List String).Nodup; decide)
    (by show ([NormStatus.direct, NormStatus.indirect]).Pairwise _; decide) (by simp)
    (by show List.Pairwise _ _; simp only [List.pairwise_cons, List.mem_singleton, forall_eq, List.not_mem_nil, false_implies, implies_true, List.Pairwise.nil, and_true]; decide +kernel)
    (by intro n hn
        have : n ∈ (["s", "b"] : List String) := hn
        simp only [List.mem_cons, List.not_mem_nil, or_false] at this
        rcases this with rfl | rfl <;> rfl)
    (by intro p hp
        simp only [List.mem_cons, List.not_mem_nil, or_false] at hp
        rcases hp with rfl | rfl <;> exact ⟨rfl, rfl, rfl⟩)
    rfl
    (by intro b hb
        have : b < 2 := hb
        have hb' : b = 0 ∨ b = 1 := by omega
        rcases hb' with rfl | rfl <;> norm_num [expectedRate, normOf, exRealPdf, NormStatus.fittable, SMap.find, show ("b" : String) ≠ "s" by decide])
    rfl
  obtain ⟨L, L', h1, h2⟩ := key
  refine ⟨L, L', h1, ?_⟩
  rw [h2]
  congr 2
  show some (_ + (0 : ℝ)) = _
  congr 1
  show ((List.range 2).map _).sum + (0 : ℝ) = _
  simp [List.range_succ, expectedRate, normOf, exRealPdf, NormStatus.fittable, SMap.find, poissonTerm, show ("b" : String) ≠ "s" by decide]
  norm_num

end Oxsx
