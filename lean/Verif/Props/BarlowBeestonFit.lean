import Verif.Spec.BarlowBeeston
import Verif.Props.BarlowBeeston
import Verif.Props.LikelihoodSys
import Mathlib.Tactic.Positivity
/-
C32: the value of the whole likelihood with Barlow-Beeston.
-/
set_option linter.unusedSectionVars false
set_option linter.unusedSimpArgs false
set_option linter.unusedVariables false
namespace Oxsx
variable {σ α : Type} [Field α] [LinearOrder α]
open NLLH
open SysManager (Rel rel_exec rel_new applied_of_rel)

/-- Re-asserting twice is re-asserting once. -/
theorem PdfManager.reassert_again {log : List (BinnedED α × NormStatus)} {m m' : PdfManager α} (hb : PdfManager.Built log m) {b : Bool}
    (h : m.reassertNorms b = .ok m') : m'.reassertNorms b = .ok m' := by
  have hi := PdfManager.inv_of_built hb
  by_cases ha : m.allDirect = true
  · have : m.reassertNorms b = .ok m := by unfold PdfManager.reassertNorms; rw [if_pos ha]
    rw [this] at h
    cases h
    exact this
  · obtain ⟨ns, h1, h2, h3⟩ := PdfManager.reassert_ok hi b (by simpa using ha) _ rfl
    have hb' := hb.reassertNorms b h
    rw [h1] at h
    cases h
    have hi' := PdfManager.inv_of_built hb'
    obtain ⟨ns', g1, g2, g3⟩ := PdfManager.reassert_ok hi' b (by simpa using ha) _ rfl
    rw [g1]
    congr 2
    simp only at g2 g3
    refine List.ext_getElem? (fun i => ?_)
    by_cases hil : i < log.length
    · rw [g3 i hil, h3 i hil]
      by_cases hc : (log.map (·.2))[i]? = some (if b = true then NormStatus.direct else NormStatus.indirect)
      · rw [if_pos hc, if_pos hc]
      · rw [if_neg hc, if_neg hc]
    · have : ns.length = log.length := by rw [h2, hi.norms]
      rw [List.getElem?_eq_none (by omega), List.getElem?_eq_none (by omega)]

theorem NLLH.sigma2_ok {norms : List ℝ} {rates : List Nat} {mu : ℝ} (hl : norms.length ≤ rates.length) (hr : ∀ g ∈ rates, g ≠ 0)
    (hmu : mu ≠ 0) : sigma2 norms rates mu = .ok (some (bbVariance norms rates mu)) := by
  unfold sigma2
  obtain ⟨s, h1, h2⟩ := Res.forFold_range (f := sigma2Step norms rates mu) (n := norms.length) (s := (some 0 : Fl ℝ))
    (fun k (s : Fl ℝ) => s = some (((norms.zip rates).take k).map (fun p => p.1 / ((p.2 : ℝ) * mu ^ 2))).sum) (by simp) (by
      rintro k s hk rfl
      have hg : (rates[k] : ℝ) ≠ 0 := by
        exact_mod_cast hr _ (List.getElem_mem (by omega : k < rates.length))
      refine ⟨_, ?_, rfl⟩
      unfold sigma2Step
      rw [at_of_lt hk, at_of_lt (by omega : k < rates.length)]
      simp only [Res.ok_bind]
      have hz : (norms.zip rates)[k]? = some (norms[k], rates[k]) := by
        rw [List.getElem?_eq_getElem (by rw [List.length_zip]; omega)]
        simp
      rw [List.take_add_one, hz]
      simp only [Option.toList_some, List.map_append, List.map_cons, List.map_nil, List.sum_append, List.sum_cons, List.sum_nil, add_zero]
      unfold Fl.div
      rw [if_neg (mul_ne_zero (mul_ne_zero hg hmu) hmu)]
      show Res.ok (some _) = _
      rw [show (rates[k] : ℝ) * mu * mu = rates[k] * mu ^ 2 by ring])
  rw [h1, h2]
  unfold bbVariance
  rw [List.take_of_length_le (by rw [List.length_zip]; omega)]

/-- One bin. -/
theorem NLLH.bb_profiled {n mu s : ℝ} (hn : 0 ≤ n) (hmu : 0 < mu) (hs : 0 < s) (hlt : mu * s < 1) : ∃ beta : ℝ, 0 < beta ∧
    barlowBeeston CMath.real n mu (some s) = .ok (some (beta * mu, (beta - 1) * (beta - 1) / (2 * s))) ∧
    IsProfiled n mu s (poissonTerm n (beta * mu) + (beta - 1) ^ 2 / (2 * s)) := by
  rcases hn.lt_or_eq with hn | rfl
  · obtain ⟨beta, h1, h2, h3⟩ := C32_minimises_partial hs hn hmu hlt
    exact ⟨beta, h1, h2, ⟨beta, h1, rfl⟩, by rintro x ⟨b', hb', rfl⟩; exact h3 b' hb'⟩
  · refine ⟨1 - mu * s, by linarith, ?_, ⟨1 - mu * s, by linarith, rfl⟩, ?_⟩
    · rw [C32_no_data hs hlt]
      congr 4
      ring
    · rintro x ⟨b', hb', rfl⟩
      unfold poissonTerm
      have key : b' * mu + (b' - 1) ^ 2 / (2 * s) - ((1 - mu * s) * mu + (1 - mu * s - 1) ^ 2 / (2 * s)) =
          (b' - (1 - mu * s)) ^ 2 / (2 * s) := by
        field_simp
        ring
      have : 0 ≤ (b' - (1 - mu * s)) ^ 2 / (2 * s) := by positivity
      linarith

theorem NLLH.prepare_rates {C : FitSys σ α} {L P : NLLH σ α} (h : L.prepare C = .ok P) : P.genRates = L.genRates := by
  unfold prepare at h
  obtain ⟨_, _, h⟩ := Res.bind_eq_ok.1 h
  obtain ⟨L1, h1, h⟩ := Res.bind_eq_ok.1 h
  obtain ⟨m, hm, h⟩ := Res.bind_eq_ok.1 h
  obtain ⟨L2, h2, h⟩ := Res.bind_eq_ok.1 h
  obtain ⟨so, h3, h⟩ := Res.bind_eq_ok.1 h
  obtain ⟨m2, h4, h⟩ := Res.bind_eq_ok.1 h
  obtain ⟨m3, h5, h⟩ := Res.bind_eq_ok.1 h
  obtain ⟨m4, h6, h⟩ := Res.bind_eq_ok.1 h
  cases h
  have e1 : L1.genRates = L.genRates := by
    by_cases hc : L.calculated = true
    · rw [if_pos hc] at h1; cases h1; rfl
    · rw [if_neg hc] at h1
      unfold binData at h1
      obtain ⟨o, _, h1⟩ := Res.bind_eq_ok.1 h1
      cases hd : L.data with
      | none => rw [hd] at h1; cases h1
      | some d =>
        rw [hd] at h1
        simp only at h1
        obtain ⟨r, _, h1⟩ := Res.bind_eq_ok.1 h1
        cases h1; rfl
  have e2 : L2.genRates = L1.genRates := by
    unfold shrinkData at h2
    split at h2
    · cases h2; rfl
    · obtain ⟨s, _, h2⟩ := Res.bind_eq_ok.1 h2
      obtain ⟨d, _, h2⟩ := Res.bind_eq_ok.1 h2
      cases h2; rfl
  exact e2.trans e1

/-- One bin of the loop, from a prepared likelihood: the manager is left with its normalisations re-asserted. -/
theorem NLLH.bb_step {P : NLLH σ ℝ} {log : List (BinnedED ℝ × NormStatus)} (hb : PdfManager.Built log P.pdfs) (hbb : P.useBB = true)
    (hd : PdfLog.DistinctNames log) (ho : PdfLog.Before .direct .indirect log)
    (hdata : P.dataDist.hist.contents.length = P.dataDist.hist.nBins)
    (hdim : ∀ w ∈ P.pdfs.work, P.dataDist.hist.nBins ≤ w.hist.nBins ∧ w.hist.contents.length = w.hist.nBins)
    (value : String → ℝ) (hval : ∀ n ∈ PdfLog.fitted log, P.pdfs.getParameter n = .ok (value n))
    (hrl : log.length ≤ P.genRates.length) (hr : ∀ g ∈ P.genRates, g ≠ 0)
    (hmu : ∀ b, b < P.dataDist.hist.nBins → 0 < expectedRate value log P.pdfs.work b) :
    ∃ m1, P.pdfs.reassertNorms true = .ok m1 ∧ ∀ b, b < P.dataDist.hist.nBins → ∀ acc m, (m = P.pdfs ∨ m = m1) →
      binStep CMath.real P (acc, m) b =
      (barlowBeeston CMath.real (P.dataDist.hist.contents.getD b 0) (expectedRate value log P.pdfs.work b)
        (some (bbVariance m1.norms P.genRates (expectedRate value log P.pdfs.work b)))).bind
        (fun np => .ok (addTerm CMath.real acc (P.dataDist.hist.contents.getD b 0) np, m1)) := by
  classical
  set mu := expectedRate value log P.pdfs.work with hmudef
  set n := fun b => P.dataDist.hist.contents.getD b 0 with hndef
  set N := P.dataDist.hist.nBins with hN
  obtain ⟨m1, r1, _, _⟩ := C28_reassert_partial hb hd true (by simpa using ho)
  have hb1 := hb.reassertNorms true r1
  have r2 := PdfManager.reassert_again hb r1
  have hi1 := PdfManager.inv_of_built hb1
  have hw1 : m1.work = P.pdfs.work := (PdfManager.reassert_facts r1).2.1
  have hs1 := (PdfManager.reassert_facts r1).1
  have hp1 : ∀ k, m1.getParameter k = P.pdfs.getParameter k := fun k => PdfManager.getParameter_congr hs1 hi1 k
  have hprob : ∀ b, b < N → ∀ m, (m = P.pdfs ∨ m = m1) → m.binProbability b = .ok (mu b, m1) := by
    intro b hbN m hm
    have hbm : PdfManager.Built log m := by rcases hm with rfl | rfl <;> assumption
    have hwm : m.work = P.pdfs.work := by rcases hm with rfl | rfl; exacts [rfl, hw1]
    have hpm : ∀ k, m.getParameter k = P.pdfs.getParameter k := by rcases hm with rfl | rfl; exacts [fun _ => rfl, hp1]
    have hrm : m.reassertNorms true = .ok m1 := by rcases hm with rfl | rfl <;> assumption
    obtain ⟨v', hv', m', e1, e2, e3⟩ := C27_bin_rate_partial hbm hd ho b (fun w hw' => by
      have := hdim w (hwm ▸ hw')
      exact ⟨by omega, this.2⟩)
    have hveq : expectedRate v' log m.work b = mu b := by
      rw [hwm, hmudef]
      refine expectedRate_congr (fun k hk' => ?_) _ _
      have := hv' k hk'
      rw [hpm k, hval k hk'] at this
      exact (Res.ok.inj this).symm
    have := binProbability_facts e1
    rw [hrm] at this
    cases this
    rw [e1, hveq]
  have hcont : ∀ b, b < N → P.dataDist.hist.getBinContent b = .ok (n b) := by
    intro b hbN
    unfold Histogram.getBinContent
    rw [if_neg (by omega), idx_of_lt (by omega)]
    simp [hndef, List.getD, show b < P.dataDist.hist.contents.length by omega]
  have hlen1 : m1.norms.length ≤ P.genRates.length := by rw [hi1.norms]; exact hrl
  refine ⟨m1, r1, ?_⟩
  intro b hbN acc m hm
  unfold binStep
  simp only
  rw [hprob b hbN m hm]
  simp only [Res.ok_bind]
  rw [Res.throwIf_false_of (hmu b hbN).ne']
  simp only [Res.ok_bind]
  rw [hcont b hbN]
  simp only [Res.ok_bind]
  rw [if_pos hbb, sigma2_ok hlen1 hr (hmu b hbN).ne']
  rfl

/-- The loop over the bins when every bin has a factor. -/
theorem NLLH.bb_sum {P : NLLH σ ℝ} {m1 : PdfManager ℝ} {N : Nat} {mu n s : Nat → ℝ}
    (hstep : ∀ b, b < N → ∀ acc m, (m = P.pdfs ∨ m = m1) → binStep CMath.real P (acc, m) b =
      (barlowBeeston CMath.real (n b) (mu b) (some (s b))).bind (fun np => .ok (addTerm CMath.real acc (n b) np, m1)))
    (hn : ∀ b, b < N → 0 ≤ n b) (hmu : ∀ b, b < N → 0 < mu b) (hs : ∀ b, b < N → 0 < s b) (hlt : ∀ b, b < N → mu b * s b < 1) :
    ∃ t : Nat → ℝ, (∀ b, b < N → IsProfiled (n b) (mu b) (s b) (t b)) ∧
      Res.forFold (binStep CMath.real P) (some 0, P.pdfs) (List.range N) =
        .ok (some ((List.range N).map t).sum, if N = 0 then P.pdfs else m1) := by
  have hprof : ∀ b, b < N → ∃ t, IsProfiled (n b) (mu b) (s b) t ∧ ∀ (a : ℝ) m,
      (m = P.pdfs ∨ m = m1) → binStep CMath.real P (some a, m) b = .ok (some (a + t), m1) := by
    intro b hbN
    obtain ⟨beta, b1, b2, b3⟩ := bb_profiled (hn b hbN) (hmu b hbN) (hs b hbN) (hlt b hbN)
    refine ⟨_, b3, fun a m hm => ?_⟩
    rw [hstep b hbN _ m hm, b2]
    show Res.ok (addTerm CMath.real (some a) (n b) (some (beta * mu b, _)), m1) = _
    unfold addTerm
    simp only [CMath.real]
    rw [if_neg (not_le.2 (mul_pos b1 (hmu b hbN)))]
    congr 2
    simp only [Option.some.injEq]
    unfold poissonTerm
    ring
  choose! t ht1 ht2 using hprof
  refine ⟨t, ht1, ?_⟩
  have loop : ∀ k, k ≤ N → Res.forFold (binStep CMath.real P) (some 0, P.pdfs) (List.range k) =
      .ok (some ((List.range k).map t).sum, if k = 0 then P.pdfs else m1) := by
    intro k
    induction k with
    | zero => intro _; simp [Res.forFold]
    | succ k ih =>
      intro hk
      rw [List.range_succ, Res.forFold_append, ih (by omega)]
      simp only [Res.bind, Res.forFold]
      rw [ht2 k (by omega) _ _ (by split; exacts [.inl rfl, .inr rfl])]
      simp
  exact loop N le_rfl

/-- The manager after the loop, and a bin without factor. -/
theorem NLLH.bb_after {P : NLLH σ ℝ} {m1 : PdfManager ℝ} {N : Nat} {mu n s : Nat → ℝ}
    (hstep : ∀ b, b < N → ∀ acc m, (m = P.pdfs ∨ m = m1) → binStep CMath.real P (acc, m) b =
      (barlowBeeston CMath.real (n b) (mu b) (some (s b))).bind (fun np => .ok (addTerm CMath.real acc (n b) np, m1)))
    (hmu : ∀ b, b < N → 0 < mu b) {vm : Fl ℝ × PdfManager ℝ}
    (h : Res.forFold (binStep CMath.real P) (some 0, P.pdfs) (List.range N) = .ok vm) :
    vm.2 = (if N = 0 then P.pdfs else m1) ∧ ((∃ b, b < N ∧ 0 < n b ∧ 0 < s b ∧ 1 ≤ mu b * s b) → vm.1 = none) := by
  have loop : ∀ k, k ≤ N → ∀ w, Res.forFold (binStep CMath.real P) (some 0, P.pdfs) (List.range k) = .ok w →
      w.2 = (if k = 0 then P.pdfs else m1) ∧ ((∃ b, b < k ∧ 0 < n b ∧ 0 < s b ∧ 1 ≤ mu b * s b) → w.1 = none) := by
    intro k
    induction k with
    | zero => intro _ w hw; cases hw; exact ⟨rfl, fun ⟨b, h, _⟩ => by omega⟩
    | succ k ih =>
      intro hk w hw
      rw [List.range_succ, Res.forFold_append] at hw
      obtain ⟨w0, g0, hw⟩ := Res.bind_eq_ok.1 hw
      obtain ⟨w1, g1, g2⟩ := Res.forFold_cons_eq_ok.1 hw
      cases g2
      obtain ⟨i1, i2⟩ := ih (by omega) w0 g0
      rw [show w0 = (w0.1, w0.2) from rfl, hstep k (by omega) _ _ (by rw [i1]; split; exacts [.inl rfl, .inr rfl])] at g1
      obtain ⟨np, g3, g1⟩ := Res.bind_eq_ok.1 g1
      cases g1
      refine ⟨by simp, ?_⟩
      rintro ⟨b, hbk, hnb, hsb, hge⟩
      by_cases hkb : b = k
      · subst hkb
        obtain ⟨np', q1, q2⟩ := C32_not_finite_wrong hsb hnb (hmu b (by omega)) hge w0.1
        rw [g3] at q1
        cases q1
        exact q2
      · show addTerm CMath.real w0.1 (n k) np = none
        rw [i2 ⟨b, by omega, hnb, hsb, hge⟩]
        rfl
  exact loop N le_rfl vm h

/-- What a successful preparation of a likelihood with systematics leaves. -/
theorem NLLH.distorted_core {name : Nat → String} {C : FitSys σ ℝ} (hC : C.Refreshing) {calls : List ManagerCall}
    {log : List (BinnedED ℝ × NormStatus)} {L P : NLLH σ ℝ} (hR : Recorded name C CMath.real calls log L)
    (hadd : SysLog.added calls ≠ []) (hbuf : L.shrinker.buffers = []) (hcal : L.calculated = true)
    (hdim : ∀ p ∈ log, p.1.obs.names = L.dataDist.obs.names ∧ L.dataDist.hist.nBins ≤ p.1.hist.nBins ∧
      p.1.hist.contents.length = p.1.hist.nBins) (hP : L.prepare C = .ok P) :
    P.dataDist = L.dataDist ∧ P.getParameters C = L.getParameters C ∧
    (∀ w ∈ P.pdfs.work, P.dataDist.hist.nBins ≤ w.hist.nBins ∧ w.hist.contents.length = w.hist.nBins) ∧
    ∃ (R : Nat → Matrix' ℝ) (cs : List (List ℝ)),
      (∀ p ∈ SysLog.added calls, L.CurrentResponse C p (R p)) ∧ cs.length = log.length ∧
      (∀ (j : Nat) p, log[j]? = some p → ∃ gs c, SysLog.assigned calls p.1.name = some gs ∧ cs[j]? = some c ∧
        Distorts calls R gs p.1.hist.contents c) ∧
      ∀ value b, expectedRate value log P.pdfs.work b = distortedRate value log cs b := by
  obtain ⟨hb, hrel, hresp, hass, hkn⟩ := hR.facts
  obtain ⟨sm, ob, m, m1, m2, sh, sk, hm, hcon, h1, h2, hPe⟩ := prepare_parts hcal hbuf hP
  obtain ⟨hbP, hsame, hbbP, hcP⟩ := prepare_facts hb hP
  have hbm := hb.reassertNorms false hm
  obtain ⟨R, cs, k1, k2, k3, k4⟩ := PdfManager.apply_all hC hbm hrel hadd hass hcon h1
  have hw1 : ∀ w ∈ m1.work, w.obs.names = L.dataDist.obs.names ∧ L.dataDist.hist.nBins ≤ w.hist.nBins ∧
      w.hist.contents.length = w.hist.nBins := by
    intro w hw
    obtain ⟨j, hj⟩ := List.mem_iff_getElem?.1 hw
    rw [k4, List.getElem?_zipWith] at hj
    cases hlj : log[j]? with
    | none => rw [hlj] at hj; simp at hj
    | some p =>
      obtain ⟨gs, c, c1, c2, c3, c4, _⟩ := k3 j p hlj
      rw [hlj, c2] at hj
      simp only [Option.some.injEq] at hj
      subst hj
      obtain ⟨d1, d2, d3⟩ := hdim p (List.mem_of_getElem? hlj)
      exact ⟨d1, d2, c4 d3⟩
  have hm2 : m2 = m1 := PdfManager.assert_id (fun w hw => (hw1 w hw).1) h2
  subst hm2
  subst hPe
  have hg2 : ({ L with pdfs := m2, sys := sm, objs := ob, shrinker := sh, alreadyShrunk := sk } : NLLH σ ℝ).getParameters C =
      L.getParameters C :=
    getParameters_sim rfl hsame (PdfManager.inv_of_built hbP) (fun p => SysManager.construct_equiv hC hcon p)
  refine ⟨rfl, hg2, fun w hw => (hw1 w hw).2, R, cs, k1, k2, fun j p hj => by
    obtain ⟨gs, c, c1, c2, c3, _⟩ := k3 j p hj
    exact ⟨gs, c, c1, c2, c3⟩, fun value b => ?_⟩
  simp only
  rw [k4, expectedRate_distorted]

/-- C32 (partial), the whole likelihood with systematics: after any history, with Barlow-Beeston on and the numbers of generated events
known, if the likelihood evaluates, then with `mu` the rate of a bin at the current parameters (systematics applied) and `s` the sum
over distributions of the normalisation left (see C88) over the number generated, relative to `mu²`: if every bin has `0 < s` and
`mu·s < 1`, the value is the sum over bins of the smallest, over all factors on `mu`, of the Poisson term plus the penalty, plus the
constraint term. If some bin with data has `mu·s ≥ 1`, the value is not finite: there the claim is false. -/
theorem C32_likelihood_partial {name : Nat → String} {C : FitSys σ ℝ} (hC : C.Refreshing) {calls : List ManagerCall}
    {log : List (BinnedED ℝ × NormStatus)} {L L' : NLLH σ ℝ} {v : Fl ℝ} (hR : Recorded name C CMath.real calls log L)
    (hadd : SysLog.added calls ≠ []) (hbb : L.useBB = true) (hbuf : L.shrinker.buffers = []) (hcal : L.calculated = true)
    (hd : PdfLog.DistinctNames log) (ho : PdfLog.Before .direct .indirect log)
    (hdata : L.dataDist.hist.contents.length = L.dataDist.hist.nBins)
    (hdim : ∀ p ∈ log, p.1.obs.names = L.dataDist.obs.names ∧ L.dataDist.hist.nBins ≤ p.1.hist.nBins ∧
      p.1.hist.contents.length = p.1.hist.nBins)
    (value : String → ℝ) (hval : ∀ n ∈ PdfLog.fitted log, L.pdfs.getParameter n = .ok (value n))
    (hrl : log.length ≤ L.genRates.length) (hr : ∀ g ∈ L.genRates, g ≠ 0)
    (hn : ∀ b, b < L.dataDist.hist.nBins → 0 ≤ L.dataDist.hist.contents.getD b 0)
    (h : L.evaluate C CMath.real = .ok (v, L')) :
    ∃ (R : Nat → Matrix' ℝ) (cs : List (List ℝ)) (ps : ParamDict ℝ) (c : Fl ℝ),
      (∀ p ∈ SysLog.added calls, L.CurrentResponse C p (R p)) ∧ cs.length = log.length ∧
      (∀ (j : Nat) p, log[j]? = some p → ∃ gs c, SysLog.assigned calls p.1.name = some gs ∧ cs[j]? = some c ∧
        Distorts calls R gs p.1.hist.contents c) ∧
      L.getParameters C = .ok ps ∧ L.constraints.evaluate ps = .ok c ∧
      ((∀ b, b < L.dataDist.hist.nBins → 0 < distortedRate value log cs b) →
        (∀ b, b < L.dataDist.hist.nBins → 0 < bbVariance L'.pdfs.norms L.genRates (distortedRate value log cs b)) →
        ((∀ b, b < L.dataDist.hist.nBins →
            distortedRate value log cs b * bbVariance L'.pdfs.norms L.genRates (distortedRate value log cs b) < 1) →
          ∃ t : Nat → ℝ, (∀ b, b < L.dataDist.hist.nBins → IsProfiled (L.dataDist.hist.contents.getD b 0) (distortedRate value log cs b)
            (bbVariance L'.pdfs.norms L.genRates (distortedRate value log cs b)) (t b)) ∧
            v = Fl.add (some ((List.range L.dataDist.hist.nBins).map t).sum) c) ∧
        ((∃ b, b < L.dataDist.hist.nBins ∧ 0 < L.dataDist.hist.contents.getD b 0 ∧
            1 ≤ distortedRate value log cs b * bbVariance L'.pdfs.norms L.genRates (distortedRate value log cs b)) → v = none)) := by
  obtain ⟨hb, hrel, hresp, hass, hkn⟩ := hR.facts
  unfold evaluate at h
  obtain ⟨P, hP, h⟩ := Res.bind_eq_ok.1 h
  obtain ⟨⟨v1, m9⟩, hloop, h⟩ := Res.bind_eq_ok.1 h
  obtain ⟨ps, hps, h⟩ := Res.bind_eq_ok.1 h
  obtain ⟨c, hc, h⟩ := Res.bind_eq_ok.1 h
  obtain ⟨hv, hL'⟩ := Prod.mk.inj (Res.ok.inj h)
  subst hv
  obtain ⟨hbP, hsame, hbbP, hcP⟩ := prepare_facts hb hP
  obtain ⟨hdd, hg2, hdim', R, cs, k1, k2, k3, k4⟩ := distorted_core hC hR hadd hbuf hcal hdim hP
  have hbs := binSum_facts (L := P) (d := P.dataDist) (M := CMath.real) hbP hloop
  have hg1 : ({ P with pdfs := m9 } : NLLH σ ℝ).getParameters C = P.getParameters C :=
    getParameters_sim rfl hbs.2.1 (PdfManager.inv_of_built hbs.1) (fun p => .refl C _)
  have hnorms : L'.pdfs.norms = m9.norms := by rw [← hL']
  refine ⟨R, cs, ps, c, k1, k2, k3, (hg2.symm.trans hg1.symm).trans hps, by rw [← hcP]; exact hc, fun hmu hs => ?_⟩
  have hrates := prepare_rates hP
  have hvalP : ∀ k ∈ PdfLog.fitted log, P.pdfs.getParameter k = .ok (value k) := by
    intro k hk
    rw [PdfManager.getParameter_congr hsame (PdfManager.inv_of_built hbP) k]
    exact hval k hk
  obtain ⟨m1, r1, hstep⟩ := bb_step hbP (hbbP.trans hbb) hd ho (by rw [hdd]; exact hdata) hdim' value hvalP (by rw [hrates]; exact hrl)
    (by rw [hrates]; exact hr) (fun b hbN => by rw [k4]; exact hmu b (by rw [← hdd]; exact hbN))
  rw [hrates, hdd] at hstep
  simp only [k4] at hstep
  rw [hdd] at hloop
  obtain ⟨a1, a2⟩ := bb_after (mu := distortedRate value log cs) (n := fun b => L.dataDist.hist.contents.getD b 0)
    (s := fun b => bbVariance m1.norms L.genRates (distortedRate value log cs b)) hstep hmu hloop
  have hn1 : ∀ b, b < L.dataDist.hist.nBins → L'.pdfs.norms = m1.norms := by
    intro b hbN
    rw [hnorms]
    have : m9 = if L.dataDist.hist.nBins = 0 then P.pdfs else m1 := a1
    rw [this, if_neg (by omega)]
  refine ⟨fun hlt => ?_, ?_⟩
  · obtain ⟨t, t1, t2⟩ := bb_sum (mu := distortedRate value log cs) (n := fun b => L.dataDist.hist.contents.getD b 0)
      (s := fun b => bbVariance m1.norms L.genRates (distortedRate value log cs b)) hstep hn hmu
      (fun b hbN => by rw [← hn1 b hbN]; exact hs b hbN) (fun b hbN => by rw [← hn1 b hbN]; exact hlt b hbN)
    refine ⟨t, fun b hbN => by rw [hn1 b hbN]; exact t1 b hbN, ?_⟩
    rw [hloop] at t2
    rw [(Prod.mk.inj (Res.ok.inj t2)).1]
  · rintro ⟨b, hbN, b1, b2⟩
    have : v1 = none := a2 ⟨b, hbN, b1, by rw [← hn1 b hbN]; exact hs b hbN, by rw [← hn1 b hbN]; exact b2⟩
    rw [this]
    rfl

/-- With a positive uncertainty and no negative content the factor is always computed, finite or not. -/
theorem NLLH.bb_loop_ok {P : NLLH σ ℝ} {m1 : PdfManager ℝ} {N : Nat} {mu n s : Nat → ℝ}
    (hstep : ∀ b, b < N → ∀ acc m, (m = P.pdfs ∨ m = m1) → binStep CMath.real P (acc, m) b =
      (barlowBeeston CMath.real (n b) (mu b) (some (s b))).bind (fun np => .ok (addTerm CMath.real acc (n b) np, m1)))
    (hn : ∀ b, b < N → 0 ≤ n b) (hs : ∀ b, b < N → 0 < s b) :
    ∃ vm, Res.forFold (binStep CMath.real P) (some 0, P.pdfs) (List.range N) = .ok vm := by
  have one : ∀ b, b < N → ∃ np, barlowBeeston CMath.real (n b) (mu b) (some (s b)) = .ok np := by
    intro b hb
    have h1 := hn b hb
    have h2 := hs b hb
    have hdet : ¬ ((mu b * s b - 1) * (mu b * s b - 1) + 4 * n b * s b < 0) := by
      have := mul_self_nonneg (mu b * s b - 1)
      have := mul_nonneg h1 h2.le
      nlinarith
    unfold barlowBeeston
    simp only [CMath.real]
    rw [if_neg hdet]
    split
    · exact ⟨_, rfl⟩
    · split
      · exact ⟨_, rfl⟩
      · split <;> exact ⟨_, rfl⟩
  have loop : ∀ k, k ≤ N → ∃ v, Res.forFold (binStep CMath.real P) (some 0, P.pdfs) (List.range k) =
      .ok (v, if k = 0 then P.pdfs else m1) := by
    intro k
    induction k with
    | zero => intro _; exact ⟨some 0, rfl⟩
    | succ k ih =>
      intro hk
      obtain ⟨v, hv⟩ := ih (by omega)
      obtain ⟨np, hnp⟩ := one k (by omega)
      rw [List.range_succ, Res.forFold_append, hv]
      simp only [Res.bind, Res.forFold]
      rw [hstep k (by omega) _ _ (by split; exacts [.inl rfl, .inr rfl]), hnp]
      exact ⟨_, rfl⟩
  obtain ⟨v, hv⟩ := loop N le_rfl
  exact ⟨_, hv⟩

/-- C32 (partial), with systematics, every distribution fitted directly: after any history, with Barlow-Beeston on, the numbers of
generated events known and responses of the right size, let `mu` be the rate of a bin at the current parameters (systematics applied) and
`s` its fractional uncertainty squared, both positive. If `mu·s < 1` in every bin the evaluation succeeds with the sum over bins of the
smallest, over all factors on `mu`, of the Poisson term plus the penalty, plus the constraint term. If `mu·s ≥ 1` in a bin with data the
value is not finite: there the claim is false. Missing also: distributions not fitted directly (`C32_likelihood_partial`). -/
theorem C32_outcome_partial {name : Nat → String} {C : FitSys σ ℝ} (hC : C.Refreshing) {calls : List ManagerCall}
    {log : List (BinnedED ℝ × NormStatus)} {L : NLLH σ ℝ} (hR : Recorded name C CMath.real calls log L)
    (hadd : SysLog.added calls ≠ []) (hbb : L.useBB = true) (hbuf : L.shrinker.buffers = []) (hcal : L.calculated = true)
    (hd : PdfLog.DistinctNames log) (hdir : ∀ p ∈ log, p.2 = .direct)
    (hdata : L.dataDist.hist.contents.length = L.dataDist.hist.nBins) (n : Nat) (hnn : L.dataDist.hist.nBins ≤ n)
    (hdim : ∀ p ∈ log, p.1.obs.names = L.dataDist.obs.names ∧ p.1.hist.nBins = n ∧ p.1.hist.contents.length = n)
    (hobjs : ∀ p ∈ SysLog.added calls, ∃ s, C.construct (L.objs p) = .ok s ∧ SysManager.Square n (C.response s))
    (value : String → ℝ) (hval : ∀ n ∈ PdfLog.fitted log, L.pdfs.getParameter n = .ok (value n))
    (hrl : log.length ≤ L.genRates.length) (hr : ∀ g ∈ L.genRates, g ≠ 0)
    (hn : ∀ b, b < L.dataDist.hist.nBins → 0 ≤ L.dataDist.hist.contents.getD b 0)
    {ps : ParamDict ℝ} {c : Fl ℝ} (hps : L.getParameters C = .ok ps) (hc : L.constraints.evaluate ps = .ok c) :
    ∃ (R : Nat → Matrix' ℝ) (cs : List (List ℝ)),
      (∀ p ∈ SysLog.added calls, L.CurrentResponse C p (R p)) ∧ cs.length = log.length ∧
      (∀ (j : Nat) p, log[j]? = some p → ∃ gs c, SysLog.assigned calls p.1.name = some gs ∧ cs[j]? = some c ∧
        Distorts calls R gs p.1.hist.contents c) ∧
      ∀ mu s : Nat → ℝ, (∀ b, mu b = distortedRate value log cs b) →
        (∀ b, s b = bbVariance (log.map (fun p => value p.1.name)) L.genRates (mu b)) →
        (∀ b, b < L.dataDist.hist.nBins → 0 < mu b ∧ 0 < s b) →
        ((∀ b, b < L.dataDist.hist.nBins → mu b * s b < 1) →
          ∃ (t : Nat → ℝ) (L' : NLLH σ ℝ),
            (∀ b, b < L.dataDist.hist.nBins → IsProfiled (L.dataDist.hist.contents.getD b 0) (mu b) (s b) (t b)) ∧
            L.evaluate C CMath.real = .ok (Fl.add (some ((List.range L.dataDist.hist.nBins).map t).sum) c, L')) ∧
        ((∃ b, b < L.dataDist.hist.nBins ∧ 0 < L.dataDist.hist.contents.getD b 0 ∧ 1 ≤ mu b * s b) →
          ∃ L' : NLLH σ ℝ, L.evaluate C CMath.real = .ok (none, L')) := by
  obtain ⟨hb, hrel, hresp, hass, hkn⟩ := hR.facts
  have hdim' : ∀ p ∈ log, p.1.obs.names = L.dataDist.obs.names ∧ L.dataDist.hist.nBins ≤ p.1.hist.nBins ∧
      p.1.hist.contents.length = p.1.hist.nBins := by
    intro p hp
    obtain ⟨d1, d2, d3⟩ := hdim p hp
    exact ⟨d1, by omega, by omega⟩
  have ho : PdfLog.Before .direct .indirect log := PdfLog.before_of_not_right (fun p hp => by rw [hdir p hp]; decide)
  obtain ⟨P, hP⟩ := prepare_succeeds hC hR hadd hbuf hcal n hnn hdim hobjs
  obtain ⟨hbP, hsame, hbbP, hcP⟩ := prepare_facts hb hP
  obtain ⟨hdd, hg2, hdimP, R, cs, k1, k2, k3, k4⟩ := distorted_core hC hR hadd hbuf hcal hdim' hP
  refine ⟨R, cs, k1, k2, k3, fun mu s hmu hs hpos => ?_⟩
  have hrates := prepare_rates hP
  have hvalP : ∀ k ∈ PdfLog.fitted log, P.pdfs.getParameter k = .ok (value k) := by
    intro k hk
    rw [PdfManager.getParameter_congr hsame (PdfManager.inv_of_built hbP) k]
    exact hval k hk
  obtain ⟨m1, r1, hstep⟩ := bb_step hbP (hbbP.trans hbb) hd ho (by rw [hdd]; exact hdata) hdimP value hvalP (by rw [hrates]; exact hrl)
    (by rw [hrates]; exact hr) (fun b hbN => by rw [k4, ← hmu b]; exact (hpos b (by rw [← hdd]; exact hbN)).1)
  have hnorms : m1.norms = log.map (fun p => value p.1.name) := by
    obtain ⟨m1', r1', _, r3⟩ := C28_reassert_partial hbP hd true (by simpa using ho)
    rw [r1] at r1'
    cases r1'
    have hl1 := (PdfManager.inv_of_built (hbP.reassertNorms true r1)).norms
    refine List.ext_getElem? (fun j => ?_)
    cases hj : log[j]? with
    | none =>
      have := List.getElem?_eq_none_iff.1 hj
      rw [List.getElem?_eq_none (by omega), List.getElem?_map, hj]
      rfl
    | some p =>
      have hst := hdir p (List.mem_of_getElem? hj)
      obtain ⟨x, x1, x2⟩ := (r3 j _ hj).1 hst
      have hfit : p.1.name ∈ PdfLog.fitted log := by
        unfold PdfLog.fitted
        exact List.mem_map.2 ⟨p, List.mem_filter.2 ⟨List.mem_of_getElem? hj, by rw [hst]; rfl⟩, rfl⟩
      rw [hvalP _ hfit] at x1
      rw [show m1.norms[j]? = some x from x2, List.getElem?_map, hj, ← Res.ok.inj x1]
      rfl
  rw [hrates, hdd] at hstep
  simp only [k4, hnorms] at hstep
  have hstep' : ∀ b, b < L.dataDist.hist.nBins → ∀ acc m, (m = P.pdfs ∨ m = m1) → binStep CMath.real P (acc, m) b =
      (barlowBeeston CMath.real (L.dataDist.hist.contents.getD b 0) (mu b) (some (s b))).bind
        (fun np => .ok (addTerm CMath.real acc (L.dataDist.hist.contents.getD b 0) np, m1)) := by
    intro b hbN acc m hm
    rw [hs b, hmu b]
    exact hstep b hbN acc m hm
  have fin : ∀ vm, Res.forFold (binStep CMath.real P) (some 0, P.pdfs) (List.range L.dataDist.hist.nBins) = .ok vm →
      ∃ L' : NLLH σ ℝ, L.evaluate C CMath.real = .ok (Fl.add vm.1 c, L') := by
    intro vm hvm
    have this : Res.forFold (binStep CMath.real P) (some 0, P.pdfs) (List.range P.dataDist.hist.nBins) = .ok vm := by
      rw [show P.dataDist.hist.nBins = L.dataDist.hist.nBins by rw [hdd]]; exact hvm
    have hbs := binSum_facts (L := P) (d := P.dataDist) (M := CMath.real) hbP this
    have hg1 : ({ P with pdfs := vm.2 } : NLLH σ ℝ).getParameters C = P.getParameters C :=
      getParameters_sim rfl hbs.2.1 (PdfManager.inv_of_built hbs.1) (fun p => .refl C _)
    refine ⟨{ P with pdfs := vm.2 }, ?_⟩
    unfold evaluate
    rw [hP]
    simp only [Res.ok_bind]
    rw [this]
    simp only [Res.ok_bind]
    rw [hg1, hg2, hps]
    simp only [Res.ok_bind]
    rw [hcP, hc]
    rfl
  refine ⟨fun hlt => ?_, fun hex => ?_⟩
  · obtain ⟨t, t1, t2⟩ := bb_sum (mu := mu) (s := s) (n := fun b => L.dataDist.hist.contents.getD b 0) hstep' hn
      (fun b hbN => (hpos b hbN).1) (fun b hbN => (hpos b hbN).2) hlt
    obtain ⟨L', hL'⟩ := fin _ t2
    exact ⟨t, L', t1, hL'⟩
  · obtain ⟨vm, hvm⟩ := bb_loop_ok (mu := mu) (s := s) (n := fun b => L.dataDist.hist.contents.getD b 0) hstep' hn
      (fun b hbN => (hpos b hbN).2)
    obtain ⟨_, a2⟩ := bb_after (mu := mu) (n := fun b => L.dataDist.hist.contents.getD b 0) (s := s) hstep'
      (fun b hbN => (hpos b hbN).1) hvm
    obtain ⟨b, b1, b2, b3⟩ := hex
    obtain ⟨L', hL'⟩ := fin _ hvm
    rw [a2 ⟨b, b1, b2, (hpos b b1).2, b3⟩] at hL'
    exact ⟨L', hL'⟩

/-! ### Without systematics -/

theorem NLLH.toUInt32_nat {r : Nat} (h : r < 2 ^ 32) : toUInt32 (r : Int) = r := by
  unfold toUInt32
  rw [Int.emod_eq_of_lt (by omega) (by exact_mod_cast h)]
  rfl

/-- Registering numbers of generated events changes nothing else. -/
theorem NLLH.addPdf_rate {name : Nat → String} {L L1 : NLLH σ α} {p : BinnedED α × NormStatus} {r : Nat} (hr : r < 2 ^ 32)
    (h : L.addPdf name p.1 none none p.2 = .ok L1) (g : List Nat) :
    ({ L with genRates := g } : NLLH σ α).addPdf name p.1 none (some (r : Int)) p.2 = .ok { L1 with genRates := g ++ [r] } := by
  unfold addPdf at h ⊢
  obtain ⟨_, h0, h⟩ := Res.bind_eq_ok.1 h
  obtain ⟨m, h1, h⟩ := Res.bind_eq_ok.1 h
  obtain ⟨sm, h2, h⟩ := Res.bind_eq_ok.1 h
  cases h
  rw [Res.throwIf_false_of (by simp)]
  simp only [Res.ok_bind]
  rw [h1]
  simp only [Res.ok_bind]
  rw [h2]
  simp only [Res.ok_bind]
  rw [toUInt32_nat hr]
  rfl

theorem NLLH.addPdfs_rate {name : Nat → String} (log : List ((BinnedED α × NormStatus) × Nat)) (hr : ∀ p ∈ log, p.2 < 2 ^ 32) :
    ∀ {L L1 : NLLH σ α}, Res.forFold (fun (L : NLLH σ α) (p : BinnedED α × NormStatus) => L.addPdf name p.1 none none p.2) L
      (log.map (·.1)) = .ok L1 → ∀ g, Res.forFold (fun (L : NLLH σ α) (p : (BinnedED α × NormStatus) × Nat) =>
        L.addPdf name p.1.1 none (some (p.2 : Int)) p.1.2) { L with genRates := g } log = .ok { L1 with genRates := g ++ log.map (·.2) } := by
  induction log with
  | nil => intro L L1 h g; cases h; simp [Res.forFold]
  | cons p log ih =>
    intro L L1 h g
    obtain ⟨L2, h1, h2⟩ := Res.forFold_cons_eq_ok.1 (show Res.forFold _ L (p.1 :: log.map (·.1)) = .ok L1 from h)
    refine Res.forFold_cons_eq_ok.2 ⟨_, addPdf_rate (hr p (by simp)) h1 g, ?_⟩
    rw [ih (fun q hq => hr q (by simp [hq])) h2]
    simp

theorem NLLH.setLoop_rate (C : FitSys σ α) (ps : ParamDict α) (g : List Nat) (cs : List NllhComponent) :
    ∀ L : NLLH σ α, setLoop C ps { L with genRates := g } cs = ({ (setLoop C ps L cs).1 with genRates := g }, (setLoop C ps L cs).2) := by
  induction cs with
  | nil => intro L; rfl
  | cons c cs ih =>
    intro L
    have hc : setComponent C ps { L with genRates := g } c =
        ({ (setComponent C ps L c).1 with genRates := g }, (setComponent C ps L c).2) := by cases c <;> rfl
    unfold setLoop
    rw [hc]
    cases hs : setComponent C ps L c with
    | mk L2 r =>
      cases r with
      | ok u => simp only; exact ih L2
      | throw e => rfl
      | ub => rfl

theorem NLLH.setParameters_rate (C : FitSys σ α) (ps : ParamDict α) (g : List Nat) (L : NLLH σ α) :
    ({ L with genRates := g } : NLLH σ α).setParameters C ps = ({ (L.setParameters C ps).1 with genRates := g }, (L.setParameters C ps).2) := by
  unfold setParameters
  split
  · rfl
  · exact setLoop_rate C ps g _ L

theorem NLLH.configuredBB_ok {name : Nat → String} {C : FitSys σ α} {objs : Nat → σ} {log : List ((BinnedED α × NormStatus) × Nat)}
    {cons : ConstraintManager α} {ps : ParamDict α} {d : BinnedED α} {L : NLLH σ α} (hr : ∀ p ∈ log, p.2 < 2 ^ 32)
    (h : NLLH.configured name C objs (log.map (·.1)) cons ps d = .ok L) :
    NLLH.configuredBB name C objs log cons ps d = .ok { L with genRates := log.map (·.2), useBB := true } := by
  unfold NLLH.configured at h
  obtain ⟨L1, h1, h⟩ := Res.bind_eq_ok.1 h
  simp only at h
  obtain ⟨u, h2, h⟩ := Res.bind_eq_ok.1 h
  cases h
  unfold NLLH.configuredBB
  rw [show Res.forFold (fun (L : NLLH σ α) (p : (BinnedED α × NormStatus) × Nat) => L.addPdf name p.1.1 none (some (p.2 : Int)) p.1.2)
    (.new objs) log = .ok { L1 with genRates := [] ++ log.map (·.2) } from addPdfs_rate log hr h1 []]
  simp only [Res.ok_bind, List.nil_append]
  have hreg : ({ ({ L1 with genRates := log.map (·.2) } : NLLH σ α) with constraints := cons } : NLLH σ α).registerFitComponents name =
      { ({ L1 with constraints := cons } : NLLH σ α).registerFitComponents name with genRates := log.map (·.2) } := rfl
  rw [hreg, setParameters_rate, h2]
  rfl

/-! Without systematics the entries of `fNormalisations` of distributions that are not fitted stay at their initial zero. -/

theorem ParamManager.setLoop_cont (m : ParamManager) (d : ParamDict α) (c : Nat)
    (hm : ∀ n r, SMap.find m n = some r → ∃ c' i, r = .elem c' i ∧ c' ≠ c) (ns : List String) : ∀ s : Store α,
    (m.setLoop d s ns).1.cont c = s.cont c := by
  induction ns with
  | nil => intro s; rfl
  | cons n ns ih =>
    intro s
    simp only [ParamManager.setLoop]
    cases h : m.setOne d s n with
    | throw e => rfl
    | ub => rfl
    | ok s' =>
      simp only
      rw [ih]
      unfold ParamManager.setOne at h
      split at h
      · rename_i r v hr hv
        obtain ⟨c', i, rfl, hne⟩ := hm n r hr
        simp only [Ref.set] at h
        split at h
        · cases h
        · cases h
          exact Function.update_of_ne (Ne.symm hne) _ _
      · cases h

/-- Every entry of a distribution that is not fitted is zero. -/
def PdfManager.OffZero (m : PdfManager α) : Prop := ∀ i : Nat, m.status[i]? = some NormStatus.off → m.norms[i]? = some 0

theorem PdfManager.offZero_setParameters {log : List (BinnedED α × NormStatus)} {m : PdfManager α} (h : PdfManager.Built log m)
    (hd : PdfLog.DistinctNames log) (hz : m.OffZero) (ps : ParamDict α) : (m.setParameters ps).1.OffZero := by
  intro i hi
  have hinv := PdfManager.inv_of_built h
  have hi' : m.status[i]? = some NormStatus.off := hi
  have ha : m.allDirect = false := by
    rw [hinv.alld]
    rw [hinv.status, List.getElem?_map] at hi'
    obtain ⟨p, hp, hp2⟩ := Option.map_eq_some_iff.1 hi'
    rw [List.all_eq_false]
    exact ⟨p, List.mem_of_getElem? hp, by rw [hp2]; decide⟩
  rw [← hz i hi']
  show ((m.params.setLoop ps m.store m.params.keys).1.cont 0)[i]? = _
  rw [ParamManager.setLoop_cont m.params ps 0]
  · rfl
  · intro n r hr
    rw [hinv.params, ha] at hr
    obtain ⟨j, _, hj⟩ := regOf_find_iff hd hr
    exact ⟨1, j, hj, by decide⟩

theorem PdfManager.offZero_addPdf {log : List (BinnedED α × NormStatus)} {m m' : PdfManager α} (h : PdfManager.Built log m) (hz : m.OffZero)
    {p : BinnedED α} {st : NormStatus} (ha : m.addPdf p st = .ok m') : m'.OffZero := by
  have hinv := PdfManager.inv_of_built h
  unfold PdfManager.addPdf PdfManager.registerParameters at ha
  obtain ⟨ns, _, ha⟩ := Res.bind_eq_ok.1 ha
  obtain ⟨pp, _, ha⟩ := Res.bind_eq_ok.1 ha
  cases ha
  intro i hi
  have hl : m.norms.length = m.orig.length := by rw [hinv.norms, hinv.orig, List.length_map]
  have hsl : m.status.length = m.orig.length := by rw [hinv.status, hinv.orig, List.length_map, List.length_map]
  have hi' : (m.status ++ [st])[i]? = some NormStatus.off := hi
  show (resize m.norms (m.orig.length + 1) 0)[i]? = some 0
  unfold resize
  rw [List.take_of_length_le (by omega), show m.orig.length + 1 - m.norms.length = 1 by omega]
  by_cases hlt : i < m.orig.length
  · rw [List.getElem?_append_left (by omega)] at hi' ⊢
    exact hz i hi'
  · have hil : i < (m.status ++ [st]).length := (List.getElem?_eq_some_iff.1 hi').1
    rw [List.length_append, List.length_singleton] at hil
    rw [List.getElem?_append_right (by omega), show i - m.norms.length = 0 by omega]
    rfl

theorem NLLH.configured_offZero {name : Nat → String} {C : FitSys σ α} {objs : Nat → σ} {log : List (BinnedED α × NormStatus)}
    {cons : ConstraintManager α} {ps : ParamDict α} {d : BinnedED α} {L : NLLH σ α} (hd : PdfLog.DistinctNames log)
    (h : NLLH.configured name C objs log cons ps d = .ok L) : L.pdfs.OffZero := by
  unfold NLLH.configured at h
  obtain ⟨L1, h1, h⟩ := Res.bind_eq_ok.1 h
  simp only at h
  obtain ⟨u, h2, h⟩ := Res.bind_eq_ok.1 h
  cases h
  have add : ∀ (l l0 : List (BinnedED α × NormStatus)) (K K1 : NLLH σ α), PdfManager.Built l0 K.pdfs → K.pdfs.OffZero →
      Res.forFold (fun (L : NLLH σ α) (p : BinnedED α × NormStatus) => L.addPdf name p.1 none none p.2) K l = .ok K1 →
      PdfManager.Built (l0 ++ l) K1.pdfs ∧ K1.pdfs.OffZero := by
    intro l
    induction l with
    | nil => intro l0 K K1 hb hz hf; cases hf; exact ⟨by simpa using hb, hz⟩
    | cons p l ih =>
      intro l0 K K1 hb hz hf
      obtain ⟨K2, f1, f2⟩ := Res.forFold_cons_eq_ok.1 hf
      unfold addPdf at f1
      obtain ⟨_, _, f1⟩ := Res.bind_eq_ok.1 f1
      obtain ⟨m, g1, f1⟩ := Res.bind_eq_ok.1 f1
      obtain ⟨sm, _, f1⟩ := Res.bind_eq_ok.1 f1
      cases f1
      have := ih (l0 ++ [p]) _ _ (hb.addPdf p.1 p.2 g1) (PdfManager.offZero_addPdf hb hz g1) f2
      simpa using this
  obtain ⟨b1, z1⟩ := add log [] (.new objs) L1 .new (by intro i hi; cases hi) h1
  rw [List.nil_append] at b1
  have set : ∀ (cs : List NllhComponent) (K : NLLH σ α), PdfManager.Built log K.pdfs → K.pdfs.OffZero →
      (setLoop C ps K cs).1.pdfs.OffZero := by
    intro cs
    induction cs with
    | nil => intro K _ hz; exact hz
    | cons c cs ih =>
      intro K hb hz
      have hc : PdfManager.Built log (setComponent C ps K c).1.pdfs ∧ (setComponent C ps K c).1.pdfs.OffZero := by
        cases c with
        | pdfs => exact ⟨hb.setParameters ps, PdfManager.offZero_setParameters hb hd hz ps⟩
        | sys p => exact ⟨hb, hz⟩
      unfold setLoop
      cases hs : setComponent C ps K c with
      | mk K2 r =>
        rw [hs] at hc
        cases r with
        | ok u => exact ih K2 hc.1 hc.2
        | throw e => exact hc.2
        | ub => exact hc.2
  show ((({ L1 with constraints := cons } : NLLH σ α).registerFitComponents name).setParameters C ps).1.pdfs.OffZero
  unfold setParameters
  split
  · exact z1
  · exact set _ _ b1 z1

/-- C32 (partial), from the configuration to the value, without systematics: distributions fitted one way or not fitted, each added with
the number of events it was made from, constraints, the components registered, parameters and data set, Barlow-Beeston on. With `mu` the
rate and `s` the fractional uncertainty squared of the fitted distributions: if in every bin both are positive and `mu·s < 1`, every step
succeeds and the value is the sum over bins of the smallest, over all factors on the rate, of the Poisson term plus the penalty, plus the
constraint term. Missing: `mu·s ≥ 1` (`C32_likelihood_partial`: not finite), distributions fitted both ways (`C27_order_wrong`), and the
statistics of distributions that are not fitted, which the code leaves out (`C32_fixed_wrong`). -/
theorem C32_configured_partial {name : Nat → String} {C : FitSys σ ℝ} {objs : Nat → σ} {log : List ((BinnedED ℝ × NormStatus) × Nat)}
    {cons : ConstraintManager ℝ} {ps : ParamDict ℝ} {d : BinnedED ℝ} {c : Fl ℝ}
    (ho : PdfLog.Before .direct .indirect (log.map (·.1))) (ho2 : PdfLog.Before .indirect .direct (log.map (·.1)))
    (hd : PdfLog.DistinctNames (log.map (·.1))) (hne : ps ≠ []) (hs : SMap.Sorted ps)
    (value : String → ℝ) (hall : ∀ n ∈ PdfLog.fitted (log.map (·.1)), SMap.find ps n = some (value n))
    (hobs : ∀ p ∈ log, p.1.1.obs.names = d.obs.names ∧ p.1.1.hist.nBins = d.hist.nBins ∧ p.1.1.hist.contents.length = d.hist.nBins)
    (hdl : d.hist.contents.length = d.hist.nBins) (hn : ∀ b, b < d.hist.nBins → 0 ≤ d.hist.contents.getD b 0)
    (hr : ∀ p ∈ log, 0 < p.2 ∧ p.2 < 2 ^ 32)
    (mu s : Nat → ℝ) (hmu : ∀ b, mu b = expectedRate value (log.map (·.1)) (log.map (·.1.1)) b)
    (hvar : ∀ b, s b = bbVariance (log.map (fun p => if p.1.2.fittable then value p.1.1.name else 0)) (log.map (·.2)) (mu b))
    (hpos : ∀ b, b < d.hist.nBins → 0 < mu b ∧ 0 < s b ∧ mu b * s b < 1)
    (hc : cons.evaluate (ps.filter (fun p => p.1 ∈ PdfLog.fitted (log.map (·.1)))) = .ok c) :
    ∃ (L L' : NLLH σ ℝ) (t : Nat → ℝ), NLLH.configuredBB name C objs log cons ps d = .ok L ∧
      (∀ b, b < d.hist.nBins → IsProfiled (d.hist.contents.getD b 0) (mu b) (s b) (t b)) ∧
      L.evaluate C CMath.real = .ok (Fl.add (some ((List.range d.hist.nBins).map t).sum) c, L') := by
  set log0 := log.map (·.1) with hlog0
  have hisSome : ∀ n ∈ PdfLog.fitted log0, (SMap.find ps n).isSome := fun n hn => by rw [hall n hn]; rfl
  obtain ⟨L0, h1, hS, hset⟩ := NLLH.configured_simple (name := name) (C := C) (objs := objs) (cons := cons) (d := d) hd hne hisSome
  have hL := configuredBB_ok (fun p hp => (hr p hp).2) h1
  set L : NLLH σ ℝ := { L0 with genRates := log.map (·.2), useBB := true } with hLdef
  have hb : PdfManager.Built log0 L.pdfs := hS.built
  have hobs' : ∀ p ∈ log0, p.1.obs.names = d.obs.names ∧ p.1.hist.nBins = d.hist.nBins ∧ p.1.hist.contents.length = d.hist.nBins := by
    intro p hp
    obtain ⟨q, hq, rfl⟩ := List.mem_map.1 hp
    exact hobs q hq
  obtain ⟨m, sh, hsb, p1, hre, hP⟩ := NLLH.configured_prepare (C := C) (L := L) hb hS.work hS.buf hS.sys hS.calced
    (by show ∀ p ∈ log0, p.1.obs.names = L0.dataDist.obs.names; rw [hS.data]; exact fun p hp => (hobs' p hp).1) hd
  obtain ⟨hbP, hsame, hbbP, hcP⟩ := prepare_facts hb hP
  simp only at hbP hsame hbbP hcP
  have hSP : ({ L0 with pdfs := m, shrinker := sh, alreadyShrunk := true } : NLLH σ ℝ).Simple log0 cons d :=
    ⟨hbP, p1, hS.bb, hsb, hS.sys, hS.data, hS.calced, hS.cons, hS.comp⟩
  have hvalm : ∀ n ∈ PdfLog.fitted log0, m.getParameter n = .ok (value n) := by
    intro n hn
    rw [PdfManager.getParameter_congr hsame (PdfManager.inv_of_built hbP) n]
    exact hset n hn _ (hall n hn)
  have hgp : ({ L with pdfs := m, shrinker := sh, alreadyShrunk := true } : NLLH σ ℝ).getParameters C =
      .ok (ps.filter (fun p => p.1 ∈ PdfLog.fitted log0)) :=
    hSP.getParameters C hd hs (fun n hn => ⟨value n, hall n hn, hvalm n hn⟩)
  have hz := configured_offZero hd h1
  have hmu' : ∀ b, expectedRate value log0 m.work b = mu b := by
    intro b
    rw [hmu b, p1, hlog0, List.map_map]
    rfl
  have hdata : L.dataDist = d := hS.data
  obtain ⟨m1, r1, hstep⟩ := bb_step (P := { L with pdfs := m, shrinker := sh, alreadyShrunk := true }) hbP rfl hd ho
    (by show L.dataDist.hist.contents.length = _; rw [hdata]; exact hdl) (by
      intro w hw
      have hw' : w ∈ m.work := hw
      rw [p1] at hw'
      obtain ⟨p, hp, rfl⟩ := List.mem_map.1 hw'
      obtain ⟨_, e2, e3⟩ := hobs' p hp
      show L.dataDist.hist.nBins ≤ _ ∧ _
      rw [hdata]
      exact ⟨e2.ge, e3.trans e2.symm⟩) value hvalm (by
      show log0.length ≤ (log.map (·.2)).length
      rw [hlog0]; simp) (by
      intro g hg
      obtain ⟨q, hq, rfl⟩ := List.mem_map.1 (show g ∈ log.map (·.2) from hg)
      have := (hr q hq).1
      omega) (by
      intro b hbN
      have hbN' : b < L.dataDist.hist.nBins := hbN
      rw [hdata] at hbN'
      show 0 < expectedRate value log0 m.work b
      rw [hmu' b]
      exact (hpos b hbN').1)
  have hnorms : m1.norms = log.map (fun p => if p.1.2.fittable then value p.1.1.name else 0) := by
    obtain ⟨m', r1', r2', r3'⟩ := C28_reassert_partial hb hd false (by simpa using ho2)
    rw [hre] at r1'
    cases r1'
    obtain ⟨m1', r1', _, r3⟩ := C28_reassert_partial hbP hd true (by simpa using ho)
    rw [r1] at r1'
    cases r1'
    have hl1 := (PdfManager.inv_of_built (hbP.reassertNorms true r1)).norms
    refine List.ext_getElem? (fun j => ?_)
    by_cases hj : j < log.length
    · have hj0 : log0[j]? = some log[j].1 := by rw [hlog0, List.getElem?_map, List.getElem?_eq_getElem hj]; rfl
      have hfit : log[j].1.2.fittable = true → log[j].1.1.name ∈ PdfLog.fitted log0 := by
        intro hf
        unfold PdfLog.fitted
        exact List.mem_map.2 ⟨log[j].1, List.mem_filter.2 ⟨List.mem_of_getElem? hj0, hf⟩, rfl⟩
      rw [List.getElem?_map, List.getElem?_eq_getElem hj]
      simp only [Option.map_some]
      cases hst : log[j].1.2 with
      | direct =>
        rw [hst] at hfit
        obtain ⟨x, x1, x2⟩ := (r3 j _ hj0).1 hst
        rw [hvalm _ (hfit rfl)] at x1
        rw [show m1.norms[j]? = some x from x2, ← Res.ok.inj x1]
        rfl
      | indirect =>
        rw [hst] at hfit
        obtain ⟨x, x1, x2⟩ := (r3' j _ hj0).1 hst
        have x3 := (r3 j _ hj0).2 (by rw [hst]; decide)
        rw [hset _ (hfit rfl) _ (hall _ (hfit rfl))] at x1
        rw [show m1.norms[j]? = m.norms[j]? from x3, show m.norms[j]? = some x from x2, ← Res.ok.inj x1]
        rfl
      | off =>
        have x3 := (r3 j _ hj0).2 (by rw [hst]; decide)
        have x4 := (r3' j _ hj0).2 (by rw [hst]; decide)
        rw [show m1.norms[j]? = m.norms[j]? from x3, show m.norms[j]? = L0.pdfs.norms[j]? from x4]
        refine hz j ?_
        rw [(PdfManager.inv_of_built hS.built).status, List.getElem?_map, hj0]
        exact congrArg some hst
    · have : log0.length = log.length := by rw [hlog0]; simp
      rw [List.getElem?_eq_none (by omega), List.getElem?_eq_none (by simp; omega)]
  have hdd : ({ L with pdfs := m, shrinker := sh, alreadyShrunk := true } : NLLH σ ℝ).dataDist = d := hdata
  have hstep' : ∀ b, b < d.hist.nBins → ∀ acc m', (m' = m ∨ m' = m1) →
      binStep CMath.real ({ L with pdfs := m, shrinker := sh, alreadyShrunk := true } : NLLH σ ℝ) (acc, m') b =
      (barlowBeeston CMath.real (d.hist.contents.getD b 0) (mu b) (some (s b))).bind
        (fun np => .ok (addTerm CMath.real acc (d.hist.contents.getD b 0) np, m1)) := by
    intro b hbN acc m' hm'
    rw [hstep b (by show b < L.dataDist.hist.nBins; rw [hdata]; exact hbN) acc m' hm']
    show (barlowBeeston CMath.real (L.dataDist.hist.contents.getD b 0) (expectedRate value log0 m.work b)
      (some (bbVariance m1.norms (log.map (·.2)) (expectedRate value log0 m.work b)))).bind
        (fun np => .ok (addTerm CMath.real acc (L.dataDist.hist.contents.getD b 0) np, m1)) = _
    rw [hdata, hmu' b, hnorms, ← hvar b]
  obtain ⟨t, t1, t2⟩ := bb_sum (P := { L with pdfs := m, shrinker := sh, alreadyShrunk := true }) (mu := mu) (s := s)
    (n := fun b => d.hist.contents.getD b 0) hstep' hn (fun b hbN => (hpos b hbN).1)
    (fun b hbN => (hpos b hbN).2.1) (fun b hbN => (hpos b hbN).2.2)
  set m9 := if d.hist.nBins = 0 then m else m1 with hm9
  have t2' : ({ L with pdfs := m, shrinker := sh, alreadyShrunk := true } : NLLH σ ℝ).binSum CMath.real L.dataDist m =
      .ok (some ((List.range d.hist.nBins).map t).sum, m9) := by
    have hnb : L.dataDist.hist.nBins = d.hist.nBins := by rw [hdata]
    unfold binSum
    show Res.forFold _ _ (List.range L.dataDist.hist.nBins) = _
    rw [hnb]
    exact t2
  have hbs := binSum_facts (L := { L with pdfs := m, shrinker := sh, alreadyShrunk := true }) (d := L.dataDist) (M := CMath.real) hbP t2'
  have hg1 : ({ L with pdfs := m9, shrinker := sh, alreadyShrunk := true } : NLLH σ ℝ).getParameters C =
      ({ L with pdfs := m, shrinker := sh, alreadyShrunk := true } : NLLH σ ℝ).getParameters C :=
    getParameters_sim rfl hbs.2.1 (PdfManager.inv_of_built hbs.1) (fun p => .refl C _)
  refine ⟨L, { L with pdfs := m9, shrinker := sh, alreadyShrunk := true }, t, hL, t1, ?_⟩
  unfold evaluate
  rw [hP]
  simp only [Res.ok_bind]
  have t3 : Res.forFold (binStep CMath.real ({ L with pdfs := m, shrinker := sh, alreadyShrunk := true } : NLLH σ ℝ)) (some 0, m)
      (List.range L.dataDist.hist.nBins) = .ok (some ((List.range d.hist.nBins).map t).sum, m9) := t2'
  rw [t3]
  simp only [Res.ok_bind]
  rw [hg1, hgp]
  simp only [Res.ok_bind]
  have : L.constraints = cons := hS.cons
  rw [this, hc]
  rfl

theorem exBB_ok (st : NormStatus) (value : String → ℝ) (s : Nat → ℝ) (r : Nat) (h1 : 0 < r) (h2 : r < 2 ^ 32)
    (ps : ParamDict ℝ) (hst : st ≠ .indirect) (hne : ps ≠ []) (hs : SMap.Sorted ps)
    (hall : ∀ n ∈ PdfLog.fitted [(exRealPdf "a" (1/2) (1/2), .direct), (exRealPdf "b" (1/4) (3/4), st)], SMap.find ps n = some (value n))
    (hva : value "a" = 3) (hvb : st = .direct → value "b" = 1)
    (hvar : ∀ b, s b = bbVariance [3, if st.fittable then value "b" else 0] [10, r] (if b = 0 then 7/4 else if b = 1 then 9/4 else 0))
    (hpos : ∀ b, b < 2 → 0 < s b ∧ (if b = 0 then (7/4 : ℝ) else 9/4) * s b < 1) :
    ∃ (L L' : NLLH (AnySys ℝ) ℝ) (t : Nat → ℝ), NLLH.configuredBB exSysName AnySys.fit (fun _ => .renorm ⟨.new, none, []⟩)
      [((exRealPdf "a" (1/2) (1/2), .direct), 10), ((exRealPdf "b" (1/4) (3/4), st), r)] .empty ps (exRealPdf "d" 4 5) = .ok L ∧
      (∀ b, b < 2 → IsProfiled ((exRealPdf "d" 4 5).hist.contents.getD b 0) (if b = 0 then 7/4 else if b = 1 then 9/4 else 0) (s b) (t b)) ∧
      L.evaluate AnySys.fit CMath.real = .ok (Fl.add (some ((List.range 2).map t).sum) (some 0), L') := by
  refine C32_configured_partial (name := exSysName) (C := AnySys.fit) (objs := fun _ => .renorm ⟨.new, none, []⟩)
    (log := [((exRealPdf "a" (1/2) (1/2), .direct), 10), ((exRealPdf "b" (1/4) (3/4), st), r)])
    (cons := .empty) (ps := ps) (d := exRealPdf "d" 4 5) (c := some 0) ?_ ?_ ?_ hne hs value hall ?_ rfl ?_ ?_
    (fun b => if b = 0 then 7/4 else if b = 1 then 9/4 else 0) s ?_ ?_ ?_ ?_
  · refine PdfLog.before_of_not_right (fun p hp => ?_)
    simp only [List.map_cons, List.map_nil, List.mem_cons, List.not_mem_nil, or_false] at hp
    rcases hp with rfl | rfl
    · decide
    · exact hst
  · show ([NormStatus.direct, st]).Pairwise _
    cases st with
    | indirect => exact absurd rfl hst
    | direct => decide
    | off => decide
  · cases st with
    | indirect => exact absurd rfl hst
    | direct => show (["a", "b"] : List String).Nodup; decide
    | off => show (["a"] : List String).Nodup; decide
  · intro p hp
    simp only [List.mem_cons, List.not_mem_nil, or_false] at hp
    rcases hp with rfl | rfl <;> exact ⟨rfl, rfl, rfl⟩
  · intro b hb
    have : b < 2 := hb
    have hb' : b = 0 ∨ b = 1 := by omega
    rcases hb' with rfl | rfl <;> norm_num [exRealPdf]
  · intro p hp
    simp only [List.mem_cons, List.not_mem_nil, or_false] at hp
    rcases hp with rfl | rfl
    · exact ⟨by norm_num, by norm_num⟩
    · exact ⟨h1, h2⟩
  · intro b
    have hb1 : normOf value (exRealPdf "b" (1/4) (3/4), st) = 1 := by
      cases st with
      | indirect => exact absurd rfl hst
      | direct => exact hvb rfl
      | off => rfl
    have hb2 : normOf value (exRealPdf "a" (1/2) (1/2), NormStatus.direct) = 3 := hva
    show _ = ((_ :: [_] : List ℝ)).sum
    simp only [hb1, hb2]
    match b with
    | 0 => norm_num [exRealPdf]
    | 1 => norm_num [exRealPdf]
    | b + 2 => simp [exRealPdf]
  · intro b
    rw [hvar b]
    show _ = bbVariance [value "a", if st.fittable then value "b" else 0] [10, r] _
    rw [hva]
  · intro b hb
    have : b < 2 := hb
    have hb' : b = 0 ∨ b = 1 := by omega
    obtain ⟨p1, p2⟩ := hpos b this
    rcases hb' with rfl | rfl
    · exact ⟨by norm_num, p1, by simpa using p2⟩
    · exact ⟨by norm_num, p1, by simpa using p2⟩
  · rfl

/-- Non-vacuity of `C32_configured_partial`: two directly fitted distributions, normalisations 3 and 1, made from 10 and 20 events. -/
example : ∃ (L L' : NLLH (AnySys ℝ) ℝ) (t : Nat → ℝ), NLLH.configuredBB exSysName AnySys.fit (fun _ => .renorm ⟨.new, none, []⟩)
      [((exRealPdf "a" (1/2) (1/2), .direct), 10), ((exRealPdf "b" (1/4) (3/4), .direct), 20)] .empty [("a", 3), ("b", 1)]
        (exRealPdf "d" 4 5) = .ok L ∧
      IsProfiled 4 (7/4) (4/35) (t 0) ∧ IsProfiled 5 (9/4) (28/405) (t 1) ∧
      L.evaluate AnySys.fit CMath.real = .ok (some (t 0 + t 1), L') := by
  obtain ⟨L, L', t, h1, h2, h3⟩ := exBB_ok .direct (fun n => if n = "a" then 3 else 1)
    (fun b => if b = 0 then 4/35 else if b = 1 then 28/405 else 0) 20 (by norm_num) (by norm_num) [("a", 3), ("b", 1)] (by decide) (by simp)
    (by show List.Pairwise _ _; simp only [List.pairwise_cons, List.mem_singleton, forall_eq, List.not_mem_nil, false_implies, implies_true, List.Pairwise.nil, and_true]; decide +kernel)
    (by intro n hn
        have : n ∈ (["a", "b"] : List String) := hn
        simp only [List.mem_cons, List.not_mem_nil, or_false] at this
        rcases this with rfl | rfl
        · rfl
        · simp [SMap.find])
    (by simp) (by intro _; simp)
    (by intro b
        match b with
        | 0 => norm_num [bbVariance, NormStatus.fittable, show ("b" : String) ≠ "a" by decide]
        | 1 => norm_num [bbVariance, NormStatus.fittable, show ("b" : String) ≠ "a" by decide]
        | b + 2 => simp [bbVariance])
    (by intro b hb
        have hb' : b = 0 ∨ b = 1 := by omega
        rcases hb' with rfl | rfl <;> norm_num)
  refine ⟨L, L', t, h1, by simpa [exRealPdf] using h2 0 (by norm_num), by simpa [exRealPdf] using h2 1 (by norm_num), ?_⟩
  rw [h3]
  show Res.ok (some _, L') = _
  simp [List.range_succ]

/-- C32, distributions that are not fitted: the claim is false of the code. Without systematics the number of events a fixed
distribution was made from makes no difference to the value: one event or four billion give the same. -/
theorem C32_fixed_wrong : ∃ v : ℝ, ∀ r : Nat, 0 < r → r < 2 ^ 32 → ∃ L L' : NLLH (AnySys ℝ) ℝ,
    NLLH.configuredBB exSysName AnySys.fit (fun _ => .renorm ⟨.new, none, []⟩)
      [((exRealPdf "a" (1/2) (1/2), .direct), 10), ((exRealPdf "b" (1/4) (3/4), .off), r)] .empty [("a", 3)] (exRealPdf "d" 4 5) = .ok L ∧
    L.evaluate AnySys.fit CMath.real = .ok (some v, L') := by
  have key := fun (r : Nat) (h1 : 0 < r) (h2 : r < 2 ^ 32) => exBB_ok .off (fun _ => 3)
    (fun b => if b = 0 then 24/245 else if b = 1 then 8/135 else 0) r h1 h2 [("a", 3)] (by decide) (by simp)
    (by show List.Pairwise _ _; simp)
    (by intro n hn
        have : n ∈ (["a"] : List String) := hn
        simp only [List.mem_cons, List.not_mem_nil, or_false] at this
        subst this; rfl)
    rfl (by intro h; cases h)
    (by intro b
        match b with
        | 0 => norm_num [bbVariance, NormStatus.fittable]
        | 1 => norm_num [bbVariance, NormStatus.fittable]
        | b + 2 => simp [bbVariance])
    (by intro b hb
        have hb' : b = 0 ∨ b = 1 := by omega
        rcases hb' with rfl | rfl <;> norm_num)
  obtain ⟨_, _, t, _, t1, _⟩ := key 1 (by norm_num) (by norm_num)
  refine ⟨t 0 + t 1, fun r h1 h2 => ?_⟩
  obtain ⟨L, L', t', e1, e2, e3⟩ := key r h1 h2
  refine ⟨L, L', e1, ?_⟩
  rw [e3]
  have q : ∀ b, b < 2 → t' b = t b := fun b hb => IsLeast.unique (e2 b hb) (t1 b hb)
  show Res.ok (some _, L') = _
  simp [List.range_succ, q 0 (by norm_num), q 1 (by norm_num)]

/-- A likelihood with the gain, one directly fitted distribution made from `r` events, normalisation 3 and gain 2, data 4 and 5 and
Barlow-Beeston. -/
noncomputable def exGainBB (r : Int) : Res (NLLH ℝ ℝ) := do
  let L ← (NLLH.new (fun _ => 1) : NLLH ℝ ℝ).addSystematic exSysName 0 none
  let L ← L.addPdf exSysName (exRealPdf "s" (1/2) (1/2)) none (some r) .direct
  pure ((((L.registerFitComponents exSysName).setParameters exGain [("g", 2), ("s", 3)]).1.setDataDist (exRealPdf "d" 4 5)).setBarlowBeeston
    true)

/-- Non-vacuity of `C32_outcome_partial` and `C32_likelihood_partial`: rates 3 and 3/2, 10 events, uncertainties 3/90 and 2/15. -/
example : ∃ (L L' : NLLH ℝ ℝ) (t : Nat → ℝ), exGainBB 10 = .ok L ∧ IsProfiled 4 3 (1/30) (t 0) ∧ IsProfiled 5 (3/2) (2/15) (t 1) ∧
    L.evaluate exGain CMath.real = .ok (some (t 0 + t 1), L') := by
  obtain ⟨L, hL, hrec, e1, e2, e3, e4, e5, e6, e7, e8⟩ : ∃ L, exGainBB 10 = .ok L ∧
      Recorded exSysName exGain CMath.real [.add 0, .addDist "s" [""]] [(exRealPdf "s" (1/2) (1/2), .direct)] L ∧
      L.useBB = true ∧ L.shrinker.buffers = [] ∧ L.calculated = true ∧ L.dataDist = exRealPdf "d" 4 5 ∧
      L.pdfs.getParameter "s" = .ok 3 ∧ L.getParameters exGain = .ok [("g", 2), ("s", 3)] ∧
      (L.objs 0 = 2 ∧ L.constraints.evaluate [("g", 2), ("s", 3)] = .ok (some 0)) ∧ L.genRates = [10] := by
    refine ⟨_, rfl, ?_, rfl, rfl, rfl, rfl, rfl, rfl, ⟨rfl, rfl⟩, rfl⟩
    exact .setBarlowBeeston true (.setDataDist (exRealPdf "d" 4 5) (.setParameters [("g", 2), ("s", 3)] (.registerFitComponents
        (.addPdf (exRealPdf "s" (1/2) (1/2)) none (some 10) .direct (.addSystematic 0 none (.new (fun _ => 1)) rfl) rfl))))
  obtain ⟨R, cs, h1, h2, h3, h5⟩ := C32_outcome_partial exGain_refreshing hrec (by simp [SysLog.added, ManagerCall.added?]) e1 e2 e3
    (by show (["s"] : List String).Nodup; decide) (by intro p hp; rw [List.mem_singleton.1 hp]) (by rw [e4]; rfl) 2
    (by rw [e4]; exact le_refl 2)
    (by intro p hp
        simp only [List.mem_cons, List.not_mem_nil, or_false] at hp
        subst hp; rw [e4]; exact ⟨rfl, rfl, rfl⟩)
    (fun p _ => ⟨_, rfl, rfl, rfl⟩)
    (fun _ => 3) (by
      intro n hn
      have : n ∈ (["s"] : List String) := hn
      rw [List.mem_singleton] at this
      subst this; exact e5) (by rw [e8]; exact le_refl 1) (by rw [e8]; intro g hg; rw [List.mem_singleton.1 hg]; decide)
    (by rw [e4]
        intro b hb
        have hb' : b = 0 ∨ b = 1 := by have : b < 2 := hb; omega
        rcases hb' with rfl | rfl <;> norm_num [exRealPdf]) e6 e7.2
  rw [e4, e8] at h5
  obtain ⟨gs, c, c1, c2, c3⟩ := h3 0 _ rfl
  have hgs : gs = [""] := by
    have : SysLog.assigned [.add 0, .addDist "s" [""]] "s" = some [""] := by decide +kernel
    rw [show (exRealPdf "s" (1/2) (1/2)).name = "s" from rfl] at c1
    exact Option.some.inj (c1.symm.trans this)
  subst hgs
  obtain ⟨g, g1, g2⟩ := h1 0 (by simp [SysLog.added, ManagerCall.added?])
  have hg : g = 2 := by
    rw [← e7.1]; exact (Res.ok.inj g1).symm
  subst hg
  have hc : c = [1, 1/2] := by
    unfold Distorts applyInOrder at c3
    have hact : SysLog.acting [.add 0, .addDist "s" [""]] [""] = [0] := by decide +kernel
    rw [hact] at c3
    simp only [List.map_cons, List.map_nil, Res.forFold, ← g2] at c3
    have he : (exGain.response (2 : ℝ)).apply (exRealPdf "s" (1/2) (1/2)).hist.contents = .ok [1, 1/2] := by
      unfold Matrix'.apply ArmaMat.mulVec
      simp [exGain, exRealPdf, List.range_succ]
      rfl
    rw [he] at c3
    exact (Res.ok.inj c3).symm
  subst hc
  have hcs : cs = [[1, 1/2]] := by
    match cs, h2, c2 with
    | [x], _, c2 => simpa using c2
  subst hcs
  have hr0 : distortedRate (fun _ => (3 : ℝ)) [(exRealPdf "s" (1/2) (1/2), .direct)] [[1, 1/2]] 0 = 3 := by
    norm_num [distortedRate, normOf, NormStatus.fittable]
  have hr1 : distortedRate (fun _ => (3 : ℝ)) [(exRealPdf "s" (1/2) (1/2), .direct)] [[1, 1/2]] 1 = 3/2 := by
    norm_num [distortedRate, normOf, NormStatus.fittable]
  have hs0 : bbVariance [3] [10] 3 = 1/30 := by norm_num [bbVariance]
  have hs1 : bbVariance [3] [10] (3/2) = 2/15 := by norm_num [bbVariance]
  obtain ⟨k1, _⟩ := h5 _ _ (fun _ => rfl) (fun _ => rfl) (by
    intro b hb
    have hb' : b = 0 ∨ b = 1 := by have : b < 2 := hb; omega
    simp only [List.map_cons, List.map_nil]
    rcases hb' with rfl | rfl
    · rw [hr0, hs0]; norm_num
    · rw [hr1, hs1]; norm_num)
  obtain ⟨t, L', t1, t2⟩ := k1 (by
    intro b hb
    have hb' : b = 0 ∨ b = 1 := by have : b < 2 := hb; omega
    simp only [List.map_cons, List.map_nil]
    rcases hb' with rfl | rfl
    · rw [hr0, hs0]; norm_num
    · rw [hr1, hs1]; norm_num)
  have q0 := t1 0 (by show 0 < 2; norm_num)
  have q1 := t1 1 (by show 1 < 2; norm_num)
  simp only [List.map_cons, List.map_nil] at q0 q1
  rw [hr0, hs0] at q0
  rw [hr1, hs1] at q1
  refine ⟨L, L', t, hL, by simpa [exRealPdf] using q0, by simpa [exRealPdf] using q1, ?_⟩
  rw [t2]
  show Res.ok (some (((List.range 2).map t).sum + (0 : ℝ)), L') = _
  simp [List.range_succ]

end Oxsx
