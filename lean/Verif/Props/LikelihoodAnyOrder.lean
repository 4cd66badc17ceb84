import Verif.Props.AnyOrder
import Verif.Props.FitDataAny
/-
C31, C87 and C104 for every order of directly, indirectly and not fitted distributions: the exact value of the likelihood.
-/
set_option linter.unusedVariables false
set_option linter.unusedSectionVars false
set_option linter.unusedSimpArgs false
namespace Oxsx
variable {σ : Type}
open NLLH

/-- The expected number in a bin with the parameter the manager takes for each distribution (`PdfLog.takenName`), from the contents of each. -/
def PdfLog.takenRate {α : Type} [Field α] [LinearOrder α] (value : String → α) (log : List (BinnedED α × NormStatus)) (cs : List (List α)) (b : Nat) : α :=
  (cs.zipIdx.map (fun q => PdfLog.takenNorm value log q.2 * q.1.getD b 0)).sum

/-- In the order that works, each parameter scales its own distribution. -/
theorem PdfLog.takenRate_eq {α : Type} [Field α] [LinearOrder α] {value : String → α} {log : List (BinnedED α × NormStatus)} (hd : PdfLog.DistinctNames log)
    (ho : PdfLog.Before .direct .indirect log) {cs : List (List α)} (hl : cs.length = log.length) (b : Nat) :
    PdfLog.takenRate value log cs b = distortedRate value log cs b := by
  unfold PdfLog.takenRate distortedRate
  have h := (C27_order_exact hd).2 ho
  congr 1
  apply List.ext_getElem
  · simp [hl]
  · intro i h1 h2
    simp only [List.length_map, List.length_zipIdx] at h1
    have hi : i < log.length := by omega
    simp only [List.getElem_map, List.getElem_zipIdx, List.getElem_zip, Nat.zero_add]
    congr 1
    unfold PdfLog.takenNorm normOf
    rw [h i log[i].1 log[i].2 (by simp [hi])]
    by_cases hf : log[i].2.fittable = true
    · rw [if_pos hf, if_pos hf]
    · rw [if_neg hf, if_neg hf]

theorem PdfLog.takenNorm_congr {α : Type} [Field α] [LinearOrder α] {value value' : String → α} {log : List (BinnedED α × NormStatus)}
    (h : ∀ n ∈ PdfLog.fitted log, value n = value' n) (i : Nat) : PdfLog.takenNorm value log i = PdfLog.takenNorm value' log i := by
  unfold PdfLog.takenNorm
  cases ht : PdfLog.takenName log i with
  | none => rfl
  | some n => exact h n (PdfLog.takenName_mem ht)

theorem zipIdx_map_fst {β γ : Type} (f : β → γ) (g : γ × Nat → ℝ) (l : List β) (k : Nat) :
    (l.zipIdx k).map (fun q => g (f q.1, q.2)) = ((l.map f).zipIdx k).map g := by
  induction l generalizing k with
  | nil => rfl
  | cons a l ih => simp [ih]

/-- C31, every order: as `C31_value_partial`, with the parameter the manager takes for each distribution, whatever the order in which directly,
indirectly and not fitted ones were added. -/
theorem C31_any_order {C : FitSys σ ℝ} {L P : NLLH σ ℝ} {log : List (BinnedED ℝ × NormStatus)}
    (hb : PdfManager.Built log L.pdfs) (hbb : L.useBB = false) (hd : PdfLog.DistinctNames log) (hP : L.prepare C = .ok P)
    (hdata : P.dataDist.hist.contents.length = P.dataDist.hist.nBins)
    (hdim : ∀ w ∈ P.pdfs.work, P.dataDist.hist.nBins ≤ w.hist.nBins ∧ w.hist.contents.length = w.hist.nBins)
    (value : String → ℝ) (hval : ∀ n ∈ PdfLog.fitted log, L.pdfs.getParameter n = .ok (value n)) (mu : Nat → ℝ)
    (hmu : mu = PdfLog.takenRate value log (P.pdfs.work.map (fun w => w.hist.contents))) :
    ((∃ b, b < P.dataDist.hist.nBins ∧ mu b = 0) → L.evaluate C CMath.real = .throw .runtime) ∧
    (∀ ps c, (∀ b, b < P.dataDist.hist.nBins → mu b ≠ 0) → P.getParameters C = .ok ps →
      L.constraints.evaluate ps = .ok c → ∃ L',
        L.evaluate C CMath.real = .ok (Fl.add (if ∀ b, b < P.dataDist.hist.nBins → 0 < mu b then
          some ((List.range P.dataDist.hist.nBins).map (fun b => poissonTerm (P.dataDist.hist.contents.getD b 0)
            (mu b))).sum else none) c, L')) := by
  obtain ⟨hbP, hsame, _, _⟩ := prepare_facts hb hP
  refine NLLH.value_given hb hbb hP hdata mu ?_
  intro m hbm hw hk b hbN
  obtain ⟨m', e1, e2, e3⟩ := C27_any_order hbm hd b (fun w hw' => by
    have := hdim w (hw ▸ hw')
    exact ⟨by omega, this.2⟩) value (fun n hn => by
      rw [hk n, PdfManager.getParameter_congr hsame (PdfManager.inv_of_built hbP) n]
      exact hval n hn)
  refine ⟨m', ?_, e2, e3⟩
  rw [e1, hmu, hw]
  congr 2
  unfold PdfLog.takenRate
  rw [zipIdx_map_fst (fun w : BinnedED ℝ => w.hist.contents) (fun q => PdfLog.takenNorm value log q.2 * q.1.getD b 0)]

/-- C31, every order, from the configuration to the value: distributions of distinct names added to a new likelihood in any order of fitting
statuses, constraints, parameters and data as in `C31_configured_partial`. -/
theorem C31_configured_any_order {name : Nat → String} {C : FitSys σ ℝ} {objs : Nat → σ} {log : List (BinnedED ℝ × NormStatus)}
    {cons : ConstraintManager ℝ} {ps : ParamDict ℝ} {d : BinnedED ℝ} {c : Fl ℝ} (hd : PdfLog.DistinctNames log)
    (hne : ps ≠ []) (hs : SMap.Sorted ps)
    (hall : ∀ n ∈ PdfLog.fitted log, (SMap.find ps n).isSome)
    (hobs : ∀ p ∈ log, p.1.obs.names = d.obs.names ∧ p.1.hist.nBins = d.hist.nBins ∧ p.1.hist.contents.length = d.hist.nBins)
    (hdl : d.hist.contents.length = d.hist.nBins) (mu : Nat → ℝ)
    (hmu : mu = PdfLog.takenRate (fun n => (SMap.find ps n).getD 0) log (log.map (fun p => p.1.hist.contents)))
    (hpos : ∀ b, b < d.hist.nBins → 0 < mu b)
    (hc : cons.evaluate (ps.filter (fun p => p.1 ∈ PdfLog.fitted log)) = .ok c) :
    ∃ L L', NLLH.configured name C objs log cons ps d = .ok L ∧
      L.evaluate C CMath.real = .ok (Fl.add (some ((List.range d.hist.nBins).map (fun b => poissonTerm (d.hist.contents.getD b 0) (mu b))).sum) c, L') := by
  obtain ⟨L, h1, h, hset⟩ := NLLH.configured_simple (name := name) (C := C) (objs := objs) (cons := cons) (d := d) hd hne hall
  have hval : ∀ n ∈ PdfLog.fitted log, ∃ v, SMap.find ps n = some v ∧ L.pdfs.getParameter n = .ok v := fun n hn => by
    obtain ⟨v, hv⟩ := Option.isSome_iff_exists.1 (hall n hn)
    exact ⟨v, hv, hset n hn v hv⟩
  obtain ⟨m, sh, hsb, p1, _, hP⟩ := NLLH.configured_prepare (C := C) h.built h.work h.buf h.sys h.calced
    (by rw [h.data]; exact fun p hp => (hobs p hp).1) hd
  obtain ⟨hbP, hsame, _, _⟩ := prepare_facts h.built hP
  simp only at hbP hsame
  have hSP : ({ L with pdfs := m, shrinker := sh, alreadyShrunk := true } : NLLH σ ℝ).Simple log cons d :=
    ⟨hbP, p1, h.bb, hsb, h.sys, h.data, h.calced, h.cons, h.comp⟩
  have hvalm : ∀ n ∈ PdfLog.fitted log, ∃ v, SMap.find ps n = some v ∧ m.getParameter n = .ok v := by
    intro n hn
    obtain ⟨v, e1, e2⟩ := hval n hn
    exact ⟨v, e1, (PdfManager.getParameter_congr hsame (PdfManager.inv_of_built hbP) n).trans e2⟩
  have hgp := hSP.getParameters C hd hs hvalm
  have main := C31_any_order h.built h.bb hd hP (by
      show L.dataDist.hist.contents.length = L.dataDist.hist.nBins
      rw [h.data]; exact hdl) (by
    intro w hw'
    have hw'' : w ∈ m.work := hw'
    rw [p1] at hw''
    obtain ⟨p, hp, rfl⟩ := List.mem_map.1 hw''
    obtain ⟨_, e2, e3⟩ := hobs p hp
    show L.dataDist.hist.nBins ≤ _ ∧ _
    rw [h.data]
    exact ⟨e2.ge, e3.trans e2.symm⟩) (fun n => (SMap.find ps n).getD 0) (by
      intro n hn
      obtain ⟨v, e1, e2⟩ := hval n hn
      rw [e2, e1]; rfl) mu (by rw [hmu]; simp only; rw [p1, List.map_map]; rfl)
  simp only at main
  rw [h.data, h.cons] at main
  obtain ⟨L', hL'⟩ := main.2 _ c (fun b hb => (hpos b hb).ne') hgp hc
  rw [if_pos hpos] at hL'
  exact ⟨L, L', h1, hL'⟩

/-- C31 is false of the code for the other orders: if an indirectly fitted distribution comes before the last directly fitted one, the likelihood
does not depend on the parameter of the latter at all: any two values of it give the same value of the likelihood. -/
theorem C31_no_effect_wrong {name : Nat → String} {C : FitSys σ ℝ} {objs : Nat → σ} {l₁ l₂ : List (BinnedED ℝ × NormStatus)} {p : BinnedED ℝ}
    {ps ps' : ParamDict ℝ} {d : BinnedED ℝ} (hd : PdfLog.DistinctNames (l₁ ++ (p, .direct) :: l₂)) (hi : ∃ q ∈ l₁, q.2 = .indirect)
    (hl : ∀ q ∈ l₂, q.2 ≠ .direct) (hne : ps ≠ []) (hs : SMap.Sorted ps) (hne' : ps' ≠ []) (hs' : SMap.Sorted ps')
    (hall : ∀ n ∈ PdfLog.fitted (l₁ ++ (p, .direct) :: l₂), (SMap.find ps n).isSome)
    (hall' : ∀ n ∈ PdfLog.fitted (l₁ ++ (p, .direct) :: l₂), (SMap.find ps' n).isSome)
    (hagree : ∀ n, n ≠ p.name → SMap.find ps n = SMap.find ps' n)
    (hobs : ∀ q ∈ l₁ ++ (p, .direct) :: l₂, q.1.obs.names = d.obs.names ∧ q.1.hist.nBins = d.hist.nBins ∧ q.1.hist.contents.length = d.hist.nBins)
    (hdl : d.hist.contents.length = d.hist.nBins)
    (hpos : ∀ b, b < d.hist.nBins → 0 < PdfLog.takenRate (fun n => (SMap.find ps n).getD 0) (l₁ ++ (p, .direct) :: l₂)
      ((l₁ ++ (p, .direct) :: l₂).map (fun p => p.1.hist.contents)) b) :
    ∃ v L₁ L₁' L₂ L₂', NLLH.configured name C objs (l₁ ++ (p, .direct) :: l₂) .empty ps d = .ok L₁ ∧ L₁.evaluate C CMath.real = .ok (some v, L₁') ∧
      NLLH.configured name C objs (l₁ ++ (p, .direct) :: l₂) .empty ps' d = .ok L₂ ∧ L₂.evaluate C CMath.real = .ok (some v, L₂') := by
  have hsame : ∀ i, PdfLog.takenNorm (fun n => (SMap.find ps n).getD 0) (l₁ ++ (p, .direct) :: l₂) i =
      PdfLog.takenNorm (fun n => (SMap.find ps' n).getD 0) (l₁ ++ (p, .direct) :: l₂) i := by
    intro i
    unfold PdfLog.takenNorm
    cases ht : PdfLog.takenName (l₁ ++ (p, .direct) :: l₂) i with
    | none => rfl
    | some n =>
      have : n ≠ p.name := fun e => PdfLog.never_taken hd hi hl i (e ▸ ht)
      simp only
      rw [hagree n this]
  have hrate : PdfLog.takenRate (fun n => (SMap.find ps n).getD 0) (l₁ ++ (p, .direct) :: l₂) ((l₁ ++ (p, .direct) :: l₂).map (fun p => p.1.hist.contents)) =
      PdfLog.takenRate (fun n => (SMap.find ps' n).getD 0) (l₁ ++ (p, .direct) :: l₂) ((l₁ ++ (p, .direct) :: l₂).map (fun p => p.1.hist.contents)) := by
    funext b
    unfold PdfLog.takenRate
    congr 1
    refine List.map_congr_left ?_
    intro q _
    rw [hsame]
  have hz : ∀ l : ParamDict ℝ, (ConstraintManager.empty : ConstraintManager ℝ).evaluate l = .ok (some 0) := by intro l; rfl
  obtain ⟨L₁, L₁', e1, e2⟩ := C31_configured_any_order (name := name) (C := C) (objs := objs) (cons := .empty) hd hne hs hall hobs hdl _ rfl hpos (hz _)
  obtain ⟨L₂, L₂', e3, e4⟩ := C31_configured_any_order (name := name) (C := C) (objs := objs) (cons := .empty) hd hne' hs' hall' hobs hdl _ hrate hpos (hz _)
  exact ⟨_, L₁, L₁', L₂, L₂', e1, e2, e3, e4⟩

/-- C87, every order: with systematics, as `C87_outcome_partial`, whatever the order in which directly, indirectly and not fitted distributions were
added. -/
theorem C87_any_order {name : Nat → String} {C : FitSys σ ℝ} (hC : C.Refreshing) {calls : List ManagerCall}
    {log : List (BinnedED ℝ × NormStatus)} {L : NLLH σ ℝ} (hR : Recorded name C CMath.real calls log L)
    (hadd : SysLog.added calls ≠ []) (hbb : L.useBB = false) (hbuf : L.shrinker.buffers = []) (hcal : L.calculated = true)
    (hd : PdfLog.DistinctNames log)
    (hdata : L.dataDist.hist.contents.length = L.dataDist.hist.nBins) (n : Nat) (hn : L.dataDist.hist.nBins ≤ n)
    (hdim : ∀ p ∈ log, p.1.obs.names = L.dataDist.obs.names ∧ p.1.hist.nBins = n ∧ p.1.hist.contents.length = n)
    (hobjs : ∀ p ∈ SysLog.added calls, ∃ s, C.construct (L.objs p) = .ok s ∧ SysManager.Square n (C.response s))
    (value : String → ℝ) (hval : ∀ n ∈ PdfLog.fitted log, L.pdfs.getParameter n = .ok (value n))
    {ps : ParamDict ℝ} {c : Fl ℝ} (hps : L.getParameters C = .ok ps) (hc : L.constraints.evaluate ps = .ok c) :
    ∃ (R : Nat → Matrix' ℝ) (cs : List (List ℝ)),
      (∀ p ∈ SysLog.added calls, L.CurrentResponse C p (R p)) ∧ cs.length = log.length ∧
      (∀ (j : Nat) p, log[j]? = some p → ∃ gs c, SysLog.assigned calls p.1.name = some gs ∧ cs[j]? = some c ∧
        Distorts calls R gs p.1.hist.contents c) ∧
      ((∃ b, b < L.dataDist.hist.nBins ∧ PdfLog.takenRate value log cs b = 0) → L.evaluate C CMath.real = .throw .runtime) ∧
      ((∀ b, b < L.dataDist.hist.nBins → PdfLog.takenRate value log cs b ≠ 0) → ∃ L',
        L.evaluate C CMath.real = .ok (Fl.add (if ∀ b, b < L.dataDist.hist.nBins → 0 < PdfLog.takenRate value log cs b then
          some ((List.range L.dataDist.hist.nBins).map (fun b => poissonTerm (L.dataDist.hist.contents.getD b 0)
            (PdfLog.takenRate value log cs b))).sum else none) c, L')) := by
  obtain ⟨P, hP⟩ := prepare_succeeds hC hR hadd hbuf hcal n hn hdim hobjs
  obtain ⟨hb, hrel, hresp, hass, hkn⟩ := hR.facts
  obtain ⟨sm, ob, m, m1, m2, sh, sk, hm, hcon, h1, h2, hPe⟩ := prepare_parts hcal hbuf hP
  obtain ⟨hbP, hsame, hbbP, hcP⟩ := prepare_facts hb hP
  have hbm := hb.reassertNorms false hm
  obtain ⟨R, cs, k1, k2, k3, k4⟩ := PdfManager.apply_all hC hbm hrel hadd hass hcon h1
  have hw1 : ∀ w ∈ m1.work, w.obs.names = L.dataDist.obs.names ∧ L.dataDist.hist.nBins ≤ w.hist.nBins ∧
      w.hist.contents.length = w.hist.nBins := by
    intro w hw
    obtain ⟨j, hj⟩ := List.mem_iff_getElem?.1 hw
    rw [k4, List.getElem?_zipWith] at hj
    cases hlj : log[j]? with
    | none => rw [hlj] at hj; simp at hj
    | some p =>
      obtain ⟨gs, c, c1, c2, c3, c4, _⟩ := k3 j p hlj
      rw [hlj, c2] at hj
      simp only [Option.some.injEq] at hj
      subst hj
      obtain ⟨d1, d2, d3⟩ := hdim p (List.mem_of_getElem? hlj)
      exact ⟨d1, by simp only; omega, c4 (by omega)⟩
  have hm2 : m2 = m1 := PdfManager.assert_id (fun w hw => (hw1 w hw).1) h2
  subst hm2
  subst hPe
  have hcs : m2.work.map (fun w => w.hist.contents) = cs := by
    rw [k4]
    apply List.ext_getElem
    · simp [k2]
    · intro i h1 h2
      simp
  have key := C31_any_order (C := C) hb hbb hd hP hdata (fun w hw => (hw1 w hw).2) value hval (PdfLog.takenRate value log cs) (by simp only; rw [hcs])
  simp only at key
  have hg2 : ({ L with pdfs := m2, sys := sm, objs := ob, shrinker := sh, alreadyShrunk := sk } : NLLH σ ℝ).getParameters C =
      L.getParameters C :=
    getParameters_sim rfl hsame (PdfManager.inv_of_built hbP) (fun p => SysManager.construct_equiv hC hcon p)
  refine ⟨R, cs, k1, k2, fun j p hj => by
    obtain ⟨gs, c, c1, c2, c3, _⟩ := k3 j p hj
    exact ⟨gs, c, c1, c2, c3⟩, key.1, ?_⟩
  intro hne
  exact key.2 ps c hne (hg2.trans hps) hc

/-- C104, every order: with systematics and a data set not yet binned, as `C104_systematics_outcome_partial`, whatever the order in which directly,
indirectly and not fitted distributions were added. -/
theorem C104_any_order {name : Nat → String} {C : FitSys σ ℝ} (hC : C.Refreshing) {calls : List ManagerCall}
    {log : List (BinnedED ℝ × NormStatus)} {L : NLLH σ ℝ} (hR : Recorded name C CMath.real calls log L)
    (hadd : SysLog.added calls ≠ []) (hbb : L.useBB = false) (hbuf : L.shrinker.buffers = [])
    {d : DataSet ℝ} {first : BinnedED ℝ} {as : List (BinAxis ℝ)} (hdat : L.data = some d) (hcal : L.calculated = false)
    (hd : PdfLog.DistinctNames log) (hfirst : (log.map (·.1))[0]? = some first) (hfit : first.Fits as d.names)
    (hready : d.Ready L.cuts []) (hsmall : d.getNEntries < 2 ^ 31)
    (hdim : ∀ p ∈ log, p.1.obs.names = first.obs.names ∧ p.1.hist.nBins = first.hist.nBins ∧ p.1.hist.contents.length = first.hist.nBins)
    (hobjs : ∀ p ∈ SysLog.added calls, ∃ s, C.construct (L.objs p) = .ok s ∧ SysManager.Square first.hist.nBins (C.response s))
    (value : String → ℝ) (hval : ∀ n ∈ PdfLog.fitted log, L.pdfs.getParameter n = .ok (value n))
    {ps : ParamDict ℝ} {c : Fl ℝ} (hps : L.getParameters C = .ok ps) (hc : L.constraints.evaluate ps = .ok c) :
    ∃ (R : Nat → Matrix' ℝ) (cs : List (List ℝ)),
      (∀ p ∈ SysLog.added calls, L.CurrentResponse C p (R p)) ∧ cs.length = log.length ∧
      (∀ (j : Nat) p, log[j]? = some p → ∃ gs c, SysLog.assigned calls p.1.name = some gs ∧ cs[j]? = some c ∧
        Distorts calls R gs p.1.hist.contents c) ∧
      ((∃ b, b < first.hist.nBins ∧ PdfLog.takenRate value log cs b = 0) → L.evaluate C CMath.real = .throw .runtime) ∧
      ((∀ b, b < first.hist.nBins → PdfLog.takenRate value log cs b ≠ 0) → ∃ L',
        L.evaluate C CMath.real = .ok (Fl.add (if ∀ b, b < first.hist.nBins → 0 < PdfLog.takenRate value log cs b then
          some (extendedNLL first.hist.nBins (PdfLog.takenRate value log cs) (fun e => PdfLog.takenRate value log cs (first.binOf e))
            (d.passing L.cuts)) else none) c, L')) := by
  obtain ⟨dist, o0, o1, o2, o3, o4, he⟩ := C104_equivalent hR hdat hcal hfirst hfit hready hsmall
  obtain ⟨R, cs, k1, k2, k3, k4, k5⟩ := C87_any_order hC (hR.setDataDist dist) hadd hbb hbuf rfl hd
    (show dist.hist.contents.length = dist.hist.nBins by rw [o3, o2]) first.hist.nBins (show dist.hist.nBins ≤ _ from le_of_eq o2)
    (fun p hp => by
      obtain ⟨d1, d2, d3⟩ := hdim p hp
      exact ⟨by rw [d1]; exact (congrArg _ o1).symm, d2, d3⟩) hobjs value hval (ps := ps) (c := c) hps hc
  have e : (L.setDataDist dist).dataDist.hist.nBins = first.hist.nBins := o2
  rw [e, ← he] at k4 k5
  rw [extended_of_counts (fun e he => (hfit.binOf (DataSet.mem_passing hready he)).1) (n := fun b => (L.setDataDist dist).dataDist.hist.contents.getD b 0)
    (fun b hb => o4 b hb)] at k5
  exact ⟨R, cs, k1, k2, k3, k4, k5⟩

/-! ### Three distributions, the indirectly fitted one in the middle -/

/-- Parameters 1, 2 and `z`: the third one has no effect, both others of the last two are scaled by the second one. -/
example (C : FitSys σ ℝ) (objs : Nat → σ) (z z' : ℝ) :
    ∃ v L₁ L₁' L₂ L₂', NLLH.configured exSysName C objs
        [(exRealPdf "a" (1/2) (1/2), .direct), (exRealPdf "b" (1/4) (3/4), .indirect), (exRealPdf "c" 1 1, .direct)] .empty
        [("a", 1), ("b", 2), ("c", z)] (exRealPdf "d" 4 5) = .ok L₁ ∧ L₁.evaluate C CMath.real = .ok (some v, L₁') ∧
      NLLH.configured exSysName C objs
        [(exRealPdf "a" (1/2) (1/2), .direct), (exRealPdf "b" (1/4) (3/4), .indirect), (exRealPdf "c" 1 1, .direct)] .empty
        [("a", 1), ("b", 2), ("c", z')] (exRealPdf "d" 4 5) = .ok L₂ ∧ L₂.evaluate C CMath.real = .ok (some v, L₂') := by
  have hsorted : ∀ w : ℝ, SMap.Sorted ([("a", 1), ("b", 2), ("c", w)] : ParamDict ℝ) := by
    intro w
    show List.Pairwise _ _
    simp only [List.pairwise_cons, List.mem_cons, List.not_mem_nil, or_false, List.Pairwise.nil, and_true]
    refine ⟨?_, ?_, by simp⟩
    · rintro a (rfl | rfl)
      · show ("a" : String) < "b"; decide
      · show ("a" : String) < "c"; decide
    · rintro a rfl; show ("b" : String) < "c"; decide
  have hall : ∀ w : ℝ, ∀ n ∈ PdfLog.fitted ([(exRealPdf "a" (1/2) (1/2), .direct), (exRealPdf "b" (1/4) (3/4), .indirect)] ++ (exRealPdf "c" 1 1, .direct) :: []),
      (SMap.find ([("a", 1), ("b", 2), ("c", w)] : ParamDict ℝ) n).isSome := by
    intro w n hn
    have : n ∈ (["a", "b", "c"] : List String) := hn
    simp only [List.mem_cons, List.not_mem_nil, or_false] at this
    rcases this with rfl | rfl | rfl <;> rfl
  refine C31_no_effect_wrong (l₁ := [(exRealPdf "a" (1/2) (1/2), .direct), (exRealPdf "b" (1/4) (3/4), .indirect)]) (l₂ := []) (p := exRealPdf "c" 1 1)
    (by show (["a", "b", "c"] : List String).Nodup; decide) ⟨(exRealPdf "b" (1/4) (3/4), .indirect), by simp, rfl⟩ (by simp) (by simp) (hsorted z) (by simp) (hsorted z')
    (hall z) (hall z') ?_ ?_ rfl ?_
  · intro n hn
    have hn : n ≠ "c" := hn
    simp [SMap.find, hn.symm]
  · intro q hq
    simp only [List.cons_append, List.nil_append, List.mem_cons, List.not_mem_nil, or_false] at hq
    rcases hq with rfl | rfl | rfl <;> exact ⟨rfl, rfl, rfl⟩
  · intro b hb
    have hb' : b = 0 ∨ b = 1 := by
      have : b < 2 := hb
      omega
    have t0 : PdfLog.takenNorm (fun n => (SMap.find ([("a", 1), ("b", 2), ("c", z)] : ParamDict ℝ) n).getD 0) ([(exRealPdf "a" (1/2) (1/2), .direct), (exRealPdf "b" (1/4) (3/4), .indirect)] ++ (exRealPdf "c" 1 1, .direct) :: []) 0 = 1 := rfl
    have t1 : PdfLog.takenNorm (fun n => (SMap.find ([("a", 1), ("b", 2), ("c", z)] : ParamDict ℝ) n).getD 0) ([(exRealPdf "a" (1/2) (1/2), .direct), (exRealPdf "b" (1/4) (3/4), .indirect)] ++ (exRealPdf "c" 1 1, .direct) :: []) 1 = 2 := rfl
    have t2 : PdfLog.takenNorm (fun n => (SMap.find ([("a", 1), ("b", 2), ("c", z)] : ParamDict ℝ) n).getD 0) ([(exRealPdf "a" (1/2) (1/2), .direct), (exRealPdf "b" (1/4) (3/4), .indirect)] ++ (exRealPdf "c" 1 1, .direct) :: []) 2 = 2 := rfl
    unfold PdfLog.takenRate
    simp only [List.cons_append, List.nil_append] at t0 t1 t2 ⊢
    simp only [List.map_cons, List.map_nil, List.zipIdx_cons, List.zipIdx_nil, List.sum_cons, List.sum_nil, Nat.zero_add, t0, t1, t2, Nat.reduceAdd]
    rcases hb' with rfl | rfl <;> norm_num [exRealPdf]

end Oxsx
