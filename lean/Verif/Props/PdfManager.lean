import Verif.Lemmas.PdfManager
import Verif.Props.Parameters
import Mathlib.Data.Rat.Defs
import Mathlib.Algebra.BigOperators.Group.List.Basic
import Mathlib.Tactic.NormNum
/-
C27 (expected rate is the sum of normalisation times content) and C28 (each fitted normalisation reaches its distribution).
-/
set_option linter.unusedSectionVars false
set_option linter.unusedSimpArgs false
set_option linter.unusedVariables false
namespace Oxsx
open scoped List
variable {α : Type} [Field α] [LinearOrder α]

namespace PdfManager

theorem before_rank {log : List (BinnedED α × NormStatus)} {a b : NormStatus}
    (h : PdfLog.Before a b log) (hcase : ∀ t : NormStatus, t.fittable = true ↔ t = a ∨ t = b) {i : Nat}
    {p : BinnedED α × NormStatus} (hp : log[i]? = some p) (hpa : p.2 = a) :
    rank (fun p => decide (p.2 = a)) log i = rank (fun p => p.2.fittable) log i := by
  obtain ⟨hil, hpe⟩ := List.getElem?_eq_some_iff.1 hp
  refine rank_congr ?_
  intro q hq
  obtain ⟨k, hk, hke⟩ := List.mem_iff_getElem.1 hq
  rw [List.getElem_take] at hke
  have hki : k < i := by simp at hk; exact hk.1
  have hne : ¬ q.2 = b := by
    intro hqb
    have := List.pairwise_iff_getElem.1 h k i (by simp; omega) (by simpa using hil) hki
    apply this
    simp only [List.getElem_map, hke, hpe]
    exact ⟨hqb, hpa⟩
  have := hcase q.2
  by_cases h1 : q.2 = a
  · simp [h1, (hcase a).2 (Or.inl rfl)]
  · have h2 : q.2.fittable ≠ true := fun h => by
      rcases this.1 h with h | h
      · exact h1 h
      · exact hne h
    simp [h1, h2]

theorem fittable_cases (t : NormStatus) : t.fittable = true ↔ t = .direct ∨ t = .indirect := by
  cases t <;> simp [NormStatus.fittable]

/-- The weighted sum over all distributions that the two probability loops compute. -/
theorem prob_loop {log : List (BinnedED α × NormStatus)} {m : PdfManager α} (hi : Inv log m)
    (hd : PdfLog.DistinctNames log) (ho : PdfLog.Before .direct .indirect log)
    (value : String → α) (hv : ∀ n ∈ PdfLog.fitted log, m.getParameter n = .ok (value n))
    (f : BinnedED α → Res α) (g : BinnedED α → α) (hf : ∀ w ∈ m.work, f w = .ok (g w)) :
    ∃ (ns : List α) (j : Nat), m.reassertNorms true = .ok { m with norms := ns } ∧ ns.length = m.norms.length ∧
      (m.allDirect = true → ns = m.norms) ∧
      Res.forFold (PdfManager.probStep { m with norms := ns } f) (0, 0) (List.range m.work.length)
        = .ok (((log.zip m.work).map (fun q => normOf value q.1 * g q.2)).sum, j) := by
  have hmem : ∀ {i : Nat} {p : BinnedED α × NormStatus}, log[i]? = some p → p.2.fittable = true →
      p.1.name ∈ PdfLog.fitted log := by
    intro i p hp hfp
    unfold PdfLog.fitted
    exact List.mem_map.2 ⟨p, List.mem_filter.2 ⟨List.mem_of_getElem? hp, hfp⟩, rfl⟩
  have hns : ∃ ns : List α, m.reassertNorms true = .ok { m with norms := ns } ∧ ns.length = m.norms.length ∧
      (m.allDirect = true → ns = m.norms) ∧
      ∀ (i : Nat) p, log[i]? = some p → p.2 = .direct → ns[i]? = some (value p.1.name) := by
    by_cases ha : m.allDirect = true
    · refine ⟨m.norms, ?_, rfl, fun _ => rfl, ?_⟩
      · unfold reassertNorms; rw [if_pos ha]
      · intro i p hp hpd
        obtain ⟨v, h1, h2, _⟩ := value_at hi hd hp (by rw [hpd]; rfl)
        rw [hv _ (hmem hp (by rw [hpd]; rfl))] at h1
        cases h1
        exact h2 ha
    · have ha' : m.allDirect = false := by simpa using ha
      obtain ⟨ns, h1, h2, h3⟩ := reassert_ok hi true ha' .direct rfl
      refine ⟨ns, h1, h2, fun h => absurd h ha, ?_⟩
      intro i p hp hpd
      obtain ⟨hil, hpe⟩ := List.getElem?_eq_some_iff.1 hp
      rw [h3 i hil, if_pos (by simp [hp, hpd]), before_rank ho fittable_cases hp hpd]
      obtain ⟨v, e1, _, e2⟩ := value_at hi hd hp (by rw [hpd]; rfl)
      rw [hv _ (hmem hp (by rw [hpd]; rfl))] at e1
      cases e1
      exact e2 ha'
  obtain ⟨ns, h1, h2, h3, h4⟩ := hns
  have hloop := Res.forFold_range (f := PdfManager.probStep { m with norms := ns } f) (n := m.work.length)
    (s := ((0 : α), 0))
    (fun k (s : α × Nat) => s.1 = (((log.zip m.work).take k).map (fun q => normOf value q.1 * g q.2)).sum ∧
      s.2 = rank (fun p => p.2.fittable) log k)
    ⟨by simp, by simp [rank]⟩ (by
      rintro k ⟨s, j⟩ hk ⟨hs1, hs2⟩
      simp only at hs1 hs2
      have hkl : k < log.length := by rw [← hi.work]; exact hk
      have hlk : log[k]? = some log[k] := by simp [hkl]
      have hzk : (log.zip m.work)[k]? = some (log[k], m.work[k]) := by simp [hkl, hk]
      have hsum : (((log.zip m.work).take (k + 1)).map (fun q => normOf value q.1 * g q.2)).sum
          = s + normOf value log[k] * g m.work[k] := by
        rw [List.take_add_one, hzk, List.map_append, List.sum_append, hs1]; simp
      have hj := rank_succ (p := fun p : BinnedED α × NormStatus => p.2.fittable) hlk
      have hfk := hf m.work[k] (List.getElem_mem hk)
      have hst : at_ m.status k = .ok log[k].2 := by
        rw [hi.status, at_ok]; simp [hkl]
      unfold probStep
      simp only
      rw [hst, at_of_lt hk]
      simp only [Res.ok_bind]
      cases hsk : log[k].2 with
      | off =>
        simp only [hfk, Res.ok_bind]
        refine ⟨_, rfl, ?_, ?_⟩
        · simp only [hsum]
          have : normOf value log[k] = 1 := by unfold normOf; rw [hsk]; rfl
          rw [this, one_mul]
        · show _ = rank (fun p : BinnedED α × NormStatus => p.2.fittable) log (k + 1)
          rw [hj, ← hs2, hsk]; rfl
      | direct =>
        have hn := h4 k _ hlk hsk
        rw [show at_ ns k = .ok _ from at_ok.2 hn]
        simp only [hfk, Res.ok_bind]
        refine ⟨_, rfl, ?_, ?_⟩
        · simp only [hsum]
          have : normOf value log[k] = value log[k].1.name := by unfold normOf; rw [hsk]; rfl
          rw [this]
        · show _ = rank (fun p : BinnedED α × NormStatus => p.2.fittable) log (k + 1)
          rw [hj, ← hs2, hsk]; rfl
      | indirect =>
        have ha : m.allDirect = false := by
          rw [hi.alld]
          refine Bool.eq_false_iff.2 (fun h => ?_)
          have := List.all_eq_true.1 h _ (List.getElem_mem hkl)
          rw [hsk] at this; simp at this
        obtain ⟨v, e1, _, e2⟩ := value_at hi hd hlk (by rw [hsk]; rfl)
        rw [hv _ (hmem hlk (by rw [hsk]; rfl))] at e1
        cases e1
        rw [show at_ m.fitNorms j = .ok _ from at_ok.2 (hs2 ▸ e2 ha)]
        simp only [hfk, Res.ok_bind]
        refine ⟨_, rfl, ?_, ?_⟩
        · simp only [hsum]
          have : normOf value log[k] = value log[k].1.name := by unfold normOf; rw [hsk]; rfl
          rw [this]
        · show _ = rank (fun p : BinnedED α × NormStatus => p.2.fittable) log (k + 1)
          rw [hj, ← hs2, hsk]; rfl)
  obtain ⟨⟨t, j⟩, hl1, hl2, _⟩ := hloop
  refine ⟨ns, j, h1, h2, h3, ?_⟩
  rw [hl1]
  simp only at hl2
  rw [hl2, List.take_of_length_le (by simp [hi.work])]

/-- Re-asserted normalisations do not change what the parameters read. -/
theorem getParameter_norms {log : List (BinnedED α × NormStatus)} {m : PdfManager α} (hi : Inv log m)
    (hd : PdfLog.DistinctNames log) {ns : List α} (hn : m.allDirect = true → ns = m.norms) (n : String) :
    PdfManager.getParameter { m with norms := ns } n = m.getParameter n := by
  by_cases ha : m.allDirect = true
  · rw [hn ha]
  · unfold PdfManager.getParameter ParamManager.getParameter
    simp only
    congr 1
    cases hf : m.params.find n with
    | none => rfl
    | some r =>
      rw [hi.params] at hf
      obtain ⟨i, _, hr⟩ := regOf_find_iff hd hf
      subst hr
      simp only [if_neg ha]
      rfl

theorem getParameters_norms {log : List (BinnedED α × NormStatus)} {m : PdfManager α} (hi : Inv log m)
    (hd : PdfLog.DistinctNames log) {ns : List α} (hn : m.allDirect = true → ns = m.norms) :
    PdfManager.getParameters { m with norms := ns } = m.getParameters := by
  by_cases ha : m.allDirect = true
  · rw [hn ha]
  · unfold PdfManager.getParameters ParamManager.getParameters
    simp only
    refine Res.forFold_congr ?_ _
    intro s p hp
    have hs := regOf_sorted (if m.allDirect then 0 else 1) (PdfLog.fitted log)
    rw [hi.params] at hp
    obtain ⟨i, _, hr⟩ := regOf_find_iff hd (SMap.find_of_mem hs (show (p.1, p.2) ∈ _ from hp))
    rw [hr, if_neg ha]
    rfl

end PdfManager

/-! ### C27 -/

/-- C27 (partial): after any history, when the fitted distributions have different names and those fitted directly were added
before those fitted indirectly, the expected content of a bin is the sum over distributions of normalisation (the current value
of the parameter named after it, or 1 if it is not fitted) times working content; no parameter changes. Missing: histories in
which an indirectly fitted distribution precedes a directly fitted one or two fitted distributions share a name, for which the
claim is false (`C27_order_wrong`, `C28_duplicate_wrong`). -/
theorem C27_bin_rate_partial {log : List (BinnedED α × NormStatus)} {m : PdfManager α} (h : PdfManager.Built log m)
    (hd : PdfLog.DistinctNames log) (ho : PdfLog.Before .direct .indirect log) (bin : Nat)
    (hb : ∀ w ∈ m.work, bin < w.hist.nBins ∧ w.hist.contents.length = w.hist.nBins) :
    ∃ value : String → α, (∀ n ∈ PdfLog.fitted log, m.getParameter n = .ok (value n)) ∧
    ∃ m', m.binProbability bin = .ok (expectedRate value log m.work bin, m') ∧ m'.work = m.work ∧
      ∀ n, m'.getParameter n = m.getParameter n := by
  have hi := PdfManager.inv_of_built h
  refine ⟨fun n => (m.getParameter n).toOption.getD 0, ?_, ?_⟩
  · intro n hn
    unfold PdfLog.fitted at hn
    obtain ⟨p, hp, rfl⟩ := List.mem_map.1 hn
    obtain ⟨hp1, hp2⟩ := List.mem_filter.1 hp
    obtain ⟨i, hil, he⟩ := List.mem_iff_getElem.1 hp1
    obtain ⟨v, hv, _⟩ := PdfManager.value_at hi hd (show log[i]? = some p by simp [hil, he]) hp2
    simp only [hv]; rfl
  · have hval : ∀ n ∈ PdfLog.fitted log, m.getParameter n = .ok ((m.getParameter n).toOption.getD 0) := by
      intro n hn
      unfold PdfLog.fitted at hn
      obtain ⟨p, hp, rfl⟩ := List.mem_map.1 hn
      obtain ⟨hp1, hp2⟩ := List.mem_filter.1 hp
      obtain ⟨i, hil, he⟩ := List.mem_iff_getElem.1 hp1
      obtain ⟨v, hv, _⟩ := PdfManager.value_at hi hd (show log[i]? = some p by simp [hil, he]) hp2
      rw [hv]; rfl
    obtain ⟨ns, j, h1, h2, h3, h4⟩ := PdfManager.prob_loop hi hd ho _ hval
      (fun w => w.hist.getBinContent bin) (fun w => w.hist.contents.getD bin 0) (by
        intro w hw
        obtain ⟨e1, e2⟩ := hb w hw
        simp only [Histogram.getBinContent]
        rw [if_neg (by omega), idx_of_lt (by omega)]
        simp [List.getD, show bin < w.hist.contents.length by omega])
    refine ⟨{ m with norms := ns }, ?_, rfl, fun n => PdfManager.getParameter_norms hi hd h3 n⟩
    unfold PdfManager.binProbability
    rw [h1]
    simp only [Res.ok_bind]
    rw [h4]
    rfl

/-- C27 (partial), events: the same for the probability of an event; `p w` is the probability under the working distribution `w`.
Missing: as for `C27_bin_rate_partial`. -/
theorem C27_event_rate_partial {log : List (BinnedED α × NormStatus)} {m : PdfManager α} (h : PdfManager.Built log m)
    (hd : PdfLog.DistinctNames log) (ho : PdfLog.Before .direct .indirect log) (e : Event α) (p : BinnedED α → α)
    (hp : ∀ w ∈ m.work, w.probabilityEvent e = .ok (p w))
    (value : String → α) (hv : ∀ n ∈ PdfLog.fitted log, m.getParameter n = .ok (value n)) :
    ∃ m', m.probability e = .ok (((log.zip m.work).map (fun q => normOf value q.1 * p q.2)).sum, m') := by
  have hi := PdfManager.inv_of_built h
  obtain ⟨ns, j, h1, h2, h3, h4⟩ := PdfManager.prob_loop hi hd ho value hv
      (fun w => w.probabilityEvent e) p hp
  refine ⟨{ m with norms := ns }, ?_⟩
  unfold PdfManager.probability
  rw [h1]
  simp only [Res.ok_bind]
  rw [h4]
  rfl

/-- C27 (partial), order: two managers holding the same distributions, statuses and working versions in different orders and the
same parameter values report the same expected content. Missing: as for `C27_bin_rate_partial`. -/
theorem C27_order_partial {log₁ log₂ : List (BinnedED α × NormStatus)} {m₁ m₂ : PdfManager α}
    (h₁ : PdfManager.Built log₁ m₁) (h₂ : PdfManager.Built log₂ m₂)
    (hd : PdfLog.DistinctNames log₁) (ho₁ : PdfLog.Before .direct .indirect log₁) (ho₂ : PdfLog.Before .direct .indirect log₂)
    (hperm : log₁.zip m₁.work ~ log₂.zip m₂.work) (bin : Nat)
    (hb : ∀ w ∈ m₁.work ++ m₂.work, bin < w.hist.nBins ∧ w.hist.contents.length = w.hist.nBins)
    (hval : ∀ n ∈ PdfLog.fitted log₁, m₁.getParameter n = m₂.getParameter n) :
    ∃ v m₁' m₂', m₁.binProbability bin = .ok (v, m₁') ∧ m₂.binProbability bin = .ok (v, m₂') := by
  have hi1 := PdfManager.inv_of_built h₁
  have hi2 := PdfManager.inv_of_built h₂
  have hlog : log₁ ~ log₂ := by
    have := hperm.map Prod.fst
    rwa [List.map_fst_zip (by rw [hi1.work]), List.map_fst_zip (by rw [hi2.work])] at this
  have hfit : PdfLog.fitted log₁ ~ PdfLog.fitted log₂ := by
    unfold PdfLog.fitted
    exact (hlog.filter _).map _
  have hd2 : PdfLog.DistinctNames log₂ := hfit.nodup_iff.1 hd
  obtain ⟨f₁, v1, m₁', e1, _⟩ := C27_bin_rate_partial h₁ hd ho₁ bin (fun w hw => hb w (List.mem_append_left _ hw))
  obtain ⟨f₂, v2, m₂', e2, _⟩ := C27_bin_rate_partial h₂ hd2 ho₂ bin (fun w hw => hb w (List.mem_append_right _ hw))
  refine ⟨_, m₁', m₂', e1, ?_⟩
  rw [e2]
  congr 2
  unfold expectedRate
  rw [(hperm.map _).sum_eq]
  congr 1
  refine List.map_congr_left ?_
  intro q hq
  congr 1
  unfold normOf
  by_cases hf : q.1.2.fittable = true
  · rw [if_pos hf, if_pos hf]
    have hm : q.1 ∈ log₂ := by
      have := List.mem_map_of_mem (f := Prod.fst) hq
      rwa [List.map_fst_zip (by rw [hi2.work])] at this
    have hn2 : q.1.1.name ∈ PdfLog.fitted log₂ := by
      unfold PdfLog.fitted
      exact List.mem_map.2 ⟨q.1, List.mem_filter.2 ⟨hm, hf⟩, rfl⟩
    have hn1 := hfit.mem_iff.2 hn2
    have := hval _ hn1
    rw [v1 _ hn1, v2 _ hn2] at this
    exact (Res.ok.inj this).symm
  · rw [if_neg hf, if_neg hf]

/-! ### C28 -/

/-- The registered parameters of a manager whose fitted distributions have different names. -/
theorem PdfManager.params_ok {log : List (BinnedED α × NormStatus)} {m : PdfManager α} (h : PdfManager.Built log m)
    (hd : PdfLog.DistinctNames log) : m.params.Sorted ∧ m.params.Distinct ∧ m.params.Live m.store ∧
      ∀ n, n ∈ m.params.getParameterNames ↔ n ∈ PdfLog.fitted log := by
  have hi := PdfManager.inv_of_built h
  refine ⟨by rw [hi.params]; exact regOf_sorted _ _, by rw [hi.params]; exact regOf_distinct hd, ?_, ?_⟩
  · rw [hi.params]
    rintro ⟨n, r⟩ hp
    obtain ⟨i, hin, hr⟩ := regOf_find_iff hd (SMap.find_of_mem (regOf_sorted _ _) hp)
    simp only at hr ⊢
    subst hr
    have hil := (List.getElem?_eq_some_iff.1 hin).1
    by_cases ha : m.allDirect = true
    · rw [if_pos ha]
      refine ⟨m.norms[i]'?_, ?_⟩
      · rw [PdfManager.fitted_all (hi.alld ▸ ha)] at hil
        rw [hi.norms]; simpa using hil
      · show at_ m.norms i = _
        exact at_of_lt _
    · rw [if_neg ha]
      refine ⟨m.fitNorms[i]'(by rw [hi.fit]; exact hil), ?_⟩
      show at_ m.fitNorms i = _
      exact at_of_lt _
  · intro n; rw [hi.params]; exact regOf_keys n

/-- C28 (partial), parameters: with different names for fitted distributions, the parameters are named after them; a dictionary
holding all of them is accepted and every parameter then reads the dictionary's value. -/
theorem C28_set_get_partial {log : List (BinnedED α × NormStatus)} {m : PdfManager α} (h : PdfManager.Built log m)
    (hd : PdfLog.DistinctNames log) (d : ParamDict α) (hall : ∀ n ∈ PdfLog.fitted log, (d.find n).isSome) :
    (∀ n, n ∈ m.params.getParameterNames ↔ n ∈ PdfLog.fitted log) ∧
    (m.setParameters d).2 = .ok () ∧
    ∀ n ∈ PdfLog.fitted log, ∀ v, d.find n = some v → (m.setParameters d).1.getParameter n = .ok v := by
  have hi := PdfManager.inv_of_built h
  obtain ⟨_, _, hlive, hkeys⟩ := PdfManager.params_ok h hd
  obtain ⟨s', h1, _, h3, _⟩ := C15_set_get m.params (by rw [hi.params]; exact regOf_sorted _ _)
    (by rw [hi.params]; exact regOf_distinct hd) m.store hlive d (fun n hn => hall n ((hkeys n).1 hn))
  refine ⟨hkeys, ?_, ?_⟩
  · unfold PdfManager.setParameters; rw [h1]
  · intro n hn v hv
    have := h3 n ((hkeys n).2 hn) v hv
    unfold PdfManager.setParameters; rw [h1]
    simp only
    unfold PdfManager.getParameter
    show m.params.getParameter _ n = _
    have hstore : ∀ c, (c = 0 ∨ c = 1) → (m.withStore s').store.cont c = s'.cont c := by
      rintro c (rfl | rfl) <;> rfl
    rw [← this]
    unfold ParamManager.getParameter
    congr 1
    cases hf : m.params.find n with
    | none => rfl
    | some r =>
      rw [hi.params] at hf
      obtain ⟨i, _, hr⟩ := regOf_find_iff hd hf
      subst hr
      simp only [Ref.get]
      rw [hstore _ (by by_cases ha : m.allDirect = true <;> simp [ha])]

/-- C28 (partial), expected rate: after setting the parameters, the expected content of a bin uses for every fitted distribution
the dictionary's value under its own name. Missing: an indirectly fitted distribution added before a directly fitted one. -/
theorem C28_rate_uses_own_partial {log : List (BinnedED α × NormStatus)} {m : PdfManager α} (h : PdfManager.Built log m)
    (hd : PdfLog.DistinctNames log) (ho : PdfLog.Before .direct .indirect log) (d : ParamDict α)
    (hall : ∀ n ∈ PdfLog.fitted log, (d.find n).isSome) (bin : Nat)
    (hb : ∀ w ∈ m.work, bin < w.hist.nBins ∧ w.hist.contents.length = w.hist.nBins) :
    ∃ m', (m.setParameters d).1.binProbability bin
      = .ok (expectedRate (fun n => (d.find n).getD 0) log m.work bin, m') := by
  obtain ⟨_, hset, hget⟩ := C28_set_get_partial h hd d hall
  have h' := PdfManager.Built.setParameters d h
  obtain ⟨value, hv, m', e, _⟩ := C27_bin_rate_partial h' hd ho bin hb
  refine ⟨m', ?_⟩
  rw [e]
  congr 2
  unfold expectedRate
  have hw : (m.setParameters d).1.work = m.work := rfl
  rw [hw]
  congr 1
  refine List.map_congr_left ?_
  intro q hq
  congr 1
  unfold normOf
  by_cases hf : q.1.2.fittable = true
  · rw [if_pos hf, if_pos hf]
    have hi := PdfManager.inv_of_built h
    have hm : q.1 ∈ log := by
      have := List.mem_map_of_mem (f := Prod.fst) hq
      rwa [List.map_fst_zip (by rw [hi.work])] at this
    have hn : q.1.1.name ∈ PdfLog.fitted log := by
      unfold PdfLog.fitted
      exact List.mem_map.2 ⟨q.1, List.mem_filter.2 ⟨hm, hf⟩, rfl⟩
    obtain ⟨v, hdv⟩ := Option.isSome_iff_exists.1 (hall _ hn)
    have h1 := hget _ hn v hdv
    rw [hv _ hn] at h1
    rw [Res.ok.inj h1]; simp only [hdv]; rfl
  · rw [if_neg hf, if_neg hf]

/-- C28 (partial), re-asserting: re-asserting the normalisations of one kind puts each such parameter's value at its own
distribution and leaves every other distribution's normalisation alone, provided those fitted the other way were added later.
Missing: the other order (`C28_reassert_wrong`, `C27_order_wrong`). -/
theorem C28_reassert_partial {log : List (BinnedED α × NormStatus)} {m : PdfManager α} (h : PdfManager.Built log m)
    (hd : PdfLog.DistinctNames log) (b : Bool)
    (ho : if b then PdfLog.Before .direct .indirect log else PdfLog.Before .indirect .direct log) :
    ∃ m', m.reassertNorms b = .ok m' ∧ (∀ n, m'.getParameter n = m.getParameter n) ∧
      ∀ (i : Nat) p, log[i]? = some p →
        (p.2 = (if b then NormStatus.direct else NormStatus.indirect) →
          ∃ v, m.getParameter p.1.name = .ok v ∧ m'.getNormalisations[i]? = some v) ∧
        (p.2 ≠ (if b then NormStatus.direct else NormStatus.indirect) →
          m'.getNormalisations[i]? = m.getNormalisations[i]?) := by
  have hi := PdfManager.inv_of_built h
  by_cases ha : m.allDirect = true
  · refine ⟨m, by unfold PdfManager.reassertNorms; rw [if_pos ha], fun _ => rfl, ?_⟩
    intro i p hp
    refine ⟨?_, fun _ => rfl⟩
    intro hst
    obtain ⟨v, h1, h2, _⟩ := PdfManager.value_at hi hd hp (by rw [hst]; cases b <;> rfl)
    exact ⟨v, h1, h2 ha⟩
  · have ha' : m.allDirect = false := by simpa using ha
    obtain ⟨ns, h1, h2, h3⟩ := PdfManager.reassert_ok hi b ha' _ rfl
    refine ⟨{ m with norms := ns }, h1, fun n => PdfManager.getParameter_norms hi hd (fun h => absurd h ha) n, ?_⟩
    intro i p hp
    obtain ⟨hil, hpe⟩ := List.getElem?_eq_some_iff.1 hp
    constructor
    · intro hst
      obtain ⟨v, e1, _, e2⟩ := PdfManager.value_at hi hd hp (by rw [hst]; cases b <;> rfl)
      refine ⟨v, e1, ?_⟩
      show ns[i]? = _
      rw [h3 i hil, if_pos (by simp [hp, hst])]
      rw [← e2 ha']
      congr 1
      cases b with
      | true => exact PdfManager.before_rank (by simpa using ho) PdfManager.fittable_cases hp hst
      | false =>
        exact PdfManager.before_rank (by simpa using ho) (fun t => (PdfManager.fittable_cases t).trans or_comm) hp hst
    · intro hst
      show ns[i]? = _
      rw [h3 i hil, if_neg]
      · rfl
      · simp only [List.getElem?_map, hp, Option.map_some, Option.some.injEq]
        exact hst

/-! ### Examples and witnesses -/

/-- Two-bin distributions on an axis "x" for the examples. -/
def exNormPdf (name : String) (c c' : ℚ) : BinnedED ℚ :=
  ⟨name, ⟨⟨[⟨"x", "", 2, 0, 2, [0, 1], [1, 2], [1/2, 3/2], [1, 1]⟩], ["x"], [2], 2, 1⟩, [c, c'], 2, 1⟩, ObsSet.ofNames ["x"]⟩

/-- Adding distributions to a new manager. -/
def exManager (l : List (BinnedED α × NormStatus)) : Res (PdfManager α) :=
  Res.forFold (fun (m : PdfManager α) (p : BinnedED α × NormStatus) => m.addPdf p.1 p.2) .new l

theorem addPdf_ok {log : List (BinnedED α × NormStatus)} {m : PdfManager α} (h : PdfManager.Built log m) (pdf : BinnedED α)
    (st : NormStatus) : ∃ m', m.addPdf pdf st = .ok m' := by
  have hi := PdfManager.inv_of_built h
  unfold PdfManager.addPdf
  generalize hM : ({ m with
      orig := m.orig ++ [pdf]
      work := m.work ++ [pdf]
      norms := resize m.norms (m.orig.length + 1) 0
      status := m.status ++ [st]
      fitNorms := if st.fittable then m.fitNorms ++ [0] else m.fitNorms
      allDirect := if st ≠ .direct then false else m.allDirect } : PdfManager α) = M
  refine ⟨_, PdfManager.register_ok (log := log ++ [(pdf, st)]) ?_ ?_ ?_ ?_ ?_⟩
  · rw [← hM]; simp [hi.orig]
  · rw [← hM]; simp [hi.status]
  · rw [← hM]; simp [hi.orig]
  · rw [← hM]
    have := hi.fit
    unfold PdfLog.fitted at this ⊢
    by_cases hst : st.fittable = true
    · simp [hst, this]
    · simp [hst, this]
  · rw [← hM]
    have := hi.alld
    by_cases hst : st = .direct
    · simp [hst, this]
    · simp [hst]

theorem exManager_built (l : List (BinnedED α × NormStatus)) : ∃ m, exManager l = .ok m ∧ PdfManager.Built l m := by
  have key : ∀ (l log : List (BinnedED α × NormStatus)) (m : PdfManager α), PdfManager.Built log m →
      ∃ m', Res.forFold (fun (m : PdfManager α) (p : BinnedED α × NormStatus) => m.addPdf p.1 p.2) m l = .ok m' ∧
        PdfManager.Built (log ++ l) m' := by
    intro l
    induction l with
    | nil => intro log m h; exact ⟨m, rfl, by simpa using h⟩
    | cons p l ih =>
      intro log m h
      obtain ⟨m1, h1⟩ := addPdf_ok h p.1 p.2
      obtain ⟨m', h2, h3⟩ := ih (log ++ [p]) m1 (h.addPdf p.1 p.2 h1)
      exact ⟨m', Res.forFold_cons_eq_ok.2 ⟨m1, h1, h2⟩, by simpa using h3⟩
  have := key l [] .new .new
  rw [List.nil_append] at this
  exact this

/-- Three distributions: fitted directly, not fitted, fitted indirectly. -/
def exMixed : List (BinnedED ℚ × NormStatus) :=
  [(exNormPdf "a" 1 3, .direct), (exNormPdf "b" 2 4, .off), (exNormPdf "c" 5 7, .indirect)]

/-- Non-vacuity of C27 and C28: the mixed example meets every hypothesis. -/
example : ∃ m, exManager exMixed = .ok m ∧ PdfManager.Built exMixed m ∧ PdfLog.DistinctNames exMixed ∧
    PdfLog.Before .direct .indirect exMixed ∧
    (∀ w ∈ m.work, 1 < w.hist.nBins ∧ w.hist.contents.length = w.hist.nBins) ∧
    PdfLog.fitted exMixed = ["a", "c"] := by
  obtain ⟨m, h1, h2⟩ := exManager_built exMixed
  refine ⟨m, h1, h2, by decide +kernel, by decide +kernel, ?_, by decide +kernel⟩
  have hw : (exManager exMixed >>= fun m => Res.ok (m.work.map (fun w => (w.hist.nBins, w.hist.contents.length))))
      = .ok [(2, 2), (2, 2), (2, 2)] := by decide +kernel
  rw [h1] at hw
  have hw' := Res.ok.inj hw
  intro w hw
  have : (w.hist.nBins, w.hist.contents.length) ∈ [(2, 2), (2, 2), (2, 2)] := by
    rw [← hw']; exact List.mem_map_of_mem hw
  simp at this
  omega

/-- Non-vacuity of the order theorem: the same three distributions added in another allowed order. -/
example : PdfLog.Before .direct .indirect [(exNormPdf "b" 2 4, .off), (exNormPdf "a" 1 3, .direct), (exNormPdf "c" 5 7, .indirect)] := by
  decide +kernel

/-- The claim computes: with a = 10 and c = 100, bin 1 holds 10·3 + 4 + 100·7. -/
example : (exManager exMixed >>= fun m =>
    (m.setParameters [("a", 10), ("c", 100)]).1.binProbability 1 >>= fun r => Res.ok r.1) = .ok 734 := by decide +kernel

/-- C27 and C28 are false for an indirectly fitted distribution added before a directly fitted one: with contents 1 and 1, a = 2 and
b = 5, the expected content is 2·1 + 2·1 = 4, not 7: the direct distribution is scaled by the other's normalisation. -/
theorem C27_order_wrong : ∃ m, PdfManager.Built [(exNormPdf "a" 1 1, .indirect), (exNormPdf "b" 1 1, .direct)] m ∧
    (m.setParameters [("a", 2), ("b", 5)]).2 = .ok () ∧
    (m.setParameters [("a", 2), ("b", 5)]).1.getParameter "b" = .ok (5 : ℚ) ∧
    ∃ m', (m.setParameters [("a", 2), ("b", 5)]).1.binProbability 0 = .ok (4, m') := by
  obtain ⟨m, h1, h2⟩ := exManager_built [(exNormPdf "a" 1 1, .indirect), (exNormPdf "b" 1 1, .direct)]
  have hw : (exManager [(exNormPdf "a" 1 1, .indirect), (exNormPdf "b" 1 1, .direct)] >>= fun m =>
    Res.ok ((m.setParameters [("a", 2), ("b", 5)]).2, (m.setParameters [("a", 2), ("b", 5)]).1.getParameter "b",
      (m.setParameters [("a", 2), ("b", 5)]).1.binProbability 0 >>= fun r => Res.ok r.1))
      = .ok (.ok (), .ok 5, .ok 4) := by decide +kernel
  rw [h1] at hw
  have hw' := Res.ok.inj hw
  simp only [Prod.mk.injEq] at hw'
  obtain ⟨e1, e2, e3⟩ := hw'
  obtain ⟨⟨v, m'⟩, e4, e5⟩ := Res.bind_eq_ok.1 e3
  cases e5
  exact ⟨m, h2, e1, e2, m', e4⟩

/-- C28 is false when re-asserting indirect normalisations with a directly fitted distribution added first: with b = 5 and
a = 2 the normalisation of a becomes 5. -/
theorem C28_reassert_wrong : ∃ m m', PdfManager.Built [(exNormPdf "b" 1 1, .direct), (exNormPdf "a" 1 1, .indirect)] m ∧
    (m.setParameters [("a", 2), ("b", 5)]).2 = .ok () ∧
    (m.setParameters [("a", 2), ("b", 5)]).1.getParameter "a" = .ok (2 : ℚ) ∧
    (m.setParameters [("a", 2), ("b", 5)]).1.reassertNorms false = .ok m' ∧ m'.getNormalisations = [0, 5] := by
  obtain ⟨m, h1, h2⟩ := exManager_built [(exNormPdf "b" 1 1, .direct), (exNormPdf "a" 1 1, .indirect)]
  have hw : (exManager [(exNormPdf "b" 1 1, .direct), (exNormPdf "a" 1 1, .indirect)] >>= fun m =>
    Res.ok ((m.setParameters [("a", 2), ("b", 5)]).2, (m.setParameters [("a", 2), ("b", 5)]).1.getParameter "a",
      (m.setParameters [("a", 2), ("b", 5)]).1.reassertNorms false >>= fun r => Res.ok r.getNormalisations))
      = .ok (.ok (), .ok 2, .ok [0, 5]) := by decide +kernel
  rw [h1] at hw
  have hw' := Res.ok.inj hw
  simp only [Prod.mk.injEq] at hw'
  obtain ⟨e1, e2, e3⟩ := hw'
  obtain ⟨m', e4, e5⟩ := Res.bind_eq_ok.1 e3
  exact ⟨m, m', h2, e1, e2, e4, Res.ok.inj e5⟩

/-- C28 is false for two fitted distributions of the same name: one parameter is registered and it drives only the last one; the
first keeps normalisation 0. -/
theorem C28_duplicate_wrong : ∃ m, PdfManager.Built [(exNormPdf "a" 1 1, .direct), (exNormPdf "a" 1 1, .direct)] m ∧
    m.params.getParameterNames = ["a"] ∧ (m.setParameters [("a", (3 : ℚ))]).2 = .ok () ∧
    (m.setParameters [("a", 3)]).1.getNormalisations = [0, 3] := by
  obtain ⟨m, h1, h2⟩ := exManager_built [(exNormPdf "a" 1 1, .direct), (exNormPdf "a" 1 1, .direct)]
  have hw : (exManager [(exNormPdf "a" 1 1, .direct), (exNormPdf "a" 1 1, .direct)] >>= fun m =>
    Res.ok (m.params.getParameterNames, (m.setParameters [("a", 3)]).2, (m.setParameters [("a", 3)]).1.getNormalisations))
      = .ok (["a"], .ok (), [0, 3]) := by decide +kernel
  rw [h1] at hw
  have hw' := Res.ok.inj hw
  simp only [Prod.mk.injEq] at hw'
  exact ⟨m, h2, hw'.1, hw'.2.1, hw'.2.2⟩

end Oxsx
