import Verif.Props.Sampling
import Mathlib.MeasureTheory.Measure.Lebesgue.Basic
set_option linter.unusedSectionVars false
set_option linter.unusedSimpArgs false
set_option linter.unusedVariables false
/-
C106: how likely each event is to be drawn.
-/
namespace Oxsx
open MeasureTheory Pool

namespace Pool

theorem selected_one (d : DataSet ℝ) {j : Nat} (hj : j < d.data.length) : selected [] d [j] = [d.data[j]] := by
  simp [selected, List.getElem?_eq_getElem hj, CutCollection.passesCuts]

/-- What one random draw does depends on the position only. -/
theorem step_at (d : DataSet ℝ) (hd : d.WF) (hN : d.data.length < 2 ^ 31) {drawn : List Nat} {p : Pool} (hp : Inv d.data.length drawn p)
    (hlt : drawn.length < d.data.length) {k : Nat} (hk2 : k ≤ d.data.length - drawn.length - 1) :
    ∃ p' j, ∃ hj : j < d.data.length, p.idxs[k]? = some j ∧ Inv d.data.length (drawn ++ [j]) p' ∧ ∀ (u : ℝ) (out : DataSet ℝ), 0 ≤ u ∧ u < 1 →
      (k : ℝ) ≤ ((d.data.length - drawn.length - 1 : Nat) : ℝ) * u ∧ ((d.data.length - drawn.length - 1 : Nat) : ℝ) * u < k + 1 →
      out.nObs = 0 ∨ out.nObs = d.nObs → ∃ out', stepRandom [] d (p, out) u = .ok (p', out') ∧ out'.data = out.data ++ [d.data[j]] ∧
        (out'.nObs = 0 ∨ out'.nObs = d.nObs) := by
  set N := d.data.length with hNdef
  have hmax : p.max = N - drawn.length - 1 := by rw [hp.max]; unfold szDec; rw [if_neg (by omega)]
  have hfix : p.fixMax = p := by
    unfold fixMax; rw [if_neg]
    rw [hmax]; unfold notSet; omega
  have hlen : p.idxs.length = N := by rw [hp.perm.length_eq, List.length_range]
  have hkl : k < p.idxs.length := by omega
  have hml : p.max < p.idxs.length := by omega
  obtain ⟨l', hs1, hs2, hs3, hs4, hs5, hs6⟩ := swap_spec (l := p.idxs) (i := k) (j := p.max) hkl hml
  have hj : l'[p.max]? = some p.idxs[k] := by rw [hs4, List.getElem?_eq_getElem hkl]
  have hjN : p.idxs[k] < N := by
    have := hp.perm.mem_iff.1 (List.getElem_mem hkl); simpa using this
  refine ⟨⟨l', szDec p.max⟩, p.idxs[k], hjN, List.getElem?_eq_getElem hkl, ⟨hs2.trans hp.perm, by simp; omega, ?_, ?_⟩, ?_⟩
  · simp only [List.length_append, List.length_singleton, List.reverse_append, List.reverse_singleton,
      List.singleton_append]
    rw [← hp.suffix]
    have e : N - (drawn.length + 1) = p.max := by omega
    rw [e, List.drop_eq_getElem_cons (by omega)]
    have : l'[p.max]'(by omega) = p.idxs[k] := by
      have := hj; rw [List.getElem?_eq_getElem (by omega)] at this; exact Option.some.inj this
    rw [this]
    congr 1
    have e2 : p.max + 1 = N - drawn.length := by omega
    rw [e2]
    apply List.ext_getElem?
    intro i
    rw [List.getElem?_drop, List.getElem?_drop]
    exact hs6 _ (by omega) (by omega)
  · simp only [List.length_append, List.length_singleton]
    rw [hmax]; congr 1
  · intro u out hu hku ho
    obtain ⟨k', hk1, _, _, a1, a2⟩ := draw_spec (m := p.max) (by omega) u hu
    have hkk : k' = k := by
      rw [hmax] at a1 a2
      have h1 : (k : ℝ) < k' + 1 := lt_of_le_of_lt hku.1 a2
      have h2 : (k' : ℝ) < k + 1 := lt_of_le_of_lt a1 hku.2
      have h1 : k < k' + 1 := by exact_mod_cast h1
      have h2 : k' < k + 1 := by exact_mod_cast h2
      omega
    subst hkk
    obtain ⟨out', ht1, ht2, ht3, ht4⟩ := take_spec [] d hd (by intro r _ c hc; cases hc) hjN out ho
    refine ⟨out', ?_, by rw [ht3, selected_one d hjN], ht4⟩
    unfold stepRandom
    simp only [hfix, hk1, hs1, Res.ok_bind, idx_ok.2 hj, ht1, Res.pure_eq]

/-- The position given by a random number. -/
theorem position_of {M : Nat} {u : ℝ} (hu : 0 ≤ u ∧ u < 1) : ∃ k : Nat, (k : ℝ) ≤ (M : ℝ) * u ∧ (M : ℝ) * u < k + 1 ∧ k ≤ M ∧ (0 < M → k < M) := by
  obtain ⟨k, _, h2, h3, _, h5, h6⟩ := shoot_nat M u hu
  exact ⟨k, h5, h6, h2, h3⟩

/-- The rows drawn. -/
noncomputable def rowsFrom (d : DataSet ℝ) (p : Pool) (us : List ℝ) (out : DataSet ℝ) : Option (List (List ℝ)) :=
  (Res.forFold (stepRandom [] d) (p, out) us).toOption.map (fun r => r.2.data)

/-- Every sequence of rows that can be drawn is drawn for exactly one sequence of positions. -/
theorem positions (d : DataSet ℝ) (hd : d.WF) (hnd : d.data.Nodup) (hN : d.data.length < 2 ^ 31) : ∀ (rs : List (List ℝ)) {drawn : List Nat} {p : Pool},
    Inv d.data.length drawn p → drawn.length + rs.length ≤ d.data.length →
    (∀ us : List ℝ, UnitRands us → us.length = rs.length → ∀ out : DataSet ℝ, out.nObs = 0 ∨ out.nObs = d.nObs → rowsFrom d p us out ≠ some (out.data ++ rs)) ∨
    ∃ ks : List Nat, ks.length = rs.length ∧ (∀ i (h : i < ks.length), ks[i] < Nat.max 1 (d.data.length - drawn.length - 1 - i)) ∧
      ∀ us : List ℝ, UnitRands us → us.length = rs.length → ∀ out : DataSet ℝ, out.nObs = 0 ∨ out.nObs = d.nObs →
        (rowsFrom d p us out = some (out.data ++ rs) ↔ ∀ i (h : i < us.length) (h' : i < ks.length),
          (ks[i] : ℝ) ≤ ((d.data.length - drawn.length - 1 - i : Nat) : ℝ) * us[i] ∧ ((d.data.length - drawn.length - 1 - i : Nat) : ℝ) * us[i] < ks[i] + 1) := by
  intro rs
  induction rs with
  | nil =>
    intro drawn p hp hle
    refine Or.inr ⟨[], rfl, by simp, ?_⟩
    intro us hus hl out ho
    have : us = [] := List.eq_nil_of_length_eq_zero hl
    subst this
    simp [rowsFrom, Res.forFold, Res.toOption]
  | cons r rs ih =>
    intro drawn p hp hle
    simp only [List.length_cons] at hle
    set M := d.data.length - drawn.length - 1 with hM
    have hlen : p.idxs.length = d.data.length := by rw [hp.perm.length_eq, List.length_range]
    have hpn : p.idxs.Nodup := hp.perm.nodup_iff.2 List.nodup_range
    -- what happens for a first number at position k
    have first : ∀ k, k ≤ M → (0 < M → k < M) → ∃ p' j, ∃ hj : j < d.data.length, p.idxs[k]? = some j ∧ Inv d.data.length (drawn ++ [j]) p' ∧
        ∀ (u : ℝ) (us : List ℝ) (out : DataSet ℝ), 0 ≤ u ∧ u < 1 → (k : ℝ) ≤ (M : ℝ) * u ∧ (M : ℝ) * u < k + 1 → (out.nObs = 0 ∨ out.nObs = d.nObs) →
          ∃ out' : DataSet ℝ, rowsFrom d p (u :: us) out = rowsFrom d p' us out' ∧ out'.data = out.data ++ [d.data[j]] ∧
            (out'.nObs = 0 ∨ out'.nObs = d.nObs) := by
      intro k hk _
      obtain ⟨p', j, hj, h1, h2, h3⟩ := step_at d hd hN hp (by omega) hk
      refine ⟨p', j, hj, h1, h2, fun u us out hu hku ho => ?_⟩
      obtain ⟨out', e1, e2, e3⟩ := h3 u out hu hku ho
      exact ⟨out', by unfold rowsFrom; rw [Res.forFold_cons_ok e1], e2, e3⟩
    -- later rows only append
    have grows : ∀ {drawn : List Nat} {p : Pool} (us : List ℝ) (out : DataSet ℝ), Inv d.data.length drawn p → drawn.length + us.length ≤ d.data.length →
        UnitRands us → out.nObs = 0 ∨ out.nObs = d.nObs → ∃ js : List (List ℝ), rowsFrom d p us out = some (out.data ++ js) := by
      intro drawn p us
      induction us generalizing drawn p with
      | nil => intro out _ _ _ _; exact ⟨[], by simp [rowsFrom, Res.forFold, Res.toOption]⟩
      | cons u us ihu =>
        intro out hi hl hus ho
        simp only [List.length_cons] at hl
        obtain ⟨k, b1, b2, b3, b4⟩ := position_of (M := d.data.length - drawn.length - 1) (hus u List.mem_cons_self)
        obtain ⟨p', j, hj, h1, h2, h3⟩ := step_at d hd hN hi (by omega) b3
        obtain ⟨out', e1, e2, e3⟩ := h3 u out (hus u List.mem_cons_self) ⟨b1, b2⟩ ho
        obtain ⟨js, hjs⟩ := ihu (drawn := drawn ++ [j]) (p := p') out' h2 (by simp; omega) (fun v hv => hus v (List.mem_cons_of_mem _ hv)) e3
        refine ⟨d.data[j] :: js, ?_⟩
        have : rowsFrom d p (u :: us) out = rowsFrom d p' us out' := by unfold rowsFrom; rw [Res.forFold_cons_ok e1]
        rw [this, hjs, e2]; simp
    by_cases hex : ∃ k, k ≤ M ∧ (0 < M → k < M) ∧ ∃ j, ∃ hj : j < d.data.length, p.idxs[k]? = some j ∧ d.data[j] = r
    · obtain ⟨k, hkM, hkM', j, hj, hkj, hjr⟩ := hex
      obtain ⟨p', j', hj', h1, h2, h3⟩ := first k hkM hkM'
      have : j' = j := Option.some.inj (h1.symm.trans hkj)
      subst this
      -- only this position gives the first row
      have only : ∀ k', k' ≤ M → (0 < M → k' < M) → ∀ j₂, (hj₂ : j₂ < d.data.length) → p.idxs[k']? = some j₂ → d.data[j₂] = r → k' = k := by
        intro k' ha hb j₂ hj₂ hk' hr
        have : j₂ = j' := (List.Nodup.getElem_inj_iff hnd).1 (hr.trans hjr.symm)
        subst this
        have hk1 : k < p.idxs.length := by omega
        have hk2 : k' < p.idxs.length := by omega
        rw [List.getElem?_eq_getElem hk1] at hkj
        rw [List.getElem?_eq_getElem hk2] at hk'
        exact (List.Nodup.getElem_inj_iff hpn).1 ((Option.some.inj hk').trans (Option.some.inj hkj).symm)
      have step : ∀ (u : ℝ) (us : List ℝ), UnitRands (u :: us) → us.length = rs.length → ∀ out : DataSet ℝ, (out.nObs = 0 ∨ out.nObs = d.nObs) →
          (rowsFrom d p (u :: us) out = some (out.data ++ r :: rs) ↔ ((k : ℝ) ≤ (M : ℝ) * u ∧ (M : ℝ) * u < k + 1) ∧
            ∃ out' : DataSet ℝ, out'.data = out.data ++ [d.data[j']] ∧ (out'.nObs = 0 ∨ out'.nObs = d.nObs) ∧
              rowsFrom d p' us out' = some (out'.data ++ rs)) := by
        intro u us hus hl out ho
        have hu := hus u List.mem_cons_self
        have hus' : UnitRands us := fun v hv => hus v (List.mem_cons_of_mem _ hv)
        constructor
        · intro hrow
          obtain ⟨k', b1, b2, b3, b4⟩ := position_of (M := M) hu
          obtain ⟨p₂, j₂, hj₂, c1, c2, c3⟩ := first k' b3 b4
          obtain ⟨o₂, e1, e2, e3⟩ := c3 u us out hu ⟨b1, b2⟩ ho
          obtain ⟨js, hjs⟩ := grows (drawn := drawn ++ [j₂]) (p := p₂) us o₂ c2 (by simp; omega) hus' e3
          have hr : d.data[j₂] = r ∧ js = rs := by
            rw [e1, hjs, e2] at hrow
            have := Option.some.inj hrow
            rw [List.append_assoc] at this
            have := List.append_cancel_left this
            simpa using this
          have hk' := only k' b3 b4 j₂ hj₂ c1 hr.1
          subst hk'
          refine ⟨⟨b1, b2⟩, ?_⟩
          obtain ⟨o₃, f1, f2, f3⟩ := h3 u us out hu ⟨b1, b2⟩ ho
          refine ⟨o₃, f2, f3, ?_⟩
          rw [← f1, hrow, f2, hjr]; simp
        · rintro ⟨hk, o₃, f2, f3, f4⟩
          obtain ⟨o₄, g1, g2, g3⟩ := h3 u us out hu hk ho
          rw [g1]
          -- the rest does not depend on the object filled, only on its rows
          rcases ih h2 (by simp; omega) with hno | ⟨ks, k1, k2, k3⟩
          · exact absurd f4 (hno us hus' hl o₃ f3)
          · have := (k3 us hus' hl o₃ f3).1 f4
            rw [(k3 us hus' hl o₄ g3).2 this, g2, hjr]; simp
      rcases ih h2 (by simp; omega) with hno | ⟨ks, k1, k2, k3⟩
      · left
        intro us hus hl out ho
        rcases us with _ | ⟨u, us⟩
        · simp at hl
        · intro hrow
          obtain ⟨_, o₃, f2, f3, f4⟩ := (step u us hus (by simpa using hl) out ho).1 hrow
          exact hno us (fun v hv => hus v (List.mem_cons_of_mem _ hv)) (by simpa using hl) o₃ f3 f4
      · right
        have hshift : ∀ i, d.data.length - (drawn ++ [j']).length - 1 - i = M - (i + 1) := by intro i; simp; omega
        refine ⟨k :: ks, by simp [k1], ?_, ?_⟩
        · intro i hi
          cases i with
          | zero => simp; rcases Nat.eq_zero_or_pos M with h | h
                    · omega
                    · have := hkM' h; omega
          | succ i =>
            have := k2 i (by simpa using hi)
            rw [hshift] at this
            simpa using this
        · intro us hus hl out ho
          rcases us with _ | ⟨u, us⟩
          · simp at hl
          · have hus' : UnitRands us := fun v hv => hus v (List.mem_cons_of_mem _ hv)
            have hl' : us.length = rs.length := by simpa using hl
            rw [step u us hus hl' out ho]
            constructor
            · rintro ⟨hk, o₃, f2, f3, f4⟩
              have := (k3 us hus' hl' o₃ f3).1 f4
              intro i hi hi'
              cases i with
              | zero => simpa using hk
              | succ i =>
                have := this i (by simpa using hi) (by simpa using hi')
                rw [hshift] at this
                simpa using this
            · intro hall
              have h0 := hall 0 (by simp) (by simp)
              simp only [List.getElem_cons_zero, Nat.sub_zero] at h0
              obtain ⟨o₄, g1, g2, g3⟩ := h3 u us out (hus u List.mem_cons_self) h0 ho
              refine ⟨h0, o₄, g2, g3, (k3 us hus' hl' o₄ g3).2 ?_⟩
              intro i hi hi'
              have := hall (i + 1) (by simpa using hi) (by simpa using hi')
              rw [hshift]
              simpa using this
    · left
      intro us hus hl out ho
      rcases us with _ | ⟨u, us⟩
      · simp at hl
      · intro hrow
        have hu := hus u List.mem_cons_self
        obtain ⟨k', b1, b2, b3, b4⟩ := position_of (M := M) hu
        obtain ⟨p₂, j₂, hj₂, c1, c2, c3⟩ := first k' b3 b4
        obtain ⟨o₂, e1, e2, e3⟩ := c3 u us out hu ⟨b1, b2⟩ ho
        obtain ⟨js, hjs⟩ := grows (drawn := drawn ++ [j₂]) (p := p₂) us o₂ c2 (by simp at hl ⊢; omega) (fun v hv => hus v (List.mem_cons_of_mem _ hv)) e3
        have hr : d.data[j₂] = r := by
          rw [e1, hjs, e2] at hrow
          have := Option.some.inj hrow
          rw [List.append_assoc] at this
          have := List.append_cancel_left this
          simp only [List.singleton_append, List.cons.injEq] at this
          exact this.1
        exact hex ⟨k', b3, b4, j₂, hj₂, c1, hr⟩

end Pool

/-- The rows that a call of `RandomDrawsNoReplacement` for as many events as there are random numbers puts into a new data set, without cuts. -/
noncomputable def drawnRows (d : DataSet ℝ) (p : Pool) (us : List ℝ) : Option (List (List ℝ)) :=
  (randomDraws [] d p us (DataSet.empty.setObservableNames d.names)).toOption.map (fun r => r.2.data)

theorem drawnRows_eq (d : DataSet ℝ) {p : Pool} (hp : p = Pool.fresh ∨ p = Pool.added) {us : List ℝ} (hl : us.length ≤ d.data.length) :
    drawnRows d p us = rowsFrom d (p.init d.data.length) us (DataSet.empty.setObservableNames d.names) := by
  unfold drawnRows randomDraws rowsFrom
  rw [if_neg (by unfold DataSet.getNEntries; omega)]
  rfl

/-- The numbers that give one position. -/
theorem position_interval {M k : Nat} (hk : k < Nat.max 1 M) (u : ℝ) :
    (0 ≤ u ∧ u < 1) ∧ (k : ℝ) ≤ (M : ℝ) * u ∧ (M : ℝ) * u < k + 1 ↔ u ∈ Set.Ico ((k : ℝ) / (Nat.max 1 M : Nat)) (((k : ℝ) + 1) / (Nat.max 1 M : Nat)) := by
  rcases Nat.eq_zero_or_pos M with rfl | hM
  · have hk : k = 0 := by have : Nat.max 1 0 = 1 := rfl; omega
    subst hk
    have : Nat.max 1 0 = 1 := rfl
    rw [this]; simp
  · have hm : Nat.max 1 M = M := max_eq_right hM
    rw [hm] at hk ⊢
    have hM' : (0 : ℝ) < M := by exact_mod_cast hM
    rw [Set.mem_Ico, div_le_iff₀ hM', lt_div_iff₀ hM', mul_comm (M : ℝ) u]
    constructor
    · rintro ⟨_, h1, h2⟩; exact ⟨h1, h2⟩
    · rintro ⟨h1, h2⟩
      have hk0 : (0 : ℝ) ≤ k := Nat.cast_nonneg k
      have hkM : (k : ℝ) + 1 ≤ M := by exact_mod_cast hk
      refine ⟨⟨?_, ?_⟩, h1, h2⟩
      · by_contra hu
        have := mul_neg_of_neg_of_pos (not_le.1 hu) hM'
        linarith
      · by_contra hu
        have := mul_le_mul_of_nonneg_right (not_lt.1 hu) hM'.le
        linarith

/-- C106, what holds: from a generator whose data set of distinct events was just given, draw some of its events at random and without
replacement, with independent uniform numbers. All the sequences of events that can be drawn at all are equally likely: each has probability
one over the product of the numbers of events left to choose from. These numbers are one too small (N - 1, N - 2, …) for a fair draw (N, N - 1, …),
and not every sequence can be drawn: see `C106_last_wrong`. -/
theorem C106_equal_partial (d : DataSet ℝ) (hd : d.WF) (hnd : d.data.Nodup) (hN : d.data.length < 2 ^ 31) {p : Pool} (hp : p = Pool.fresh ∨ p = Pool.added)
    {k : Nat} (hk : k ≤ d.data.length) (rs : List (List ℝ)) (hr : rs.length = k) :
    volume {us : Fin k → ℝ | (∀ i, 0 ≤ us i ∧ us i < 1) ∧ drawnRows d p (List.ofFn us) = some rs} = 0 ∨
    volume {us : Fin k → ℝ | (∀ i, 0 ≤ us i ∧ us i < 1) ∧ drawnRows d p (List.ofFn us) = some rs} =
      ∏ i : Fin k, ENNReal.ofReal (1 / (Nat.max 1 (d.data.length - 1 - i) : Nat)) := by
  have hs : State d.data.length [] p := .inl ⟨rfl, by rcases hp with rfl | rfl <;> rfl⟩
  have hunit : ∀ us : Fin k → ℝ, (∀ i, 0 ≤ us i ∧ us i < 1) → UnitRands (List.ofFn us) := by
    intro us h u hu
    obtain ⟨i, rfl⟩ := (List.mem_ofFn' _ _).1 hu
    exact h i
  have hlen : ∀ us : Fin k → ℝ, (List.ofFn us).length = rs.length := fun us => by rw [List.length_ofFn, hr]
  rcases positions d hd hnd hN rs (state_init hs) (by simpa [hr] using hk) with h | ⟨ks, k1, k2, k3⟩
  · left
    have : {us : Fin k → ℝ | (∀ i, 0 ≤ us i ∧ us i < 1) ∧ drawnRows d p (List.ofFn us) = some rs} = ∅ := by
      ext us
      simp only [Set.mem_setOf_eq, Set.mem_empty_iff_false, iff_false, not_and]
      intro hu hrow
      rw [drawnRows_eq d hp (by simpa using hk)] at hrow
      exact h _ (hunit us hu) (hlen us) (DataSet.empty.setObservableNames d.names) (.inl rfl) hrow
    rw [this, measure_empty]
  · right
    have hks : ks.length = k := by rw [k1, hr]
    have : {us : Fin k → ℝ | (∀ i, 0 ≤ us i ∧ us i < 1) ∧ drawnRows d p (List.ofFn us) = some rs} =
        Set.pi Set.univ (fun i : Fin k => Set.Ico ((ks[i.1]'(by have := i.2; omega) : ℝ) / (Nat.max 1 (d.data.length - 1 - i) : Nat))
          (((ks[i.1]'(by have := i.2; omega) : ℝ) + 1) / (Nat.max 1 (d.data.length - 1 - i) : Nat))) := by
      ext us
      simp only [Set.mem_setOf_eq, Set.mem_pi, Set.mem_univ, true_implies]
      have key : ∀ i : Fin k, us i ∈ Set.Ico ((ks[i.1]'(by have := i.2; omega) : ℝ) / (Nat.max 1 (d.data.length - 1 - i) : Nat))
          (((ks[i.1]'(by have := i.2; omega) : ℝ) + 1) / (Nat.max 1 (d.data.length - 1 - i) : Nat)) ↔ (0 ≤ us i ∧ us i < 1) ∧
          (ks[i.1]'(by have := i.2; omega) : ℝ) ≤ ((d.data.length - 1 - i : Nat) : ℝ) * us i ∧
            ((d.data.length - 1 - i : Nat) : ℝ) * us i < (ks[i.1]'(by have := i.2; omega) : ℝ) + 1 := by
        intro i
        have := k2 i.1 (by have := i.2; omega)
        simp only [List.length_nil, Nat.sub_zero] at this
        exact (position_interval this (us i)).symm
      simp only [key]
      constructor
      · rintro ⟨hu, hrow⟩ i
        rw [drawnRows_eq d hp (by simpa using hk)] at hrow
        have := (k3 _ (hunit us hu) (hlen us) (DataSet.empty.setObservableNames d.names) (.inl rfl)).1 hrow i.1 (by simp) (by have := i.2; omega)
        simp only [List.length_nil, Nat.sub_zero, List.getElem_ofFn] at this
        exact ⟨hu i, this⟩
      · intro hall
        refine ⟨fun i => (hall i).1, ?_⟩
        rw [drawnRows_eq d hp (by simpa using hk)]
        refine (k3 _ (hunit us fun i => (hall i).1) (hlen us) (DataSet.empty.setObservableNames d.names) (.inl rfl)).2 ?_
        intro i hi hi'
        have := (hall ⟨i, by simpa using hi⟩).2
        simpa using this
    rw [this, volume_pi_pi]
    refine Finset.prod_congr rfl fun i _ => ?_
    rw [Real.volume_Ico]
    congr 1
    ring

/-- C106, the first event drawn: each event but the last of the data set has probability 1/(N - 1), and the last none, if there are at least two. -/
theorem C106_first_partial (d : DataSet ℝ) (hd : d.WF) (hnd : d.data.Nodup) (hN : d.data.length < 2 ^ 31) {p : Pool} (hp : p = Pool.fresh ∨ p = Pool.added)
    (h2 : 2 ≤ d.data.length) {j : Nat} (hj : j < d.data.length) :
    volume {u : ℝ | (0 ≤ u ∧ u < 1) ∧ drawnRows d p [u] = some [d.data[j]]} =
      if j + 1 < d.data.length then ENNReal.ofReal (1 / ((d.data.length : ℝ) - 1)) else 0 := by
  have hs : State d.data.length [] p := .inl ⟨rfl, by rcases hp with rfl | rfl <;> rfl⟩
  have hi := state_init hs
  have hidx : (p.init d.data.length).idxs = List.range d.data.length := by
    rcases hp with rfl | rfl <;> rfl
  have hMr : ((d.data.length - 1 : Nat) : ℝ) = (d.data.length : ℝ) - 1 := by rw [Nat.cast_sub (by omega)]; simp
  have hM : (0 : ℝ) < ((d.data.length - 1 : Nat) : ℝ) := by exact_mod_cast (by omega : 0 < d.data.length - 1)
  have hone : ∀ u : ℝ, 0 ≤ u ∧ u < 1 → ∀ k : Nat, (k : ℝ) ≤ ((d.data.length - 1 : Nat) : ℝ) * u ∧ ((d.data.length - 1 : Nat) : ℝ) * u < k + 1 →
      ∃ hk : k + 1 < d.data.length, drawnRows d p [u] = some [d.data[k]] := by
    intro u hu k hk
    obtain ⟨k', b1, b2, b3, b4⟩ := position_of (M := d.data.length - 1) hu
    have hkk : k' = k := by
      have h1 : (k : ℝ) < k' + 1 := lt_of_le_of_lt hk.1 b2
      have h2 : (k' : ℝ) < k + 1 := lt_of_le_of_lt b1 hk.2
      have h1 : k < k' + 1 := by exact_mod_cast h1
      have h2 : k' < k + 1 := by exact_mod_cast h2
      omega
    subst hkk
    have b4 := b4 (by omega)
    refine ⟨by omega, ?_⟩
    obtain ⟨p', j', hj', c1, _, c3⟩ := step_at d hd hN hi (by simp; omega) (k := k') (by simp; omega)
    obtain ⟨o, e1, e2, _⟩ := c3 u (DataSet.empty.setObservableNames d.names) hu (by simpa using hk) (.inl rfl)
    have hjk : j' = k' := by
      rw [hidx, List.getElem?_range (by omega)] at c1
      exact (Option.some.inj c1).symm
    subst hjk
    rw [drawnRows_eq d hp (by simp; omega)]
    unfold rowsFrom
    rw [Res.forFold_cons_ok e1]
    simp [Res.forFold, Res.toOption, e2, DataSet.empty, DataSet.setObservableNames]
  split
  · rename_i hjl
    have : {u : ℝ | (0 ≤ u ∧ u < 1) ∧ drawnRows d p [u] = some [d.data[j]]} =
        Set.Ico ((j : ℝ) / (Nat.max 1 (d.data.length - 1) : Nat)) (((j : ℝ) + 1) / (Nat.max 1 (d.data.length - 1) : Nat)) := by
      ext u
      rw [← position_interval (lt_of_lt_of_le (by omega : j < d.data.length - 1) (Nat.le_max_right _ _)), Set.mem_setOf_eq]
      constructor
      · rintro ⟨hu, hrow⟩
        refine ⟨hu, ?_⟩
        obtain ⟨k, b1, b2, b3, b4⟩ := position_of (M := d.data.length - 1) hu
        obtain ⟨hk, e⟩ := hone u hu k ⟨b1, b2⟩
        rw [e] at hrow
        have : d.data[k] = d.data[j] := by simpa using Option.some.inj hrow
        have : k = j := (List.Nodup.getElem_inj_iff hnd).1 this
        subst this
        exact ⟨b1, b2⟩
      · rintro ⟨hu, hk⟩
        exact ⟨hu, (hone u hu j hk).2⟩
    rw [this, Real.volume_Ico]
    have hm : Nat.max 1 (d.data.length - 1) = d.data.length - 1 := max_eq_right (by omega)
    rw [hm, hMr]
    congr 1; ring
  · rename_i hjl
    have : {u : ℝ | (0 ≤ u ∧ u < 1) ∧ drawnRows d p [u] = some [d.data[j]]} = ∅ := by
      ext u
      simp only [Set.mem_setOf_eq, Set.mem_empty_iff_false, iff_false, not_and]
      intro hu hrow
      obtain ⟨k, b1, b2, b3, b4⟩ := position_of (M := d.data.length - 1) hu
      obtain ⟨hk, e⟩ := hone u hu k ⟨b1, b2⟩
      rw [e] at hrow
      have : d.data[k] = d.data[j] := by simpa using Option.some.inj hrow
      have : k = j := (List.Nodup.getElem_inj_iff hnd).1 this
      omega
    rw [this, measure_empty]

theorem selected_many (d : DataSet ℝ) (js : List Nat) : selected [] d js = js.filterMap (fun j => d.data[j]?) := by
  unfold selected
  rw [List.filter_eq_self]
  intro a _
  simp [CutCollection.passesCuts]

/-- C106, the next event drawn, after any draws: let two or more events be left. Exactly one of them cannot be the next; all others are equally likely. -/
theorem C106_next_partial (d : DataSet ℝ) (hd : d.WF) (hnd : d.data.Nodup) (hN : d.data.length < 2 ^ 31) {p : Pool} (hp : p = Pool.fresh ∨ p = Pool.added)
    (us : List ℝ) (hus : UnitRands us) (hl : us.length + 2 ≤ d.data.length) :
    ∃ js : List Nat, js.length = us.length ∧ js.Nodup ∧ (∀ j ∈ js, j < d.data.length) ∧ drawnRows d p us = some (js.filterMap (fun j => d.data[j]?)) ∧
      ∃ x < d.data.length, x ∉ js ∧ ∀ j < d.data.length, j ∉ js →
        volume {u : ℝ | (0 ≤ u ∧ u < 1) ∧ drawnRows d p (us ++ [u]) = some ((js ++ [j]).filterMap (fun j => d.data[j]?))} =
          if j = x then 0 else ENNReal.ofReal (1 / ((d.data.length : ℝ) - us.length - 1)) := by
  have hs : State d.data.length [] p := .inl ⟨rfl, by rcases hp with rfl | rfl <;> rfl⟩
  have hcut : CutsApply ([] : CutCollection ℝ) d := by intro r _ c hc; cases hc
  obtain ⟨p₁, o₁, js, g1, g2, g3, g4, g5, g6⟩ := randomDraws_spec [] d hd hcut hN hs us hus (by simp; omega) (DataSet.empty.setObservableNames d.names) (.inl rfl)
  rw [List.nil_append] at g3
  obtain ⟨n1, n2, _⟩ := g3.nodup
  have hrows : drawnRows d p us = some (js.filterMap (fun j => d.data[j]?)) := by
    unfold drawnRows; rw [g1]
    simp [Res.toOption, g5, selected_many, DataSet.empty, DataSet.setObservableNames]
  have hlen : p₁.idxs.length = d.data.length := by rw [g3.perm.length_eq, List.length_range]
  have hpn : p₁.idxs.Nodup := g3.perm.nodup_iff.2 List.nodup_range
  set M := d.data.length - js.length - 1 with hM
  have hMl : M < p₁.idxs.length := by omega
  have hMpos : 0 < M := by omega
  -- drawn events are at the end
  have hundrawn : ∀ k (hk : k < p₁.idxs.length), p₁.idxs[k] ∉ js ↔ k ≤ M := by
    intro k hk
    have hmem : p₁.idxs[k] ∈ js ↔ p₁.idxs[k] ∈ p₁.idxs.drop (d.data.length - js.length) := by rw [g3.suffix]; simp
    rw [hmem]
    constructor
    · intro h
      by_contra hc
      refine h (List.mem_iff_getElem.2 ⟨k - (d.data.length - js.length), by simp; omega, ?_⟩)
      rw [List.getElem_drop]
      congr 1; omega
    · intro h hc
      obtain ⟨i, hi, e⟩ := List.mem_iff_getElem.1 hc
      rw [List.getElem_drop] at e
      have := (List.Nodup.getElem_inj_iff hpn).1 e
      omega
  have hlt : ∀ k (hk : k < p₁.idxs.length), p₁.idxs[k] < d.data.length := fun k hk => by
    have := g3.perm.mem_iff.1 (List.getElem_mem hk); simpa using this
  -- the next row
  have hnext : ∀ u : ℝ, 0 ≤ u ∧ u < 1 → ∀ k : Nat, (k : ℝ) ≤ (M : ℝ) * u ∧ (M : ℝ) * u < k + 1 → k < M ∧ ∀ hk : k < p₁.idxs.length,
      drawnRows d p (us ++ [u]) = some ((js ++ [p₁.idxs[k]]).filterMap (fun j => d.data[j]?)) := by
    intro u hu k hk
    obtain ⟨k', b1, b2, b3, b4⟩ := position_of (M := M) hu
    have hkk : k' = k := by
      have h1 : (k : ℝ) < k' + 1 := lt_of_le_of_lt hk.1 b2
      have h2 : (k' : ℝ) < k + 1 := lt_of_le_of_lt b1 hk.2
      have h1 : k < k' + 1 := by exact_mod_cast h1
      have h2 : k' < k + 1 := by exact_mod_cast h2
      omega
    subst hkk
    refine ⟨b4 hMpos, fun hkl => ?_⟩
    obtain ⟨p', j', hj', c1, _, c3⟩ := step_at d hd hN g3 (by omega) (k := k') b3
    obtain ⟨o, e1, e2, _⟩ := c3 u o₁ hu hk g6
    have hjk : j' = p₁.idxs[k'] := by
      rw [List.getElem?_eq_getElem hkl] at c1
      exact (Option.some.inj c1).symm
    rw [drawnRows_eq d hp (by simp; omega)]
    unfold rowsFrom
    unfold randomDraws at g1
    rw [if_neg (by unfold DataSet.getNEntries; omega)] at g1
    have g1' : Res.forFold (stepRandom [] d) (p.init d.data.length, DataSet.empty.setObservableNames d.names) us = .ok (p₁, o₁) := g1
    have h1 : Res.forFold (stepRandom [] d) (p.init d.data.length, DataSet.empty.setObservableNames d.names) (us ++ [u]) = .ok (p', o) := by
      rw [Res.forFold_append, g1']
      show Res.forFold (stepRandom [] d) (p₁, o₁) [u] = _
      rw [Res.forFold_cons_ok e1]; rfl
    rw [h1]
    subst hjk
    simp [Res.forFold, Res.toOption, e2, g5, selected_many, DataSet.empty, DataSet.setObservableNames, List.getElem?_eq_getElem hj']
  have hinj : ∀ i j, i < d.data.length → j < d.data.length →
      some ((js ++ [i]).filterMap (fun j => d.data[j]?)) = some ((js ++ [j]).filterMap (fun j => d.data[j]?)) → i = j := by
    intro i j hi hj e
    rw [List.filterMap_append, List.filterMap_append] at e
    have := List.append_cancel_left (Option.some.inj e)
    simp only [List.filterMap_cons, List.getElem?_eq_getElem hi, List.getElem?_eq_getElem hj, List.filterMap_nil, List.cons.injEq, and_true] at this
    exact (List.Nodup.getElem_inj_iff hnd).1 this
  refine ⟨js, g2, n1, n2, hrows, p₁.idxs[M], hlt M hMl, (hundrawn M hMl).2 (le_refl _), ?_⟩
  intro j hj hjd
  obtain ⟨k, hk, hkj⟩ := List.mem_iff_getElem.1 (g3.perm.mem_iff.2 (by simpa using hj) : j ∈ p₁.idxs)
  have hkM : k ≤ M := (hundrawn k hk).1 (by rw [hkj]; exact hjd)
  split
  · rename_i hjx
    have hkM' : k = M := by
      subst hjx
      exact (List.Nodup.getElem_inj_iff hpn).1 hkj
    have : {u : ℝ | (0 ≤ u ∧ u < 1) ∧ drawnRows d p (us ++ [u]) = some ((js ++ [j]).filterMap (fun j => d.data[j]?))} = ∅ := by
      ext u
      simp only [Set.mem_setOf_eq, Set.mem_empty_iff_false, iff_false, not_and]
      intro hu hrow
      obtain ⟨k', b1, b2, b3, b4⟩ := position_of (M := M) hu
      obtain ⟨q1, q2⟩ := hnext u hu k' ⟨b1, b2⟩
      rw [q2 (by omega)] at hrow
      have e := hinj _ _ (hlt k' (by omega)) hj hrow
      rw [← hkj] at e
      have := (List.Nodup.getElem_inj_iff hpn).1 e
      omega
    rw [this, measure_empty]
  · rename_i hjx
    have hkM' : k < M := by
      rcases Nat.lt_or_ge k M with h | h
      · exact h
      · exfalso; apply hjx
        have : k = M := by omega
        subst this; exact hkj.symm
    have : {u : ℝ | (0 ≤ u ∧ u < 1) ∧ drawnRows d p (us ++ [u]) = some ((js ++ [j]).filterMap (fun j => d.data[j]?))} =
        Set.Ico ((k : ℝ) / (Nat.max 1 M : Nat)) (((k : ℝ) + 1) / (Nat.max 1 M : Nat)) := by
      ext u
      rw [← position_interval (lt_of_lt_of_le hkM' (Nat.le_max_right _ _)), Set.mem_setOf_eq]
      constructor
      · rintro ⟨hu, hrow⟩
        refine ⟨hu, ?_⟩
        obtain ⟨k', b1, b2, b3, b4⟩ := position_of (M := M) hu
        obtain ⟨q1, q2⟩ := hnext u hu k' ⟨b1, b2⟩
        rw [q2 (by omega)] at hrow
        have e := hinj _ _ (hlt k' (by omega)) hj hrow
        rw [← hkj] at e
        have := (List.Nodup.getElem_inj_iff hpn).1 e
        subst this
        exact ⟨b1, b2⟩
      · rintro ⟨hu, hk'⟩
        refine ⟨hu, ?_⟩
        rw [(hnext u hu k hk').2 hk, hkj]
    rw [this, Real.volume_Ico]
    have hm : Nat.max 1 M = M := max_eq_right hMpos
    have hMr : (M : ℝ) = (d.data.length : ℝ) - us.length - 1 := by
      rw [hM, g2, Nat.cast_sub (by omega), Nat.cast_sub (by omega)]; simp
    rw [hm, ← hMr]
    congr 1; ring

/-- C106 is false: of any two or more distinct events, the last of the data set is never the first to be drawn, whatever the random number. -/
theorem C106_last_wrong (d : DataSet ℝ) (hd : d.WF) (hnd : d.data.Nodup) (hN : d.data.length < 2 ^ 31) {p : Pool} (hp : p = Pool.fresh ∨ p = Pool.added)
    (h2 : 2 ≤ d.data.length) (us : List ℝ) (hus : UnitRands us) (hl : us.length ≤ d.data.length) (r : List ℝ) (rs : List (List ℝ))
    (h : drawnRows d p us = some (r :: rs)) : r ≠ d.data[d.data.length - 1] := by
  rintro rfl
  have hs : State d.data.length [] p := .inl ⟨rfl, by rcases hp with rfl | rfl <;> rfl⟩
  have hidx : (p.init d.data.length).idxs = List.range d.data.length := by rcases hp with rfl | rfl <;> rfl
  rw [drawnRows_eq d hp hl] at h
  rcases us with _ | ⟨u, us⟩
  · simp [rowsFrom, Res.forFold, Res.toOption, DataSet.empty, DataSet.setObservableNames] at h
  · obtain ⟨k, b1, b2, b3, b4⟩ := position_of (M := d.data.length - 1) (hus u List.mem_cons_self)
    have b4 := b4 (by omega)
    obtain ⟨p', j', hj', c1, c2, c3⟩ := step_at d hd hN (state_init hs) (by simp; omega) (k := k) (by simp; omega)
    obtain ⟨o, e1, e2, e3⟩ := c3 u (DataSet.empty.setObservableNames d.names) (hus u List.mem_cons_self) (by simpa using ⟨b1, b2⟩) (.inl rfl)
    have hjk : j' = k := by
      rw [hidx, List.getElem?_range (by omega)] at c1
      exact (Option.some.inj c1).symm
    subst hjk
    have : rowsFrom d (p.init d.data.length) (u :: us) (DataSet.empty.setObservableNames d.names) = rowsFrom d p' us o := by
      unfold rowsFrom; rw [Res.forFold_cons_ok e1]
    rw [this] at h
    obtain ⟨p₂, o₂, js, g1, g2, g3, g4, g5, _⟩ := randomDraws_spec [] d hd (by intro r _ c hc; cases hc) hN (.inr c2) us
      (fun v hv => hus v (List.mem_cons_of_mem _ hv)) (by simp at hl ⊢; omega) o e3
    unfold randomDraws at g1
    rw [if_neg (by unfold DataSet.getNEntries; simp only [List.length_cons] at hl; omega)] at g1
    have hin : p'.init d.getNEntries = p' := by
      unfold Pool.init
      rw [if_neg]
      rw [c2.perm.length_eq, List.length_range]; omega
    rw [hin] at g1
    unfold rowsFrom at h
    rw [g1] at h
    simp only [Res.toOption, Option.map_some, Option.some.injEq, g5, e2] at h
    simp only [DataSet.empty, DataSet.setObservableNames, List.nil_append, List.cons_append, List.cons.injEq] at h
    have : j' = d.data.length - 1 := (List.Nodup.getElem_inj_iff hnd).1 h.1
    omega

/-! ### Concrete cases -/

/-- Three events over the reals. -/
noncomputable def exRealSet : DataSet ℝ := ⟨[[10], [20], [30]], ["e"], 1⟩

theorem exRealSet_ok : exRealSet.WF ∧ exRealSet.data.Nodup ∧ exRealSet.data.length < 2 ^ 31 := by
  refine ⟨⟨?_, ?_, ?_⟩, ?_, ?_⟩ <;> simp [exRealSet]

-- three events: 10 and 20 are drawn first with probability 1/2 each, 30 never
example : volume {u : ℝ | (0 ≤ u ∧ u < 1) ∧ drawnRows exRealSet Pool.fresh [u] = some [[20]]} = ENNReal.ofReal (1 / 2) ∧
    volume {u : ℝ | (0 ≤ u ∧ u < 1) ∧ drawnRows exRealSet Pool.fresh [u] = some [[30]]} = 0 := by
  obtain ⟨a, b, c⟩ := exRealSet_ok
  have h1 := C106_first_partial exRealSet a b c (p := Pool.fresh) (.inl rfl) (by simp [exRealSet]) (j := 1) (by simp [exRealSet])
  have h2 := C106_first_partial exRealSet a b c (p := Pool.fresh) (.inl rfl) (by simp [exRealSet]) (j := 2) (by simp [exRealSet])
  have l : exRealSet.data.length = 3 := rfl
  have g1 : exRealSet.data[1]'(by rw [l]; omega) = [20] := rfl
  have g2 : exRealSet.data[2]'(by rw [l]; omega) = [30] := rfl
  rw [g1, if_pos (by rw [l]; omega), l] at h1
  rw [g2, if_neg (by rw [l]; omega)] at h2
  refine ⟨?_, h2⟩
  rw [h1]; norm_num

end Oxsx
