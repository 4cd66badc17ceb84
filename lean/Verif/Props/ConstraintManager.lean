import Verif.Spec.Constraint
import Verif.Props.Constraint
import Verif.Lemmas.Basic
/-
Property C37 (constraint manager).
-/
set_option linter.unusedSectionVars false
set_option linter.unusedSimpArgs false
set_option linter.unusedVariables false
namespace Oxsx
open ConstraintManager
variable {α : Type} [Field α] [LinearOrder α] [IsStrictOrderedRing α]

/-- The manager's methods, by call. -/
def ConstraintManager.exec (m : ConstraintManager α) : ConCall α → Res (ConstraintManager α)
  | .ind n q => m.setInd n q
  | .pair a m1 s1 b m2 s2 c => m.setPair a m1 s1 b m2 s2 c
  | .ratio a b mean s => .ok (m.setRatio a b mean s)
  | .frac a b mean s => .ok (m.setFrac a b mean s)
  | .interp l h => .ok (m.setInterp l h)
  | .shape k f mean s => .ok (m.setShape k f mean s)

/-- A history of calls on a new manager; an exception is caught by the caller and leaves the manager as it was (the methods
throw before changing anything). -/
def ConstraintManager.runCalls (cs : List (ConCall α)) : ConstraintManager α :=
  cs.foldl (fun m c => match m.exec c with
    | .ok m' => m'
    | _ => m) ConstraintManager.empty

/-- Refinement relation. -/
structure ConRel (m : ConstraintManager α) (R : Registered α) : Prop where
  ind : ∀ n, m.ind.find n = R.ind n
  pair : ∀ k, KMap.find k m.pair = R.pair k
  ratio : ∀ k, KMap.find k m.ratio = R.ratio k
  frac : ∀ k, KMap.find k m.frac = R.frac k
  interp : ∀ n, m.interp.find n = R.interp n
  shape : ∀ k, KMap.find k m.shape = R.shape k
  useT : ∀ n, m.useInd.find n = some true ↔ (R.ind n).isSome
  useF : ∀ n, m.useInd.find n = some false ↔ R.InPair n
  s1 : m.ind.Sorted
  s2 : (KMap.keys m.pair).Nodup
  s3 : (KMap.keys m.ratio).Nodup
  s4 : (KMap.keys m.frac).Nodup
  s5 : m.interp.Sorted
  s6 : (KMap.keys m.shape).Nodup
  single : ∀ k k', (R.pair k).isSome → (R.pair k').isSome → (k.1 = k'.1 ∨ k.1 = k'.2 ∨ k.2 = k'.1 ∨ k.2 = k'.2) → k = k'

theorem conRel_empty : ConRel (ConstraintManager.empty : ConstraintManager α) Registered.empty := by
  refine ⟨fun _ => rfl, fun _ => rfl, fun _ => rfl, fun _ => rfl, fun _ => rfl, fun _ => rfl, ?_, ?_, SMap.sorted_nil,
    List.nodup_nil, List.nodup_nil, List.nodup_nil, SMap.sorted_nil, List.nodup_nil, ?_⟩
  · intro n; simp [ConstraintManager.empty, Registered.empty, SMap.find]
  · intro n; simp [ConstraintManager.empty, Registered.empty, SMap.find, Registered.InPair]
  · intro k k' h; cases h

theorem update_eq {κ β : Type} [DecidableEq κ] (f : κ → Option β) (k k' : κ) (v : β) :
    Function.update f k (some v) k' = if k = k' then some v else f k' := by
  by_cases h : k = k'
  · subst h; simp
  · rw [Function.update_of_ne (Ne.symm h), if_neg h]

theorem conRel_step {m : ConstraintManager α} {R : Registered α} (h : ConRel m R) (c : ConCall α) :
    match R.outcome c with
    | none => ∃ m', m.exec c = .ok m' ∧ ConRel m' (R.update c)
    | some e => m.exec c = .throw e := by
  cases c with
  | ind n q =>
    unfold Registered.outcome exec setInd
    by_cases hp : R.InPair n
    · simp only [hp, if_true]; rw [(h.useF n).2 hp]
    · simp only [hp, if_false]
      have hne : m.useInd.find n ≠ some false := fun hc => hp ((h.useF n).1 hc)
      cases hu : m.useInd.find n with
      | none =>
        refine ⟨_, rfl, { h with ind := ?_, useT := ?_, useF := ?_, s1 := SMap.sorted_insert h.s1 _ _ }⟩
        · intro n'; simp only [Registered.update]; rw [SMap.find_insert, update_eq, h.ind]
        · intro n'; simp only [Registered.update]; rw [SMap.find_insert, update_eq]
          split
          · simp
          · exact h.useT n'
        · intro n'
          have e : (R.update (.ind n q)).InPair n' ↔ R.InPair n' := Iff.rfl
          rw [e]
          simp only; rw [SMap.find_insert]
          split
          · rename_i hn; subst hn; simp [hp]
          · exact h.useF n'
      | some b =>
        cases b with
        | false => exact absurd hu hne
        | true =>
          refine ⟨_, rfl, { h with ind := ?_, useT := ?_, s1 := SMap.sorted_insert h.s1 _ _ }⟩
          · intro n'; simp only [Registered.update]; rw [SMap.find_insert, update_eq, h.ind]
          · intro n'; simp only [Registered.update]; rw [update_eq]
            split
            · rename_i hn; subst hn; simp [hu]
            · exact h.useT n'
  | pair a m1 s1 b m2 s2 corr =>
    have huse : ∀ n, (m.useInd.find n).isSome ↔ (R.ind n).isSome ∨ R.InPair n := by
      intro n
      rw [← h.useT, ← h.useF]
      cases m.useInd.find n with
      | none => simp
      | some v => cases v <;> simp
    have hexec : m.exec (.pair a m1 s1 b m2 s2 corr) = m.setPair a m1 s1 b m2 s2 corr := rfl
    cases hpr : R.pair (a, b) with
    | some old =>
      have hin : R.InPair a := ⟨(a, b), by simp [hpr], Or.inl rfl⟩
      have hcond : (m.useInd.find a).isSome ∨ (m.useInd.find b).isSome := Or.inl ((huse a).2 (Or.inr hin))
      have hset : m.setPair a m1 s1 b m2 s2 corr = (BivariateConstraint.mk' m1 s1 m2 s2 corr >>= fun c =>
          pure { m with pair := KMap.insert (a, b) c m.pair }) := by
        unfold setPair
        rw [if_pos hcond, h.pair, hpr]
      by_cases hc : corr = 1
      · have ho : R.outcome (.pair a m1 s1 b m2 s2 corr) = some .value := by
          unfold Registered.outcome; simp only []; rw [if_neg (by simp [hpr]), if_pos hc]
        rw [ho, hexec, hset]
        unfold BivariateConstraint.mk'; rw [if_pos hc]; rfl
      · have ho : R.outcome (.pair a m1 s1 b m2 s2 corr) = none := by
          unfold Registered.outcome; simp only []; rw [if_neg (by simp [hpr]), if_neg hc]
        rw [ho, hexec, hset]
        have hmk : BivariateConstraint.mk' m1 s1 m2 s2 corr = .ok ⟨m1, s1, m2, s2, corr⟩ := by
          unfold BivariateConstraint.mk'; rw [if_neg hc]
        rw [hmk]
        refine ⟨_, rfl, { h with pair := ?_, useF := ?_, s2 := KMap.nodup_insert _ _ _ h.s2, single := ?_ }⟩
        · intro k; simp only [Registered.update]; rw [KMap.find_insert, update_eq, h.pair]
        · intro n
          have e : (R.update (.pair a m1 s1 b m2 s2 corr)).InPair n ↔ R.InPair n := by
            unfold Registered.InPair
            apply exists_congr
            intro k
            simp only [Registered.update, update_eq]
            by_cases hk : (a, b) = k
            · subst hk; simp [hpr]
            · simp [hk]
          rw [e]; exact h.useF n
        · intro k k' hk hk'
          have e : ∀ k, ((R.update (.pair a m1 s1 b m2 s2 corr)).pair k).isSome → (R.pair k).isSome := by
            intro k hk
            simp only [Registered.update, update_eq] at hk
            by_cases hkk : (a, b) = k
            · subst hkk; simp [hpr]
            · simpa [hkk] using hk
          exact h.single k k' (e k hk) (e k' hk')
    | none =>
      by_cases hcond : ((R.ind a).isSome = true ∨ R.InPair a) ∨ (R.ind b).isSome = true ∨ R.InPair b
      · have ho : R.outcome (.pair a m1 s1 b m2 s2 corr) = some .logic := by
          unfold Registered.outcome; simp only []; rw [if_pos ⟨by simp [hpr], by tauto⟩]
        rw [ho, hexec]
        unfold setPair
        rw [if_pos ((or_congr (huse a) (huse b)).2 hcond), h.pair, hpr]
      · have hset : m.setPair a m1 s1 b m2 s2 corr = (BivariateConstraint.mk' m1 s1 m2 s2 corr >>= fun c =>
            pure { m with pair := KMap.insert (a, b) c m.pair, useInd := (m.useInd.insert a false).insert b false }) := by
          unfold setPair
          rw [if_neg (fun hx => hcond ((or_congr (huse a) (huse b)).1 hx))]
        by_cases hc : corr = 1
        · have ho : R.outcome (.pair a m1 s1 b m2 s2 corr) = some .value := by
            unfold Registered.outcome; simp only []; rw [if_neg (by rintro ⟨_, hx⟩; exact hcond (by tauto)), if_pos hc]
          rw [ho, hexec, hset]
          unfold BivariateConstraint.mk'; rw [if_pos hc]; rfl
        · have ho : R.outcome (.pair a m1 s1 b m2 s2 corr) = none := by
            unfold Registered.outcome; simp only []; rw [if_neg (by rintro ⟨_, hx⟩; exact hcond (by tauto)), if_neg hc]
          rw [ho, hexec, hset]
          have hmk : BivariateConstraint.mk' m1 s1 m2 s2 corr = .ok ⟨m1, s1, m2, s2, corr⟩ := by
            unfold BivariateConstraint.mk'; rw [if_neg hc]
          rw [hmk]
          have hIn : ∀ n, (R.update (.pair a m1 s1 b m2 s2 corr)).InPair n ↔ (n = a ∨ n = b) ∨ R.InPair n := by
            intro n
            unfold Registered.InPair
            simp only [Registered.update, update_eq]
            constructor
            · rintro ⟨k, hk1, hk2⟩
              by_cases hk : (a, b) = k
              · subst hk; exact Or.inl hk2
              · rw [if_neg hk] at hk1; exact Or.inr ⟨k, hk1, hk2⟩
            · rintro (hn | ⟨k, hk1, hk2⟩)
              · exact ⟨(a, b), by simp, hn⟩
              · refine ⟨k, ?_, hk2⟩
                by_cases hk : (a, b) = k
                · simp [hk]
                · rw [if_neg hk]; exact hk1
          refine ⟨_, rfl, { h with pair := ?_, useT := ?_, useF := ?_, s2 := KMap.nodup_insert _ _ _ h.s2, single := ?_ }⟩
          · intro k; simp only [Registered.update]; rw [KMap.find_insert, update_eq, h.pair]
          · intro n
            simp only [Registered.update]
            rw [SMap.find_insert, SMap.find_insert]
            by_cases hb : b = n
            · subst hb; simp only [if_true]
              constructor
              · intro hx; cases hx
              · intro hx; exact absurd (Or.inr (Or.inl hx)) hcond
            · by_cases ha : a = n
              · subst ha; simp only [hb, if_false, if_true]
                constructor
                · intro hx; cases hx
                · intro hx; exact absurd (Or.inl (Or.inl hx)) hcond
              · simp only [ha, hb, if_false]; exact h.useT n
          · intro n
            rw [hIn]
            simp only
            rw [SMap.find_insert, SMap.find_insert]
            by_cases hb : b = n
            · subst hb; simp
            · by_cases ha : a = n
              · subst ha; simp [hb]
              · simp only [ha, hb, if_false, Ne.symm ha, Ne.symm hb, false_or]
                rw [h.useF n]
          · intro k k' hk hk' hsh
            simp only [Registered.update, update_eq] at hk hk'
            have hnot : ∀ q, (R.pair q).isSome → ¬ (q.1 = a ∨ q.1 = b ∨ q.2 = a ∨ q.2 = b) := by
              intro q hq hq2
              have e1 : ∀ x, (x = q.1 ∨ x = q.2) → R.InPair x := fun x hx => ⟨q, hq, hx⟩
              rcases hq2 with hx | hx | hx | hx
              · exact hcond (Or.inl (Or.inr (e1 a (Or.inl hx.symm))))
              · exact hcond (Or.inr (Or.inr (e1 b (Or.inl hx.symm))))
              · exact hcond (Or.inl (Or.inr (e1 a (Or.inr hx.symm))))
              · exact hcond (Or.inr (Or.inr (e1 b (Or.inr hx.symm))))
            by_cases e1 : (a, b) = k <;> by_cases e2 : (a, b) = k'
            · rw [← e1, ← e2]
            · subst e1
              rw [if_neg e2] at hk'
              exact absurd (by rcases hsh with hx | hx | hx | hx <;> simp [← hx]) (hnot k' hk')
            · subst e2
              rw [if_neg e1] at hk
              exact absurd (by rcases hsh with hx | hx | hx | hx <;> simp [hx]) (hnot k hk)
            · rw [if_neg e1] at hk; rw [if_neg e2] at hk'
              exact h.single k k' hk hk' hsh
  | ratio a b mean s =>
    refine ⟨_, rfl, { h with ratio := ?_, s3 := KMap.nodup_insert _ _ _ h.s3 }⟩
    intro k; simp only [Registered.update, setRatio]; rw [KMap.find_insert, update_eq, h.ratio]
  | frac a b mean s =>
    refine ⟨_, rfl, { h with frac := ?_, s4 := KMap.nodup_insert _ _ _ h.s4 }⟩
    intro k; simp only [Registered.update, setFrac]; rw [KMap.find_insert, update_eq, h.frac]
  | interp l hh =>
    refine ⟨_, rfl, { h with interp := ?_, s5 := SMap.sorted_insert h.s5 _ _ }⟩
    intro k; simp only [Registered.update, setInterp]; rw [SMap.find_insert, update_eq, h.interp]
  | shape k f mean s =>
    refine ⟨_, rfl, { h with shape := ?_, s6 := KMap.nodup_insert _ _ _ h.s6 }⟩
    intro k; simp only [Registered.update, setShape]; rw [KMap.find_insert, update_eq, h.shape]

theorem conRel_fold (cs : List (ConCall α)) (m : ConstraintManager α) (R : Registered α) (h : ConRel m R) :
    ConRel (cs.foldl (fun m c => match m.exec c with
      | .ok m' => m'
      | _ => m) m) (cs.foldl Registered.step R) := by
  induction cs generalizing m R with
  | nil => exact h
  | cons c cs ih =>
    simp only [List.foldl_cons]
    have hs := conRel_step h c
    apply ih
    unfold Registered.step
    cases ho : R.outcome c with
    | none =>
      rw [ho] at hs
      obtain ⟨m', h1, h2⟩ := hs
      rw [h1]; exact h2
    | some e =>
      rw [ho] at hs
      simp only at hs
      rw [hs]; exact h

theorem conRel_run (cs : List (ConCall α)) : ConRel (runCalls cs) (Registered.run cs) :=
  conRel_fold cs _ _ conRel_empty

/-! ### C37 -/

/-- C37. After any history of calls, the next call is accepted or throws exactly as the specification says. -/
theorem C37_calls (cs : List (ConCall α)) (c : ConCall α) :
    (∀ e, (Registered.run cs).outcome c = some e ↔ (runCalls cs).exec c = .throw e) ∧
    ((Registered.run cs).outcome c = none ↔ ∃ m', (runCalls cs).exec c = .ok m') := by
  have hs := conRel_step (conRel_run cs) c
  cases ho : (Registered.run cs).outcome c with
  | none =>
    rw [ho] at hs
    obtain ⟨m', h1, _⟩ := hs
    simp [h1]
  | some e =>
    rw [ho] at hs
    simp only at hs
    simp [hs]

/-- C37. After any history, no parameter has both an individual and a pair constraint, and each parameter is in at most one
pair (so never in a pair in both orders). -/
theorem C37_exclusive (cs : List (ConCall α)) :
    (∀ n, ¬ (((Registered.run cs).ind n).isSome ∧ (Registered.run cs).InPair n)) ∧
    (∀ k k', ((Registered.run cs).pair k).isSome → ((Registered.run cs).pair k').isSome →
      (k.1 = k'.1 ∨ k.1 = k'.2 ∨ k.2 = k'.1 ∨ k.2 = k'.2) → k = k') := by
  have h := conRel_run cs
  refine ⟨?_, h.single⟩
  rintro n ⟨h1, h2⟩
  have e1 := (h.useT n).2 h1
  have e2 := (h.useF n).2 h2
  rw [e1] at e2; cases e2

theorem sumOver_ok {κ β : Type} (eval : κ → β → Res (Fl α)) (m : List (κ × β)) (f : κ → α)
    (h : ∀ p ∈ m, eval p.1 p.2 = .ok (some (f p.1))) (t : α) :
    sumOver eval m (some t) = .ok (some (t + (m.map (fun p => f p.1)).sum)) := by
  unfold sumOver
  induction m generalizing t with
  | nil => simp [Res.forFold]
  | cons p m ih =>
    simp only [Res.forFold, h p List.mem_cons_self, Res.ok_bind]
    have := ih (fun q hq => h q (List.mem_cons_of_mem _ hq)) (t + f p.1)
    simp only [List.map_cons, List.sum_cons, ← add_assoc]
    exact this

theorem finsum_list {κ β : Type} [DecidableEq κ] (m : List (κ × β)) (hnd : (m.map (·.1)).Nodup) (f : κ → α)
    (h0 : ∀ k, k ∉ m.map (·.1) → f k = 0) : ∑ᶠ k, f k = (m.map (fun p => f p.1)).sum := by
  rw [finsum_eq_sum_of_support_subset (s := (m.map (·.1)).toFinset)]
  · rw [List.sum_toFinset _ hnd, List.map_map]; rfl
  · intro k hk
    by_contra hc
    exact hk (h0 k (by simpa using hc))

theorem smap_nodup {β : Type} {m : SMap β} (h : m.Sorted) : (m.map (·.1)).Nodup := by
  unfold SMap.Sorted at h
  unfold List.Nodup
  rw [List.pairwise_map]
  exact h.imp (fun h => ne_of_lt h)

open Classical in
/-- C37. After any history, whenever every constraint in force has its parameters in the dictionary and a finite value, the
total penalty is the sum of the values of the constraints in force. -/
theorem C37_total (cs : List (ConCall α)) (p : ParamDict α) (vi : String → α) (vp vr vf : String × String → α)
    (vh : String → α) (vs : ParamDict α → α) (hv : (Registered.run cs).Values p vi vp vr vf vh vs) :
    (runCalls cs).evaluate p = .ok (some (∑ᶠ n, vi n + ∑ᶠ k, vp k + ∑ᶠ k, vr k + ∑ᶠ k, vf k + ∑ᶠ l, vh l
      + ∑ᶠ k, vs k)) := by
  have h := conRel_run cs
  generalize runCalls cs = m at *
  generalize Registered.run cs = R at *
  have dict : ∀ n x, SMap.find p n = some x → dictAt p n = .ok x := by
    intro n x hx; unfold dictAt; rw [hx]
  unfold evaluate
  rw [sumOver_ok _ m.ind vi]
  swap
  · rintro ⟨n, q⟩ hm
    have := hv.ind n
    rw [← h.ind n, SMap.find_of_mem h.s1 hm] at this
    obtain ⟨x, h1, h2⟩ := this
    simp only [dict n x h1, Res.ok_bind, Res.pure_eq, h2]
  simp only [Res.ok_bind]
  rw [sumOver_ok _ m.pair vp]
  swap
  · rintro ⟨k, q⟩ hm
    have := hv.pair k
    rw [← h.pair k, KMap.find_of_mem h.s2 hm] at this
    obtain ⟨x, y, h1, h2, h3⟩ := this
    simp only [evalPair, dict _ x h1, dict _ y h2, Res.ok_bind, Res.pure_eq, h3]
  simp only [Res.ok_bind]
  rw [sumOver_ok _ m.ratio vr]
  swap
  · rintro ⟨k, q⟩ hm
    have := hv.ratio k
    rw [← h.ratio k, KMap.find_of_mem h.s3 hm] at this
    obtain ⟨x, y, h1, h2, h3⟩ := this
    simp only [evalPair, dict _ x h1, dict _ y h2, Res.ok_bind, Res.pure_eq, h3]
  simp only [Res.ok_bind]
  rw [sumOver_ok _ m.frac vf]
  swap
  · rintro ⟨k, q⟩ hm
    have := hv.frac k
    rw [← h.frac k, KMap.find_of_mem h.s4 hm] at this
    obtain ⟨x, y, h1, h2, h3⟩ := this
    simp only [evalPair, dict _ x h1, dict _ y h2, Res.ok_bind, Res.pure_eq, h3]
  simp only [Res.ok_bind]
  rw [sumOver_ok _ m.interp vh]
  swap
  · rintro ⟨n, q⟩ hm
    have := hv.interp n
    rw [← h.interp n, SMap.find_of_mem h.s5 hm] at this
    exact this
  simp only [Res.ok_bind]
  rw [sumOver_ok _ m.shape vs]
  swap
  · rintro ⟨k, q⟩ hm
    have := hv.shape k
    rw [← h.shape k, KMap.find_of_mem h.s6 hm] at this
    simp only [Res.pure_eq, this]
  rw [finsum_list m.ind (smap_nodup h.s1) vi, finsum_list m.pair h.s2 vp, finsum_list m.ratio h.s3 vr,
    finsum_list m.frac h.s4 vf, finsum_list m.interp (smap_nodup h.s5) vh, finsum_list m.shape h.s6 vs, zero_add]
  · intro k hk
    have := hv.shape k
    rw [← h.shape k] at this
    cases hf : KMap.find k m.shape with
    | none => rw [hf] at this; exact this
    | some v => exact absurd ((KMap.mem_keys_iff k m.shape).2 ⟨v, hf⟩) hk
  · intro k hk
    have := hv.interp k
    rw [← h.interp k] at this
    rw [(SMap.find_none_iff m.interp k).2 hk] at this; exact this
  · intro k hk
    have := hv.frac k
    rw [← h.frac k] at this
    cases hf : KMap.find k m.frac with
    | none => rw [hf] at this; exact this
    | some v => exact absurd ((KMap.mem_keys_iff k m.frac).2 ⟨v, hf⟩) hk
  · intro k hk
    have := hv.ratio k
    rw [← h.ratio k] at this
    cases hf : KMap.find k m.ratio with
    | none => rw [hf] at this; exact this
    | some v => exact absurd ((KMap.mem_keys_iff k m.ratio).2 ⟨v, hf⟩) hk
  · intro k hk
    have := hv.pair k
    rw [← h.pair k] at this
    cases hf : KMap.find k m.pair with
    | none => rw [hf] at this; exact this
    | some v => exact absurd ((KMap.mem_keys_iff k m.pair).2 ⟨v, hf⟩) hk
  · intro k hk
    have := hv.ind k
    rw [← h.ind k] at this
    rw [(SMap.find_none_iff m.ind k).2 hk] at this; exact this

/-! Missing parameters -/

theorem sumOver_cases {κ β : Type} (eval : κ → β → Res (Fl α)) (m : List (κ × β)) (t : Fl α)
    (h : ∀ p ∈ m, (∃ v, eval p.1 p.2 = .ok v) ∨ eval p.1 p.2 = .throw .outOfRange) :
    ((∃ v, sumOver eval m t = .ok v) ∧ ∀ p ∈ m, ∃ v, eval p.1 p.2 = .ok v) ∨ sumOver eval m t = .throw .outOfRange := by
  unfold sumOver
  induction m generalizing t with
  | nil => left; exact ⟨⟨t, rfl⟩, by simp⟩
  | cons p m ih =>
    rcases h p List.mem_cons_self with ⟨v, hv⟩ | hv
    · simp only [Res.forFold, hv, Res.ok_bind, Res.pure_eq]
      rcases ih (Fl.add t v) (fun q hq => h q (List.mem_cons_of_mem _ hq)) with ⟨h1, h2⟩ | h1
      · left
        refine ⟨h1, ?_⟩
        intro q hq
        rcases List.mem_cons.1 hq with rfl | hq
        · exact ⟨v, hv⟩
        · exact h2 q hq
      · right; exact h1
    · right; simp only [Res.forFold, hv, Res.throw_bind]

theorem dictAt_cases (p : ParamDict α) (n : String) : (∃ v, dictAt p n = .ok v) ∨ dictAt p n = .throw .outOfRange := by
  unfold dictAt
  cases SMap.find p n with
  | none => exact Or.inr rfl
  | some v => exact Or.inl ⟨v, rfl⟩

theorem evalPair_cases {β : Type} (f : β → α → α → Fl α) (p : ParamDict α) (k : String × String) (c : β) :
    (∃ v, evalPair f p k c = .ok v) ∨ evalPair f p k c = .throw .outOfRange := by
  unfold evalPair
  rcases dictAt_cases p k.1 with ⟨x, hx⟩ | hx
  · rcases dictAt_cases p k.2 with ⟨y, hy⟩ | hy
    · left; rw [hx, hy]; exact ⟨_, rfl⟩
    · right; rw [hx, hy]; rfl
  · right; rw [hx]; rfl

/-- The parameters a constraint in force reads by name. -/
def Registered.Needs (R : Registered α) (n : String) : Prop :=
  (R.ind n).isSome ∨ R.InPair n ∨ (∃ k, (R.ratio k).isSome ∧ (n = k.1 ∨ n = k.2)) ∨
    (∃ k, (R.frac k).isSome ∧ (n = k.1 ∨ n = k.2))

theorem evalPair_missing {β : Type} (f : β → α → α → Fl α) (p : ParamDict α) (k : String × String) (c : β) (n : String)
    (hn : n = k.1 ∨ n = k.2) (hp : SMap.find p n = none) (v : Fl α) : evalPair f p k c ≠ .ok v := by
  unfold evalPair
  have hd : dictAt p n = .throw .outOfRange := by unfold dictAt; rw [hp]
  rcases hn with rfl | rfl
  · rw [hd]; simp
  · rw [hd]
    rcases dictAt_cases p k.1 with ⟨x, hx⟩ | hx
    · rw [hx]; simp
    · rw [hx]; simp

/-- C37. After any history, evaluating with a dictionary which lacks a parameter of an individual, pair, ratio or fractional
constraint in force throws `std::out_of_range`. -/
theorem C37_missing (cs : List (ConCall α)) (p : ParamDict α) (n : String) (hn : (Registered.run cs).Needs n)
    (hp : SMap.find p n = none) : (runCalls cs).evaluate p = .throw .outOfRange := by
  have h := conRel_run cs
  generalize runCalls cs = m at *
  generalize Registered.run cs = R at *
  have hd : dictAt p n = .throw .outOfRange := by unfold dictAt; rw [hp]
  unfold evaluate
  have c1 := sumOver_cases (fun n (c : QuadraticConstraint α) => (do
    let v ← dictAt p n
    pure (c.evaluate v) : Res (Fl α))) m.ind (some 0) (by
      rintro ⟨n, q⟩ _
      rcases dictAt_cases p n with ⟨x, hx⟩ | hx
      · left; simp only [hx]; exact ⟨_, rfl⟩
      · right; simp only [hx]; rfl)
  rcases c1 with ⟨⟨t1, c1⟩, a1⟩ | c1
  swap
  · rw [c1]; rfl
  rw [c1]; simp only [Res.ok_bind]
  rcases sumOver_cases (evalPair BivariateConstraint.evaluate p) m.pair t1 (fun q _ => evalPair_cases _ p q.1 q.2) with
    ⟨⟨t2, c2⟩, a2⟩ | c2
  swap
  · rw [c2]; rfl
  rw [c2]; simp only [Res.ok_bind]
  rcases sumOver_cases (evalPair RatioConstraint.evaluate p) m.ratio t2 (fun q _ => evalPair_cases _ p q.1 q.2) with
    ⟨⟨t3, c3⟩, a3⟩ | c3
  swap
  · rw [c3]; rfl
  rw [c3]; simp only [Res.ok_bind]
  rcases sumOver_cases (evalPair FractionalConstraint.evaluate p) m.frac t3 (fun q _ => evalPair_cases _ p q.1 q.2) with
    ⟨⟨t4, c4⟩, a4⟩ | c4
  swap
  · rw [c4]; rfl
  exfalso
  rcases hn with hn | ⟨k, hk, hkn⟩ | ⟨k, hk, hkn⟩ | ⟨k, hk, hkn⟩
  · obtain ⟨q, hq⟩ := Option.isSome_iff_exists.1 hn
    obtain ⟨v, hv⟩ := a1 (n, q) (SMap.find_mem (by rw [h.ind, hq]))
    simp only [hd, Res.throw_bind] at hv
    cases hv
  · obtain ⟨q, hq⟩ := Option.isSome_iff_exists.1 hk
    obtain ⟨v, hv⟩ := a2 (k, q) (KMap.mem_of_find (by rw [h.pair, hq]))
    exact evalPair_missing _ p k q n hkn hp v hv
  · obtain ⟨q, hq⟩ := Option.isSome_iff_exists.1 hk
    obtain ⟨v, hv⟩ := a3 (k, q) (KMap.mem_of_find (by rw [h.ratio, hq]))
    exact evalPair_missing _ p k q n hkn hp v hv
  · obtain ⟨q, hq⟩ := Option.isSome_iff_exists.1 hk
    obtain ⟨v, hv⟩ := a4 (k, q) (KMap.mem_of_find (by rw [h.frac, hq]))
    exact evalPair_missing _ p k q n hkn hp v hv

/-- C37. Without function-of-the-dictionary constraints, the penalty depends only on the parameters constrained: two
dictionaries which agree on them give the same outcome. -/
theorem C37_depends (cs : List (ConCall α)) (p p' : ParamDict α) (hsh : ∀ k, (Registered.run cs).shape k = none)
    (hag : ∀ n, ((Registered.run cs).Needs n ∨ ∃ l h, (Registered.run cs).interp l = some h ∧ n ∈ h.axes.axisNames) →
      SMap.find p n = SMap.find p' n) :
    (runCalls cs).evaluate p = (runCalls cs).evaluate p' := by
  have h := conRel_run cs
  generalize runCalls cs = m at *
  generalize Registered.run cs = R at *
  have cong : ∀ {κ β : Type} (e e' : κ → β → Res (Fl α)) (l : List (κ × β)) (t : Fl α),
      (∀ q ∈ l, e q.1 q.2 = e' q.1 q.2) → sumOver e l t = sumOver e' l t := by
    intro κ β e e' l t hl
    unfold sumOver
    induction l generalizing t with
    | nil => rfl
    | cons q l ih =>
      simp only [Res.forFold, hl q List.mem_cons_self]
      cases e' q.1 q.2 with
      | ok v => simp only [Res.ok_bind, Res.pure_eq]; exact ih _ (fun r hr => hl r (List.mem_cons_of_mem _ hr))
      | throw x => rfl
      | ub => rfl
  have dcong : ∀ n, SMap.find p n = SMap.find p' n → dictAt p n = dictAt p' n := by
    intro n hn; unfold dictAt; rw [hn]
  unfold evaluate
  rw [cong _ (fun n (c : QuadraticConstraint α) => (do
    let v ← dictAt p' n
    pure (c.evaluate v) : Res (Fl α))) m.ind (some 0) (by
      rintro ⟨n, q⟩ hm
      simp only
      rw [dcong n (hag n (Or.inl (Or.inl (by rw [← h.ind, SMap.find_of_mem h.s1 hm]; rfl))))])]
  congr 1; funext t1
  have pc : ∀ {β : Type} (f : β → α → α → Fl α) (k : String × String) (c : β),
      SMap.find p k.1 = SMap.find p' k.1 → SMap.find p k.2 = SMap.find p' k.2 →
      evalPair f p k c = evalPair f p' k c := by
    intro β f k c h1 h2; unfold evalPair; rw [dcong _ h1, dcong _ h2]
  rw [cong _ (evalPair BivariateConstraint.evaluate p') m.pair t1 (by
      rintro ⟨k, q⟩ hm
      have : (R.pair k).isSome := by rw [← h.pair, KMap.find_of_mem h.s2 hm]; rfl
      exact pc _ _ _ (hag _ (Or.inl (Or.inr (Or.inl ⟨k, this, Or.inl rfl⟩))))
        (hag _ (Or.inl (Or.inr (Or.inl ⟨k, this, Or.inr rfl⟩)))))]
  congr 1; funext t2
  rw [cong _ (evalPair RatioConstraint.evaluate p') m.ratio t2 (by
      rintro ⟨k, q⟩ hm
      have : (R.ratio k).isSome := by rw [← h.ratio, KMap.find_of_mem h.s3 hm]; rfl
      exact pc _ _ _ (hag _ (Or.inl (Or.inr (Or.inr (Or.inl ⟨k, this, Or.inl rfl⟩)))))
        (hag _ (Or.inl (Or.inr (Or.inr (Or.inl ⟨k, this, Or.inr rfl⟩))))))]
  congr 1; funext t3
  rw [cong _ (evalPair FractionalConstraint.evaluate p') m.frac t3 (by
      rintro ⟨k, q⟩ hm
      have : (R.frac k).isSome := by rw [← h.frac, KMap.find_of_mem h.s4 hm]; rfl
      exact pc _ _ _ (hag _ (Or.inl (Or.inr (Or.inr (Or.inr ⟨k, this, Or.inl rfl⟩)))))
        (hag _ (Or.inl (Or.inr (Or.inr (Or.inr ⟨k, this, Or.inr rfl⟩))))))]
  congr 1; funext t4
  rw [cong _ (fun _ h => ShapeInterp.evaluate h p') m.interp t4 (by
      rintro ⟨l, hh⟩ hm
      have hl : R.interp l = some hh := by rw [← h.interp, SMap.find_of_mem h.s5 hm]
      simp only
      unfold ShapeInterp.evaluate
      have : ShapeInterp.extractParams hh p = ShapeInterp.extractParams hh p' := by
        unfold ShapeInterp.extractParams
        apply Res.traverse_congr
        intro n hn
        rw [hag n (Or.inr ⟨l, hh, hl, hn⟩)]
      rw [this])]
  congr 1; funext t5
  have : m.shape = [] := by
    cases hms : m.shape with
    | nil => rfl
    | cons q r =>
      have := hsh q.1
      rw [← h.shape, hms] at this
      simp [KMap.find] at this
  rw [this]; rfl

/-- Non-vacuity: a history with an update, two rejected calls, and its total. -/
def exConCalls : List (ConCall ℚ) :=
  [.ind "a" (.sym 1 1), .ind "a" (.asym 0 1 2), .pair "b" 0 1 "c" 0 1 0, .pair "c" 0 1 "b" 0 1 0, .ind "b" (.sym 0 1),
   .pair "a" 0 1 "d" 0 1 0, .ratio "a" "b" 1 1]

example : (runCalls exConCalls).evaluate [("a", 2), ("b", 1), ("c", 2), ("z", 5)] = .ok (some 5) ∧
    (runCalls exConCalls).evaluate [("a", 2), ("b", 1)] = .throw .outOfRange := by decide +kernel

end Oxsx
