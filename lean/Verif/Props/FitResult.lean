import Verif.Model.FitResult
import Verif.Lemmas.Basic
/-
C66: copying fit results.
-/
set_option linter.unusedSectionVars false
set_option linter.unusedSimpArgs false
set_option linter.unusedVariables false
namespace Oxsx
variable {α : Type} [Field α] [LinearOrder α]

/-- The results a program owns (by position; `none` once destroyed) and the heap of their statistic spaces. -/
structure FitWorld (α : Type) where
  heap : SpaceHeap α
  results : List (Option (FitResult α))

/-- Everything a program can do with fit results. -/
inductive FitWorld.Step : FitWorld α → FitWorld α → Prop
  | new (w) : Step w ⟨w.heap, w.results ++ [some .new]⟩
  | copy (w) (i : Nat) (o hp r) : w.results[i]? = some (some o) → FitResult.copy w.heap o = .ok (hp, r) → Step w ⟨hp, w.results ++ [some r]⟩
  | assign (w) (i j : Nat) (r o hp r') : w.results[i]? = some (some r) → w.results[j]? = some (some o) → FitResult.assign w.heap r o = .ok (hp, r') →
      Step w ⟨hp, w.results.set i (some r')⟩
  | setStatSpace (w) (i : Nat) (r h) : w.results[i]? = some (some r) →
      Step w ⟨(FitResult.setStatSpace w.heap r h).1, w.results.set i (some (FitResult.setStatSpace w.heap r h).2)⟩
  | setOther (w) (i : Nat) (r) (r' : FitResult α) : w.results[i]? = some (some r) → r'.statSpace = r.statSpace → Step w ⟨w.heap, w.results.set i (some r')⟩
  | destroy (w) (i : Nat) (r hp) : w.results[i]? = some (some r) → FitResult.destroy w.heap r = .ok hp → Step w ⟨hp, w.results.set i none⟩

/-- What a program can reach. -/
inductive FitWorld.Reach : FitWorld α → Prop
  | start : Reach ⟨[], []⟩
  | step {w w'} : Reach w → FitWorld.Step w w' → Reach w'

/-- Every result owns a live space of its own. -/
structure FitWorld.Inv (w : FitWorld α) : Prop where
  live : ∀ (i : Nat) r a, w.results[i]? = some (some r) → r.statSpace = some a → ∃ h, w.heap[a]? = some (some h)
  own : ∀ (i j : Nat) r o a, w.results[i]? = some (some r) → w.results[j]? = some (some o) → r.statSpace = some a → o.statSpace = some a → i = j

theorem FitResult.deref_alloc (hp : SpaceHeap α) (h : Histogram α) : deref (alloc hp h).1 (some (alloc hp h).2) = .ok h := by
  simp [deref, alloc]

theorem FitResult.deref_alloc_of_lt {hp : SpaceHeap α} (h : Histogram α) {a : Nat} (ha : a < hp.length) : (alloc hp h).1[a]? = hp[a]? := by
  simp [alloc, List.getElem?_append_left ha]

theorem FitResult.deref_ok {hp : SpaceHeap α} {p : Option Nat} {h : Histogram α} (hd : deref hp p = .ok h) : ∃ a, p = some a ∧ hp[a]? = some (some h) := by
  unfold deref at hd
  split at hd
  · cases hd
  · split at hd
    · cases hd; rename_i e; exact ⟨_, rfl, e⟩
    · cases hd

/-- Making a copy leaves the earlier spaces alone; the copy's space is new. -/
theorem FitResult.copy_ok {hp hp' : SpaceHeap α} {o r : FitResult α} (h : copy hp o = .ok (hp', r)) :
    r = { o with statSpace := r.statSpace, printPrecision := none } ∧
    ((o.statSpace = none ∧ r.statSpace = none ∧ hp' = hp) ∨
     ∃ s, deref hp o.statSpace = .ok s ∧ r.statSpace = some hp.length ∧ hp' = hp ++ [some s]) := by
  unfold copy at h
  split at h
  · rename_i e; cases h; exact ⟨rfl, .inl ⟨e, e, rfl⟩⟩
  · rename_i a e
    obtain ⟨s, hs, h⟩ := Res.bind_eq_ok.1 h
    cases h
    exact ⟨rfl, .inr ⟨s, hs, rfl, rfl⟩⟩

theorem FitResult.assign_ok {hp hp' : SpaceHeap α} {r o r' : FitResult α} (h : assign hp r o = .ok (hp', r')) :
    r' = { o with statSpace := r'.statSpace, printPrecision := r.printPrecision } ∧
    ((r.statSpace = none ∧ r'.statSpace = none ∧ hp' = hp) ∨
     ∃ s, r.statSpace ≠ none ∧ deref hp o.statSpace = .ok s ∧ r'.statSpace = some hp.length ∧ hp' = hp ++ [some s, none]) := by
  unfold assign at h
  obtain ⟨p, hp1, h⟩ := Res.bind_eq_ok.1 h
  obtain ⟨t, ht, h⟩ := Res.bind_eq_ok.1 h
  obtain ⟨hp2, hd, h⟩ := Res.bind_eq_ok.1 h
  cases h
  unfold assignSpace at hp1
  split at hp1
  · rename_i e
    cases hp1
    cases ht
    cases hd
    exact ⟨rfl, .inl ⟨e, rfl, rfl⟩⟩
  · rename_i a e
    obtain ⟨s, hs, hp1⟩ := Res.bind_eq_ok.1 hp1
    cases hp1
    refine ⟨rfl, .inr ⟨s, by rw [e]; simp, hs, rfl, ?_⟩⟩
    obtain ⟨c1, c2⟩ := FitResult.copy_ok ht
    rcases c2 with ⟨c2, _, _⟩ | ⟨s', c2, c3, c4⟩
    · cases c2
    · rw [FitResult.deref_alloc] at c2
      cases c2
      unfold destroy at hd
      rw [c3, c4] at hd
      simp only [alloc] at hd
      rw [List.getElem?_append_right (Nat.le_refl _)] at hd
      simp only [Nat.sub_self, List.getElem?_cons_zero] at hd
      cases hd
      simp [List.set_append]

theorem FitWorld.inv_of_reach {w : FitWorld α} (h : w.Reach) : w.Inv := by
  have bound : ∀ {w : FitWorld α}, w.Inv → ∀ {i : Nat} {r : FitResult α} {a}, w.results[i]? = some (some r) → r.statSpace = some a → a < w.heap.length := by
    intro w hw i r a h1 h2
    obtain ⟨h, hh⟩ := hw.live i r a h1 h2
    exact (List.getElem?_eq_some_iff.1 hh).1
  have addNone : ∀ {w : FitWorld α} {r : FitResult α}, w.Inv → r.statSpace = none → FitWorld.Inv ⟨w.heap, w.results ++ [some r]⟩ := by
    intro w r hw hr
    have look : ∀ (i : Nat) r' a, (w.results ++ [some r])[i]? = some (some r') → r'.statSpace = some a → w.results[i]? = some (some r') := by
      intro i r' a h1 h2
      by_cases hi : i < w.results.length
      · rwa [List.getElem?_append_left hi] at h1
      · rw [List.getElem?_append_right (by omega)] at h1
        have : i - w.results.length = 0 := by
          by_contra hc
          rw [List.getElem?_eq_none (by simp; omega)] at h1; cases h1
        rw [this] at h1
        simp at h1
        rw [← h1, hr] at h2; cases h2
    exact ⟨fun i r' a h1 h2 => hw.live i r' a (look i r' a h1 h2) h2, fun i j r' o a h1 h2 h3 h4 => hw.own i j r' o a (look _ _ _ h1 h3) (look _ _ _ h2 h4) h3 h4⟩
  -- replacing result `i` by one which owns nothing, what `i` owned, or the new space `w.heap.length`
  have setInv : ∀ {w : FitWorld α} (hw : w.Inv) (i : Nat) (r' : Option (FitResult α)) (ext : SpaceHeap α) (res : List (Option (FitResult α))),
      (∀ (k : Nat) x, k ≠ i → res[k]? = some (some x) → w.results[k]? = some (some x)) →
      (∀ x, res[i]? = some (some x) → ∀ a, x.statSpace = some a → (a = w.heap.length ∧ ∃ s, ext[0]? = some (some s)) ∨
        ∃ x0, w.results[i]? = some (some x0) ∧ x0.statSpace = some a) →
      FitWorld.Inv ⟨w.heap ++ ext, res⟩ := by
    intro w hw i r' ext res hk hi
    have old : ∀ (k : Nat) x a, res[k]? = some (some x) → x.statSpace = some a →
        (k = i ∧ a = w.heap.length ∧ ∃ s, ext[0]? = some (some s)) ∨ ∃ x0, w.results[k]? = some (some x0) ∧ x0.statSpace = some a := by
      intro k x a h1 h2
      by_cases hki : k = i
      · subst hki
        rcases hi x h1 a h2 with ⟨h3, h4⟩ | h3
        · exact .inl ⟨rfl, h3, h4⟩
        · exact .inr h3
      · exact .inr ⟨x, hk k x hki h1, h2⟩
    refine ⟨?_, ?_⟩
    · intro k x a h1 h2
      rcases old k x a h1 h2 with ⟨_, rfl, s, hs⟩ | ⟨x0, h3, h4⟩
      · exact ⟨s, by simp only; rw [List.getElem?_append_right (Nat.le_refl _), Nat.sub_self, hs]⟩
      · obtain ⟨s, hs⟩ := hw.live k x0 a h3 h4
        exact ⟨s, by simp only; rw [List.getElem?_append_left (bound hw h3 h4), hs]⟩
    · intro k l x y a h1 h2 h3 h4
      rcases old k x a h1 h3 with ⟨rfl, ha, _⟩ | ⟨x0, h5, h6⟩
      · rcases old l y a h2 h4 with ⟨rfl, _, _⟩ | ⟨y0, h7, h8⟩
        · rfl
        · have := bound hw h7 h8; omega
      · rcases old l y a h2 h4 with ⟨_, ha, _⟩ | ⟨y0, h7, h8⟩
        · have := bound hw h5 h6; omega
        · exact hw.own k l x0 y0 a h5 h7 h6 h8
  have setLook : ∀ {res : List (Option (FitResult α))} {i : Nat} {v : Option (FitResult α)} (k : Nat) x, k ≠ i →
      (res.set i v)[k]? = some (some x) → res[k]? = some (some x) := by
    intro res i v k x hki h
    rwa [List.getElem?_set_ne (Ne.symm hki)] at h
  have setSelf : ∀ {res : List (Option (FitResult α))} {i : Nat} {v : Option (FitResult α)} x, (res.set i v)[i]? = some (some x) → v = some x := by
    intro res i v x h
    by_cases hi : i < res.length
    · rw [List.getElem?_set_self hi] at h; exact Option.some.inj h
    · rw [List.getElem?_eq_none (by simp; omega)] at h; cases h
  induction h with
  | start => exact ⟨by intro i r a h; simp at h, by intro i j r o a h; simp at h⟩
  | @step w w' hr hs ih =>
    cases hs with
    | new => exact addNone ih rfl
    | copy i o hp r h1 h2 =>
      obtain ⟨c1, c2⟩ := FitResult.copy_ok h2
      rcases c2 with ⟨_, c2, c3⟩ | ⟨s, c2, c3, c4⟩
      · rw [c3]; exact addNone ih c2
      · rw [c4]
        refine setInv ih w.results.length none [some s] _ ?_ ?_
        · intro k x hk hx
          by_cases hlt : k < w.results.length
          · rwa [List.getElem?_append_left hlt] at hx
          · rw [List.getElem?_eq_none (by simp; omega)] at hx; cases hx
        · intro x hx a ha
          simp at hx
          rw [← hx, c3] at ha
          cases ha
          exact .inl ⟨rfl, s, rfl⟩
    | assign i j r o hp r' h1 h2 h3 =>
      obtain ⟨c1, c2⟩ := FitResult.assign_ok h3
      rcases c2 with ⟨c2, c3, c4⟩ | ⟨s, _, c2, c3, c4⟩
      · rw [c4]
        have := setInv ih i none [] (w.results.set i (some r')) (fun k x hk hx => setLook k x hk hx) (by
          intro x hx a ha
          have := setSelf x hx
          cases this
          rw [c3] at ha; cases ha)
        simpa using this
      · rw [c4]
        refine setInv ih i none [some s, none] _ (fun k x hk hx => setLook k x hk hx) ?_
        intro x hx a ha
        have := setSelf x hx
        cases this
        rw [c3] at ha; cases ha
        exact .inl ⟨rfl, s, rfl⟩
    | setStatSpace i r h h1 =>
      refine setInv ih i none [some h] _ (fun k x hk hx => setLook k x hk hx) ?_
      intro x hx a ha
      have := setSelf x hx
      cases this
      simp [FitResult.setStatSpace, FitResult.alloc] at ha
      exact .inl ⟨ha.symm, h, rfl⟩
    | setOther i r r' h1 h2 =>
      have := setInv ih i none [] (w.results.set i (some r')) (fun k x hk hx => setLook k x hk hx) (by
        intro x hx a ha
        have := setSelf x hx
        cases this
        exact .inr ⟨r, h1, h2 ▸ ha⟩)
      simpa using this
    | destroy i r hp h1 h2 =>
      have keep : ∀ (k : Nat) x, (w.results.set i none)[k]? = some (some x) → k ≠ i ∧ w.results[k]? = some (some x) := by
        intro k x hx
        by_cases hki : k = i
        · subst hki; have := setSelf x hx; cases this
        · exact ⟨hki, setLook k x hki hx⟩
      refine ⟨?_, fun k l x y a e1 e2 e3 e4 => ih.own k l x y a (keep _ _ e1).2 (keep _ _ e2).2 e3 e4⟩
      intro k x a e1 e2
      obtain ⟨hki, e3⟩ := keep k x e1
      obtain ⟨s, hs⟩ := ih.live k x a e3 e2
      unfold FitResult.destroy at h2
      split at h2
      · cases h2; exact ⟨s, hs⟩
      · rename_i b hb
        split at h2
        · cases h2
          refine ⟨s, ?_⟩
          simp only
          rw [List.getElem?_set_ne, hs]
          rintro rfl
          exact hki (ih.own k i x r b e3 h1 e2 hb)
        · cases h2

/-- C66, memory: whatever a program does with fit results, reading an existing result's statistic space, copying it and destroying it
are always defined: no space is deleted twice, and none is used after deletion. -/
theorem C66_no_double_delete {w : FitWorld α} (h : w.Reach) (i : Nat) (r : FitResult α) (hi : w.results[i]? = some (some r)) :
    FitResult.destroy w.heap r ≠ .ub ∧ FitResult.copy w.heap r ≠ .ub ∧
    (r.statSpace ≠ none → ∃ s, FitResult.getStatSpace w.heap r = .ok s) := by
  have hw := FitWorld.inv_of_reach h
  cases ha : r.statSpace with
  | none => exact ⟨by simp [FitResult.destroy, ha], by simp [FitResult.copy, ha], fun h => absurd rfl h⟩
  | some a =>
    obtain ⟨s, hs⟩ := hw.live i r a hi ha
    refine ⟨by simp [FitResult.destroy, ha, hs], ?_, fun _ => ⟨s, by simp [FitResult.getStatSpace, ha, FitResult.deref, hs]⟩⟩
    simp [FitResult.copy, ha, FitResult.deref, hs, bind, Res.bind]

/-- C66, copying (partial): a copy of a result of a running program has the same contents, including the statistic space, and is
independent: destroying either leaves the other readable with the same space. Missing: the print precision, see
`C66_copy_precision_wrong`. -/
theorem C66_copy_partial {w : FitWorld α} (h : w.Reach) (i : Nat) (o : FitResult α) (hi : w.results[i]? = some (some o)) :
    ∃ hp r, FitResult.copy w.heap o = .ok (hp, r) ∧ r.bestFit = o.bestFit ∧ r.statSample = o.statSample ∧ r.proj1 = o.proj1 ∧
      r.proj2 = o.proj2 ∧ r.extremeVal = o.extremeVal ∧ r.covariance = o.covariance ∧ r.isValid = o.isValid ∧
      (o.statSpace = none → r.statSpace = none) ∧
      (o.statSpace ≠ none → ∃ s hp1 hp2, FitResult.getStatSpace w.heap o = .ok s ∧ FitResult.getStatSpace hp r = .ok s ∧ FitResult.getStatSpace hp o = .ok s ∧
        FitResult.destroy hp o = .ok hp1 ∧ FitResult.getStatSpace hp1 r = .ok s ∧
        FitResult.destroy hp r = .ok hp2 ∧ FitResult.getStatSpace hp2 o = .ok s) := by
  have hw := FitWorld.inv_of_reach h
  cases ha : o.statSpace with
  | none =>
    refine ⟨w.heap, { o with printPrecision := none }, by simp [FitResult.copy, ha], rfl, rfl, rfl, rfl, rfl, rfl, rfl, fun _ => ha, fun h => absurd rfl h⟩
  | some a =>
    obtain ⟨s, hs⟩ := hw.live i o a hi ha
    have hlt := (List.getElem?_eq_some_iff.1 hs).1
    refine ⟨w.heap ++ [some s], { o with statSpace := some w.heap.length, printPrecision := none }, ?_, rfl, rfl, rfl, rfl, rfl, rfl, rfl,
      fun h => (by cases h), fun _ => ⟨s, (w.heap ++ [some s]).set a none, (w.heap ++ [some s]).set w.heap.length none, ?_, ?_, ?_, ?_, ?_, ?_, ?_⟩⟩
    · simp [FitResult.copy, ha, FitResult.deref, hs, bind, Res.bind, FitResult.alloc]
    · simp [FitResult.getStatSpace, ha, FitResult.deref, hs]
    · simp [FitResult.getStatSpace, FitResult.deref]
    · simp [FitResult.getStatSpace, ha, FitResult.deref, List.getElem?_append_left hlt, hs]
    · simp [FitResult.destroy, ha, List.getElem?_append_left hlt, hs]
    · simp only [FitResult.getStatSpace, FitResult.deref]
      rw [List.getElem?_set_ne (by omega)]
      simp
    · simp [FitResult.destroy]
    · simp only [FitResult.getStatSpace, FitResult.deref, ha]
      rw [List.getElem?_set_ne (by omega), List.getElem?_append_left hlt, hs]

/-- C66, assigning (partial): when both results have a statistic space or neither has, the assigned-to result has the other's contents
and an own copy of its space; its print precision stays. Missing: `C66_assign_loses_wrong` and `C66_assign_ub_wrong`. -/
theorem C66_assign_partial {w : FitWorld α} (h : w.Reach) (i j : Nat) (r o : FitResult α) (hi : w.results[i]? = some (some r))
    (hj : w.results[j]? = some (some o)) (hb : r.statSpace = none ↔ o.statSpace = none) :
    ∃ hp r', FitResult.assign w.heap r o = .ok (hp, r') ∧ r'.bestFit = o.bestFit ∧ r'.statSample = o.statSample ∧ r'.proj1 = o.proj1 ∧
      r'.proj2 = o.proj2 ∧ r'.extremeVal = o.extremeVal ∧ r'.covariance = o.covariance ∧ r'.isValid = o.isValid ∧
      r'.printPrecision = r.printPrecision ∧ (o.statSpace = none → r'.statSpace = none) ∧
      (o.statSpace ≠ none → ∃ s, FitResult.getStatSpace w.heap o = .ok s ∧ FitResult.getStatSpace hp r' = .ok s ∧ FitResult.getStatSpace hp o = .ok s ∧
        r'.statSpace ≠ o.statSpace) := by
  have hw := FitWorld.inv_of_reach h
  cases ha : o.statSpace with
  | none =>
    have hr := hb.2 ha
    refine ⟨w.heap, { o with statSpace := none, printPrecision := r.printPrecision }, ?_, rfl, rfl, rfl, rfl, rfl, rfl, rfl, rfl, fun _ => rfl, fun h => absurd rfl h⟩
    simp [FitResult.assign, FitResult.assignSpace, hr, FitResult.copy, FitResult.destroy, bind, Res.bind]
  | some a =>
    obtain ⟨s, hs⟩ := hw.live j o a hj ha
    have hlt := (List.getElem?_eq_some_iff.1 hs).1
    cases hr : r.statSpace with
    | none => rw [hb.1 hr] at ha; cases ha
    | some c =>
      refine ⟨w.heap ++ [some s, none], { o with statSpace := some w.heap.length, printPrecision := r.printPrecision }, ?_, rfl, rfl, rfl, rfl, rfl, rfl, rfl, rfl,
        fun h => (by cases h), fun _ => ⟨s, ?_, ?_, ?_, ?_⟩⟩
      · have e1 : FitResult.assignSpace w.heap r o = .ok (w.heap ++ [some s], some w.heap.length) := by
          simp [FitResult.assignSpace, hr, ha, FitResult.deref, hs, bind, Res.bind, FitResult.alloc]
        unfold FitResult.assign
        rw [e1, Res.ok_bind]
        have e2 : FitResult.copy (w.heap ++ [some s]) ({ o with statSpace := some w.heap.length, printPrecision := r.printPrecision } : FitResult α) =
            .ok (w.heap ++ [some s] ++ [some s], { o with statSpace := some (w.heap.length + 1), printPrecision := none }) := by
          simp [FitResult.copy, FitResult.deref, bind, Res.bind, FitResult.alloc]
        simp only
        rw [e2, Res.ok_bind]
        have e3 : FitResult.destroy (w.heap ++ [some s] ++ [some s]) ({ o with statSpace := some (w.heap.length + 1), printPrecision := none } : FitResult α) =
            .ok (w.heap ++ [some s, none]) := by
          unfold FitResult.destroy
          simp only
          rw [List.getElem?_append_right (by simp)]
          simp [List.set_append]
        rw [e3, Res.ok_bind]
      · simp [FitResult.getStatSpace, ha, FitResult.deref, hs]
      · simp [FitResult.getStatSpace, FitResult.deref]
      · simp [FitResult.getStatSpace, ha, FitResult.deref, List.getElem?_append_left hlt, hs]
      · simp only [ne_eq, Option.some.injEq]; omega

/-- **C66 is false for assigning to a result without a space**: the other's space is lost. -/
theorem C66_assign_loses_wrong (hp : SpaceHeap α) (r o : FitResult α) (hr : r.statSpace = none) :
    ∃ r', FitResult.assign hp r o = .ok (hp, r') ∧ r'.statSpace = none := by
  refine ⟨{ o with statSpace := none, printPrecision := r.printPrecision }, ?_, rfl⟩
  simp [FitResult.assign, FitResult.assignSpace, hr, FitResult.copy, FitResult.destroy, bind, Res.bind]

/-- **C66 is false for assigning a result without a space to one with a space**: a null pointer is dereferenced. -/
theorem C66_assign_ub_wrong (hp : SpaceHeap α) (r o : FitResult α) (hr : r.statSpace ≠ none) (ho : o.statSpace = none) :
    FitResult.assign hp r o = .ub := by
  cases h : r.statSpace with
  | none => exact absurd h hr
  | some a => simp [FitResult.assign, FitResult.assignSpace, h, ho, FitResult.deref, bind, Res.bind]

/-- **C66 is false for the print precision**: reading it from a copy is reading an uninitialised value. -/
theorem C66_copy_precision_wrong {hp hp' : SpaceHeap α} {o r : FitResult α} (h : FitResult.copy hp o = .ok (hp', r)) :
    r.getPrintPrecision = .ub := by
  obtain ⟨e, _⟩ := FitResult.copy_ok h
  rw [e]; rfl

/-- Non-vacuity of C66: a program with two results that both have a space, one of them a copy. -/
example : ∃ (w : FitWorld ℚ) (r o : FitResult ℚ), w.Reach ∧ w.results[0]? = some (some r) ∧ w.results[1]? = some (some o) ∧
    r.statSpace = some 0 ∧ o.statSpace = some 1 := by
  refine ⟨⟨[some .empty, some .empty], [some { FitResult.new with statSpace := some 0 }, some { FitResult.new with statSpace := some 1, printPrecision := none }]⟩,
    _, _, ?_, rfl, rfl, rfl, rfl⟩
  have s1 : FitWorld.Reach (⟨[], [some .new]⟩ : FitWorld ℚ) := .step .start (.new _)
  have s2 : FitWorld.Reach (⟨[some .empty], [some { FitResult.new with statSpace := some 0 }]⟩ : FitWorld ℚ) := .step s1 (.setStatSpace _ 0 _ .empty rfl)
  exact .step s2 (.copy _ 0 _ _ _ rfl rfl)

/-- C66 (start): a new result is valid, holds nothing, and prints with 5 digits; the precision set is the one read back, and setting it changes nothing else. -/
theorem C66_new (r : FitResult α) (n : Nat) :
    (FitResult.new : FitResult α).isValid = true ∧ (FitResult.new : FitResult α).bestFit = [] ∧ (FitResult.new : FitResult α).statSpace = none ∧
    (FitResult.new : FitResult α).statSample = [] ∧ (FitResult.new : FitResult α).proj1 = [] ∧ (FitResult.new : FitResult α).proj2 = [] ∧
    (FitResult.new : FitResult α).extremeVal = 0 ∧ (FitResult.new : FitResult α).getPrintPrecision = .ok 5 ∧
    (r.setPrintPrecision n).getPrintPrecision = .ok n ∧ { r.setPrintPrecision n with printPrecision := r.printPrecision } = r :=
  ⟨rfl, rfl, rfl, rfl, rfl, rfl, rfl, rfl, rfl, rfl⟩

end Oxsx
