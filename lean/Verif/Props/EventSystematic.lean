import Verif.Model.EventSystematic
import Verif.Props.Cut
import Verif.Props.Event
import Mathlib.Tactic.Ring
import Mathlib.Tactic.Linarith
/-
Property C64: event-by-event systematics.
-/
set_option linter.unusedSectionVars false
set_option linter.unusedSimpArgs false
set_option linter.unusedVariables false
namespace Oxsx
variable {α : Type} [Field α] [LinearOrder α] [IsStrictOrderedRing α]

/-- A complete event: distinct observable names, one value each. -/
structure Event.Complete (e : Event α) (names : List String) : Prop where
  nodup : names.Nodup
  names_eq : e.names = some names
  len : e.obs.length = names.length

/-- The value of an observable, `none` if the event does not have it. -/
def Event.value (e : Event α) (n : String) : Option α := (e.getDatumByName n).toOption

theorem Event.Complete.get {e : Event α} {names : List String} (h : e.Complete names) {n : String} (hn : n ∈ names) :
    ∃ v, e.getDatumByName n = .ok v := by
  obtain ⟨i, h1, h2⟩ := findPos_of_mem hn
  have hi : i < e.obs.length := by rw [h.len]; exact (List.getElem?_eq_some_iff.1 h2).1
  exact ⟨e.obs[i], getDatumByName_eq h.nodup h.names_eq h2 (by simp [hi])⟩

theorem Event.Complete.missing {e : Event α} {names : List String} (h : e.Complete names) {n : String}
    (hn : n ∉ names) : e.getDatumByName n = .throw .notFound := by
  simp [Event.getDatumByName, h.names_eq, findPos_none.2 hn]

/-- Writing an observable of a complete event. -/
theorem Event.Complete.set {e : Event α} {names : List String} (h : e.Complete names) {n : String} (hn : n ∈ names)
    (x : α) : ∃ e', e.setDatumByName n x = .ok e' ∧ e'.Complete names ∧ e'.value n = some x ∧
      ∀ m, m ≠ n → e'.value m = e.value m := by
  have he : e = ⟨e.obs, some names⟩ := by cases e; have := h.names_eq; simp at this; simp [this]
  obtain ⟨e', h1, h2, h3, h4⟩ := (C42_set names e.obs h.nodup h.len n x).1 hn
  rw [← he] at h1 h4
  refine ⟨e', h1, ⟨h.nodup, h2, ?_⟩, by simp [Event.value, h3, Res.toOption], ?_⟩
  · obtain ⟨i, g1, g2⟩ := findPos_of_mem hn
    have hi : i < e.obs.length := by rw [h.len]; exact (List.getElem?_eq_some_iff.1 g2).1
    simp [Event.setDatumByName, h.names_eq, g1, Event.setDatum, setIdx_of_lt hi] at h1
    rw [← h1]; simp [h.len]
  · intro m hm; simp [Event.value, h4 m hm]

/-- C64 (laws): applied to a complete event, a scale multiplies its observable by the factor, a shift adds the
shift, a reconvolution moves it to `truth + correction·(observable − truth)`; no other observable changes; the
result is again complete under the same names. -/
theorem C64_laws (s : EventSys α) (e : Event α) (names : List String) (he : e.Complete names) (o : String) (os : List String)
    (ho : s.outObs = o :: os) (hm : o ∈ names) :
    ∃ v, e.value o = some v ∧
    (s.law = .scale → ∃ e', s.apply e = .ok e' ∧ e'.Complete names ∧ e'.value o = some (v * s.value) ∧
      ∀ m, m ≠ o → e'.value m = e.value m) ∧
    (s.law = .shift → ∃ e', s.apply e = .ok e' ∧ e'.Complete names ∧ e'.value o = some (v + s.value) ∧
      ∀ m, m ≠ o → e'.value m = e.value m) ∧
    (s.law = .reconvolution → ∀ t ts, s.inObs = t :: ts → t ∈ names → ∃ tv, e.value t = some tv ∧
      ∃ e', s.apply e = .ok e' ∧ e'.Complete names ∧ e'.value o = some (tv + s.value * (v - tv)) ∧
      ∀ m, m ≠ o → e'.value m = e.value m) := by
  obtain ⟨v, hv⟩ := he.get hm
  refine ⟨v, by simp [Event.value, hv, Res.toOption], ?_, ?_, ?_⟩
  · intro hl
    obtain ⟨e', h1, h2, h3, h4⟩ := he.set hm (v * s.value)
    exact ⟨e', by simp [EventSys.apply, hl, ho, at_, hv, h1], h2, h3, h4⟩
  · intro hl
    obtain ⟨e', h1, h2, h3, h4⟩ := he.set hm (v + s.value)
    exact ⟨e', by simp [EventSys.apply, hl, ho, at_, hv, h1], h2, h3, h4⟩
  · intro hl t ts ht htm
    obtain ⟨tv, htv⟩ := he.get htm
    obtain ⟨e', h1, h2, h3, h4⟩ := he.set hm (tv + s.value * (v - tv))
    exact ⟨tv, by simp [Event.value, htv, Res.toOption], e', by simp [EventSys.apply, hl, ho, ht, at_, hv, htv, h1], h2, h3, h4⟩

example : (Event.mk [(4 : ℚ), 2, 1] (some ["e", "r", "t"])).Complete ["e", "r", "t"] := ⟨by decide, rfl, rfl⟩
example : (EventSys.mk .reconvolution (1/2 : ℚ) "c" ["t"] ["e"]).apply ⟨[4, 2, 1], some ["e", "r", "t"]⟩ =
    .ok ⟨[5/2, 2, 1], some ["e", "r", "t"]⟩ := by decide +kernel

/-- C64 (errors): with no output observable configured `std::out_of_range`; with one the event lacks
`NotFoundError`. -/
theorem C64_missing (s : EventSys α) (e : Event α) (names : List String) (he : e.Complete names) :
    (s.outObs = [] → (s.law = .reconvolution → s.inObs ≠ []) → s.apply e = .throw .outOfRange) ∧
    (∀ o os, s.outObs = o :: os → o ∉ names → (s.law = .reconvolution → ∃ t ts, s.inObs = t :: ts ∧ t ∈ names) →
      s.apply e = .throw .notFound) := by
  constructor
  · intro ho ht
    cases hl : s.law with
    | scale => simp [EventSys.apply, hl, ho, at_]
    | shift => simp [EventSys.apply, hl, ho, at_]
    | reconvolution =>
      obtain ⟨t, ts, h⟩ := List.exists_cons_of_ne_nil (ht hl)
      simp [EventSys.apply, hl, ho, h, at_]
  · intro o os ho hn ht
    have hm := he.missing hn
    cases hl : s.law with
    | scale => simp [EventSys.apply, hl, ho, at_, hm]
    | shift => simp [EventSys.apply, hl, ho, at_, hm]
    | reconvolution =>
      obtain ⟨t, ts, h, h'⟩ := ht hl
      obtain ⟨tv, htv⟩ := he.get h'
      simp [EventSys.apply, hl, ho, h, at_, hm, htv]

example : (EventSys.mk .scale (2 : ℚ) "scale" [] ["z"]).apply ⟨[4, 2], some ["e", "r"]⟩ = .throw .notFound := by
  decide +kernel

theorem EventSys.applyAll_eq (ss : List (EventSys α)) (e : Event α) :
    EventSys.applyAll ss e = Res.forFold (fun e s => EventSys.apply s e) e ss := by
  unfold EventSys.applyAll
  cases ss <;> simp

/-- C64 (manager, order): no systematics leave the event as it is; adding one more applies it after all the earlier
ones. -/
theorem C64_order (ss : List (EventSys α)) (s : EventSys α) (e : Event α) :
    EventSys.applyAll [] e = .ok e ∧
    EventSys.applyAll (ss ++ [s]) e = (EventSys.applyAll ss e >>= fun e' => s.apply e') := by
  constructor
  · rfl
  · rw [EventSys.applyAll_eq, EventSys.applyAll_eq, Res.forFold_append]
    cases Res.forFold (fun e s => EventSys.apply s e) e ss with
    | ok e' =>
      show Res.forFold (fun e s => EventSys.apply s e) e' [s] = s.apply e'
      unfold Res.forFold
      cases s.apply e' <;> rfl
    | throw x => rfl
    | ub => rfl

/-- The systematic is configured for events with these names. -/
def EventSys.Configured (s : EventSys α) (names : List String) : Prop :=
  (∃ o os, s.outObs = o :: os ∧ o ∈ names) ∧ (s.law = .reconvolution → ∃ t ts, s.inObs = t :: ts ∧ t ∈ names)

theorem EventSys.apply_only (s : EventSys α) (e : Event α) (names : List String) (he : e.Complete names)
    (hs : s.Configured names) : ∃ e', s.apply e = .ok e' ∧ e'.Complete names ∧
      ∀ m, s.outObs.head? ≠ some m → e'.value m = e.value m := by
  obtain ⟨⟨o, os, ho, hm⟩, ht⟩ := hs
  obtain ⟨v, _, h1, h2, h3⟩ := C64_laws s e names he o os ho hm
  have key : ∀ e' : Event α, (∀ m, m ≠ o → e'.value m = e.value m) →
      ∀ m, s.outObs.head? ≠ some m → e'.value m = e.value m := by
    intro e' h m hm'; apply h; rintro rfl; exact hm' (by rw [ho]; rfl)
  cases hl : s.law with
  | scale => obtain ⟨e', g1, g2, _, g3⟩ := h1 hl; exact ⟨e', g1, g2, key e' g3⟩
  | shift => obtain ⟨e', g1, g2, _, g3⟩ := h2 hl; exact ⟨e', g1, g2, key e' g3⟩
  | reconvolution =>
    obtain ⟨t, ts, a, b⟩ := ht hl
    obtain ⟨tv, _, e', g1, g2, _, g3⟩ := h3 hl t ts a b; exact ⟨e', g1, g2, key e' g3⟩

/-- C64 (manager, locality): any sequence of configured systematics succeeds on a complete event and changes only
observables that are the (first) output observable of one of them. -/
theorem C64_locality (ss : List (EventSys α)) (names : List String) (hs : ∀ s ∈ ss, s.Configured names)
    (e : Event α) (he : e.Complete names) :
    ∃ e', EventSys.applyAll ss e = .ok e' ∧ e'.Complete names ∧
      ∀ m, (∀ s ∈ ss, s.outObs.head? ≠ some m) → e'.value m = e.value m := by
  rw [EventSys.applyAll_eq]
  induction ss generalizing e with
  | nil => exact ⟨e, rfl, he, fun _ _ => rfl⟩
  | cons s ss ih =>
    obtain ⟨e1, h1, h2, h3⟩ := s.apply_only e names he (hs s List.mem_cons_self)
    obtain ⟨e2, g1, g2, g3⟩ := ih (fun s h => hs s (List.mem_cons_of_mem _ h)) e1 h2
    refine ⟨e2, by simp only [Res.forFold, h1]; exact g1, g2, ?_⟩
    intro m hm
    rw [g3 m (fun s h => hm s (List.mem_cons_of_mem _ h)), h3 m (hm s List.mem_cons_self)]

example : (EventSys.mk .scale (2 : ℚ) "scale" [] ["e"]).Configured ["e", "r"] :=
  ⟨⟨"e", [], rfl, by decide⟩, by intro h; cases h⟩
example : EventSys.applyAll [⟨.scale, (2 : ℚ), "a", [], ["e"]⟩, ⟨.shift, 1, "b", [], ["e"]⟩] ⟨[4, 2], some ["e", "r"]⟩ =
    .ok ⟨[9, 2], some ["e", "r"]⟩ := by decide +kernel

/-- C64 (validation): `SetScale` accepts exactly positive factors, `SetCorrection` exactly non-negative ones,
`SetShift` everything; refused values throw `ValueError`. -/
theorem C64_setters (s : EventSys α) (x : α) :
    (s.law = .scale → (0 < x → ∃ s', s.setValue x = .ok s' ∧ s'.value = x) ∧
      (x ≤ 0 → s.setValue x = .throw .value)) ∧
    (s.law = .shift → ∃ s', s.setValue x = .ok s' ∧ s'.value = x) ∧
    (s.law = .reconvolution → (0 ≤ x → ∃ s', s.setValue x = .ok s' ∧ s'.value = x) ∧
      (x < 0 → s.setValue x = .throw .value)) := by
  refine ⟨fun h => ⟨fun hx => ?_, fun hx => ?_⟩, fun h => ?_, fun h => ⟨fun hx => ?_, fun hx => ?_⟩⟩
  · exact ⟨{ s with value := x }, by simp only [EventSys.setValue, h, if_neg (not_le.2 hx)], rfl⟩
  · simp [EventSys.setValue, h, hx]
  · exact ⟨{ s with value := x }, by simp only [EventSys.setValue, h], rfl⟩
  · exact ⟨{ s with value := x }, by simp only [EventSys.setValue, h, if_neg (not_lt.2 hx)], rfl⟩
  · simp [EventSys.setValue, h, hx]

/-- C64 is false of the parameter interface: a fit setting the scale through its parameter is not checked, so
`SetParameter` and `SetParameters` accept zero and negative scales. -/
theorem C64_unchecked_parameter_wrong (x : α) (hx : x ≤ 0) :
    (∃ s', (EventSys.new .scale : EventSys α).setParameter "scale" x = .ok s' ∧ s'.value = x) ∧
    (∃ s', (EventSys.new .scale : EventSys α).setParameters (SMap.insert "scale" x []) = .ok s' ∧ s'.value = x) ∧
    (EventSys.new .scale : EventSys α).setValue x = .throw .value :=
  ⟨⟨⟨.scale, x, "scale", [], []⟩, by simp [EventSys.setParameter, EventSys.new], rfl⟩,
   ⟨⟨.scale, x, "scale", [], []⟩, by simp [EventSys.setParameters, EventSys.new, SMap.find_insert], rfl⟩,
   by simp [EventSys.setValue, EventSys.new, hx]⟩

/-- C64 (parameter interface): setting the systematic's parameter by name, or through a dictionary holding it, and
reading it back gives the value; other names, or a dictionary without it, throw `ParameterError`; renaming keeps
the value and only the new name works afterwards. -/
theorem C64_parameter (s : EventSys α) (x : α) (n : String) (d : SMap α) :
    (∃ s', s.setParameter s.paramName x = .ok s' ∧ s'.getParameter s.paramName = .ok x ∧ s'.law = s.law ∧ s'.inObs = s.inObs ∧
      s'.outObs = s.outObs) ∧
    (n ≠ s.paramName → s.setParameter n x = .throw .parameter ∧ s.getParameter n = .throw .parameter ∧
      ∀ m, s.renameParameter n m = .throw .parameter) ∧
    (d.find s.paramName = some x → ∃ s', s.setParameters d = .ok s' ∧ s'.getParameter s.paramName = .ok x) ∧
    (d.find s.paramName = none → s.setParameters d = .throw .parameter) ∧
    (∃ s', s.renameParameter s.paramName n = .ok s' ∧ s'.getParameter n = s.getParameter s.paramName ∧
      (n ≠ s.paramName → s'.getParameter s.paramName = .throw .parameter)) ∧
    s.setParameters s.getParameters = .ok s := by
  refine ⟨⟨{ s with value := x }, by simp [EventSys.setParameter], by simp [EventSys.getParameter], rfl, rfl, rfl⟩,
    fun h => ⟨by simp [EventSys.setParameter, h], by simp [EventSys.getParameter, h],
      fun m => by simp [EventSys.renameParameter, h]⟩,
    fun h => ⟨{ s with value := x }, by simp [EventSys.setParameters, h], by simp [EventSys.getParameter]⟩,
    fun h => by simp [EventSys.setParameters, h],
    ⟨{ s with paramName := n }, by simp [EventSys.renameParameter], by simp [EventSys.getParameter],
      fun h => by simp [EventSys.getParameter, Ne.symm h]⟩,
    by simp [EventSys.setParameters, EventSys.getParameters, SMap.find_insert]⟩

/-- C64 (new systematics do nothing): a new scale, shift or reconvolution that is only told its observables leaves every event as it is, in all observables,
and reports its one parameter, named "scale", "shift" or "correction", with the value that does so. -/
theorem C64_default (law : EventLaw) (inObs outObs : List String) (e : Event α) (names : List String) (he : e.Complete names) (o : String) (os : List String)
    (ho : outObs = o :: os) (hm : o ∈ names) (hi : law = .reconvolution → ∃ t ts, inObs = t :: ts ∧ t ∈ names) :
    (∃ e', ({ (EventSys.new law : EventSys α) with inObs := inObs, outObs := outObs }).apply e = .ok e' ∧ e'.Complete names ∧ ∀ n, e'.value n = e.value n) ∧
    (EventSys.new law : EventSys α).getParameters = (if law = .scale then [("scale", 1)] else if law = .shift then [("shift", 0)] else [("correction", 1)]) := by
  constructor
  · obtain ⟨v, hv, h1, h2, h3⟩ := C64_laws ({ (EventSys.new law : EventSys α) with inObs := inObs, outObs := outObs }) e names he o os ho hm
    cases law with
    | scale =>
      obtain ⟨e', a1, a2, a3, a4⟩ := h1 rfl
      refine ⟨e', a1, a2, fun n => ?_⟩
      by_cases hn : n = o
      · subst hn; rw [a3, hv]; simp [EventSys.new]
      · exact a4 n hn
    | shift =>
      obtain ⟨e', a1, a2, a3, a4⟩ := h2 rfl
      refine ⟨e', a1, a2, fun n => ?_⟩
      by_cases hn : n = o
      · subst hn; rw [a3, hv]; simp [EventSys.new]
      · exact a4 n hn
    | reconvolution =>
      obtain ⟨t, ts, ht, htm⟩ := hi rfl
      have := h3 rfl t ts ht htm
      first
        | (obtain ⟨tv, b1, e', a1, a2, a3, a4⟩ := this
           refine ⟨e', a1, a2, fun n => ?_⟩
           by_cases hn : n = o
           · subst hn; rw [a3, hv]; simp [EventSys.new]
           · exact a4 n hn)
  · cases law <;> rfl

end Oxsx
