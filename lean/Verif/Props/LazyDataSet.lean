import Verif.Model.LazyDataSet
import Verif.Lemmas.Basic
/-
Property C50: lazily loaded data sets.
-/
set_option linter.unusedSectionVars false
set_option linter.unusedSimpArgs false
set_option linter.unusedVariables false
namespace Oxsx
variable {α : Type}
namespace LazyWorld

/-- Any history of constructions, copies, assignments, accesses (including ones whose file cannot be read), explicit
loads and closes, de-registrations and destructions of live objects. -/
inductive Reach (files : String → Res (DataSet α)) : LazyWorld α → Prop where
  | start : Reach files start
  | construct (w i file) : Reach files w → w.objs i = none → Reach files (w.construct i file)
  | copy (w w' i j) : Reach files w → w.objs i = none → w.copy i j = .ok w' → Reach files w'
  | assign (w w' i j) : Reach files w → w.assign i j = .ok w' → Reach files w'
  | load (w w' i r) : Reach files w → w.load files i = .ok (w', r) → Reach files w'
  | close (w w' i) : Reach files w → w.close i = .ok w' → Reach files w'
  | getEntry (w w' i k r) : Reach files w → w.getEntry files i k = .ok (w', r) → Reach files w'
  | getNEntries (w w' i r) : Reach files w → w.getNEntries files i = .ok (w', r) → Reach files w'
  | deregister (w i) : Reach files w → Reach files (w.deregister i)
  | destroy (w w' i) : Reach files w → w.destroy i = .ok w' → Reach files w'

/-- Object `i` holds data in memory. -/
def Holds (w : LazyWorld α) (i : Nat) : Prop := ∃ o d, w.objs i = some o ∧ o.data = some d

/-- Invariant: registered objects exist; at most one registered object holds data; held data is the file's. -/
structure Inv (files : String → Res (DataSet α)) (w : LazyWorld α) : Prop where
  alive : ∀ i ∈ w.registered, ∃ o, w.objs i = some o
  one : ∀ i ∈ w.registered, ∀ j ∈ w.registered, w.Holds i → w.Holds j → i = j
  faithful : ∀ i o d, w.objs i = some o → o.data = some d → files o.file = .ok d

theorem closeAll_spec (w : LazyWorld α) (ha : ∀ i ∈ w.registered, ∃ o, w.objs i = some o) :
    ∃ w', w.closeAll = .ok w' ∧ w'.registered = w.registered ∧
      (∀ i, w'.objs i = if i ∈ w.registered then (w.objs i).map (fun o => { o with data := none }) else w.objs i) := by
  unfold closeAll
  suffices h : ∀ (l : List Nat) (v : LazyWorld α), (∀ i ∈ l, ∃ o, v.objs i = some o) →
      ∃ w', Res.forFold (fun w i => close w i) v l = .ok w' ∧ w'.registered = v.registered ∧
      (∀ i, w'.objs i = if i ∈ l then (v.objs i).map (fun o => { o with data := none }) else v.objs i) from
    h _ w ha
  intro l
  induction l with
  | nil => intro v _; exact ⟨v, rfl, rfl, by simp⟩
  | cons a l ih =>
    intro v hv
    obtain ⟨o, ho⟩ := hv a List.mem_cons_self
    have hc : v.close a = .ok (v.setObj a (some { o with data := none })) := by simp [close, ho]
    obtain ⟨w', h1, h2, h3⟩ := ih (v.setObj a (some { o with data := none })) (by
      intro i hi
      by_cases h : i = a
      · exact ⟨{ o with data := none }, by simp [setObj, h]⟩
      · obtain ⟨o', ho'⟩ := hv i (List.mem_cons_of_mem _ hi)
        exact ⟨o', by simp [setObj, h, ho']⟩)
    refine ⟨w', by simp only [Res.forFold, hc]; exact h1, h2, ?_⟩
    intro i
    rw [h3 i]
    by_cases h : i = a
    · subst h; simp [setObj, ho]
    · simp [setObj, h]

theorem Inv.load {files : String → Res (DataSet α)} {w w' : LazyWorld α} {i : Nat} {r : Res (DataSet α)}
    (h : Inv files w) (hl : w.load files i = .ok (w', r)) :
    Inv files w' ∧ ∃ o, w.objs i = some o ∧ r = files o.file := by
  obtain ⟨v, h1, h2, h3⟩ := closeAll_spec w h.alive
  have hnone : ∀ j ∈ w.registered, ¬ v.Holds j := by
    rintro j hj ⟨o, d, ho, hd⟩
    rw [h3 j, if_pos hj] at ho
    obtain ⟨o', ho', rfl⟩ := Option.map_eq_some_iff.1 ho
    cases hd
  have hf : ∀ j o d, v.objs j = some o → o.data = some d → files o.file = .ok d := by
    intro j o d ho hd
    rw [h3 j] at ho
    split at ho
    · obtain ⟨o', ho', rfl⟩ := Option.map_eq_some_iff.1 ho
      cases hd
    · exact h.faithful j o d ho hd
  have ha : ∀ j ∈ w.registered, ∃ o, v.objs j = some o := by
    intro j hj
    obtain ⟨o, ho⟩ := h.alive j hj
    exact ⟨{ o with data := none }, by rw [h3 j, if_pos hj, ho]; rfl⟩
  unfold LazyWorld.load at hl
  rw [h1] at hl
  simp only at hl
  cases ho : v.objs i with
  | none => rw [ho] at hl; cases hl
  | some o =>
    rw [ho] at hl
    simp only at hl
    have horig : ∃ o0, w.objs i = some o0 ∧ o0.file = o.file := by
      rw [h3 i] at ho
      split at ho
      · obtain ⟨o', ho', rfl⟩ := Option.map_eq_some_iff.1 ho
        exact ⟨o', ho', rfl⟩
      · exact ⟨o, ho, rfl⟩
    obtain ⟨o0, ho0, hfile⟩ := horig
    cases hfl : files o.file with
    | ok d =>
      rw [hfl] at hl; simp only [Res.ok.injEq, Prod.mk.injEq] at hl
      obtain ⟨rfl, rfl⟩ := hl
      refine ⟨⟨?_, ?_, ?_⟩, o0, ho0, by rw [hfile, hfl]⟩
      · intro j hj
        by_cases hji : j = i
        · exact ⟨{ o with data := some d }, by simp [setObj, hji]⟩
        · obtain ⟨o', ho'⟩ := ha j (by rw [← h2]; exact hj)
          exact ⟨o', by simp [setObj, hji, ho']⟩
      · have key : ∀ j ∈ v.registered, (v.setObj i (some { o with data := some d })).Holds j → j = i := by
          intro j hj hh
          by_contra hji
          obtain ⟨o', d', ho', hd'⟩ := hh
          simp only [setObj, if_neg hji] at ho'
          exact hnone j (by rw [← h2]; exact hj) ⟨o', d', ho', hd'⟩
        intro j hj k hk hj' hk'
        rw [key j hj hj', key k hk hk']
      · intro j o' d' ho' hd'
        by_cases hji : j = i
        · simp only [setObj, if_pos hji, Option.some.injEq] at ho'
          subst ho'; simp only [Option.some.injEq] at hd'; subst hd'; exact hfl
        · simp only [setObj, if_neg hji] at ho'; exact hf j o' d' ho' hd'
    | throw e =>
      rw [hfl] at hl; simp only [Res.ok.injEq, Prod.mk.injEq] at hl
      obtain ⟨rfl, rfl⟩ := hl
      refine ⟨⟨?_, ?_, hf⟩, o0, ho0, by rw [hfile, hfl]⟩
      · intro j hj; exact ha j (by rw [← h2]; exact hj)
      · intro j hj k hk hj' _; exact absurd hj' (hnone j (by rw [← h2]; exact hj))
    | ub => rw [hfl] at hl; cases hl

theorem Inv.ensure {files : String → Res (DataSet α)} {w w' : LazyWorld α} {i : Nat} {r : Res (DataSet α)}
    (h : Inv files w) (hl : w.ensure files i = .ok (w', r)) :
    Inv files w' ∧ ∃ o, w.objs i = some o ∧ r = files o.file := by
  unfold LazyWorld.ensure at hl
  cases ho : w.objs i with
  | none => rw [ho] at hl; cases hl
  | some o =>
    rw [ho] at hl; simp only at hl
    cases hd : o.data with
    | some d =>
      rw [hd] at hl; simp only [Res.ok.injEq, Prod.mk.injEq] at hl
      obtain ⟨rfl, rfl⟩ := hl
      exact ⟨h, o, rfl, (h.faithful i o d ho hd).symm⟩
    | none =>
      rw [hd] at hl; simp only at hl
      have := h.load hl
      rw [ho] at this
      exact this

/-- Replacing an object by an unloaded one keeps the invariant. -/
theorem Inv.unloaded {files : String → Res (DataSet α)} {w : LazyWorld α} {i : Nat} {f : String} (h : Inv files w) :
    Inv files (w.setObj i (some ⟨f, none⟩)) := by
  refine ⟨?_, ?_, ?_⟩
  · intro j hj
    by_cases hji : j = i
    · exact ⟨⟨f, none⟩, by simp [setObj, hji]⟩
    · obtain ⟨o, ho⟩ := h.alive j hj; exact ⟨o, by simp [setObj, hji, ho]⟩
  · have key : ∀ j, (w.setObj i (some ⟨f, none⟩)).Holds j → w.Holds j := by
      rintro j ⟨o, d, ho, hd⟩
      by_cases hji : j = i
      · simp only [setObj, if_pos hji, Option.some.injEq] at ho; subst ho; cases hd
      · simp only [setObj, if_neg hji] at ho; exact ⟨o, d, ho, hd⟩
    intro j hj k hk hj' hk'
    exact h.one j hj k hk (key j hj') (key k hk')
  · intro j o d ho hd
    by_cases hji : j = i
    · simp only [setObj, if_pos hji, Option.some.injEq] at ho; subst ho; cases hd
    · simp only [setObj, if_neg hji] at ho; exact h.faithful j o d ho hd

theorem Inv.of_reach {files : String → Res (DataSet α)} {w : LazyWorld α} (h : Reach files w) : Inv files w := by
  induction h with
  | start => exact ⟨by simp [start], by simp [start], by simp [start]⟩
  | construct w i file _ hi ih =>
    have hu := ih.unloaded (i := i) (f := file)
    have hnh : ¬ (w.setObj i (some ⟨file, none⟩)).Holds i := by
      rintro ⟨o, d, ho, hd⟩
      simp only [setObj, if_pos] at ho; cases ho; cases hd
    refine ⟨?_, ?_, hu.faithful⟩
    · intro j hj
      rcases List.mem_append.1 hj with hj | hj
      · exact hu.alive j hj
      · rw [List.mem_singleton] at hj; subst hj; exact ⟨⟨file, none⟩, by simp [LazyWorld.construct, setObj]⟩
    · intro j hj k hk hj' hk'
      rcases List.mem_append.1 hj with hj | hj
      · rcases List.mem_append.1 hk with hk | hk
        · exact hu.one j hj k hk hj' hk'
        · rw [List.mem_singleton] at hk; subst hk; exact absurd hk' hnh
      · rw [List.mem_singleton] at hj; subst hj; exact absurd hj' hnh
  | copy w w' i j _ hi hc ih =>
    unfold LazyWorld.copy at hc
    split at hc
    · cases hc
    · cases hc; exact ih.unloaded
  | assign w w' i j _ hc ih =>
    unfold LazyWorld.assign at hc
    split at hc
    · cases hc; exact ih.unloaded
    · cases hc
  | load w w' i r _ hl ih => exact (ih.load hl).1
  | close w w' i _ hc ih =>
    unfold LazyWorld.close at hc
    split at hc
    · cases hc
    · cases hc; exact ih.unloaded
  | getEntry w w' i k r _ hg ih =>
    unfold LazyWorld.getEntry at hg
    obtain ⟨⟨v, x⟩, h1, h2⟩ := Res.bind_eq_ok.1 hg
    simp only [Res.pure_eq, Res.ok.injEq, Prod.mk.injEq] at h2
    obtain ⟨rfl, _⟩ := h2
    exact (ih.ensure h1).1
  | getNEntries w w' i r _ hg ih =>
    unfold LazyWorld.getNEntries at hg
    obtain ⟨⟨v, x⟩, h1, h2⟩ := Res.bind_eq_ok.1 hg
    simp only [Res.pure_eq, Res.ok.injEq, Prod.mk.injEq] at h2
    obtain ⟨rfl, _⟩ := h2
    exact (ih.ensure h1).1
  | deregister w i _ ih =>
    refine ⟨fun j hj => ih.alive j (List.mem_of_mem_filter hj), ?_, ih.faithful⟩
    intro j hj k hk hj' hk'
    exact ih.one j (List.mem_of_mem_filter hj) k (List.mem_of_mem_filter hk) hj' hk'
  | destroy w w' i _ hc ih =>
    unfold LazyWorld.destroy at hc
    split at hc
    · cases hc
    · cases hc
      have mem : ∀ j ∈ ((w.setObj i none).deregister i).registered, j ∈ w.registered ∧ j ≠ i := by
        intro j hj; simpa [LazyWorld.deregister, setObj] using hj
      have same : ∀ j, j ≠ i → ((w.setObj i none).deregister i).objs j = w.objs j := by
        intro j hj; simp [LazyWorld.deregister, setObj, hj]
      refine ⟨?_, ?_, ?_⟩
      · intro j hj
        obtain ⟨h1, h2⟩ := mem j hj
        rw [same j h2]; exact ih.alive j h1
      · rintro j hj k hk ⟨o1, d1, a1, b1⟩ ⟨o2, d2, a2, b2⟩
        obtain ⟨h1, h2⟩ := mem j hj
        obtain ⟨h3, h4⟩ := mem k hk
        rw [same j h2] at a1; rw [same k h4] at a2
        exact ih.one j h1 k h3 ⟨o1, d1, a1, b1⟩ ⟨o2, d2, a2, b2⟩
      · intro j o d ho hd
        by_cases hji : j = i
        · simp [LazyWorld.deregister, setObj, hji] at ho
        · rw [same j hji] at ho; exact ih.faithful j o d ho hd

end LazyWorld
open LazyWorld

/-- C50 (memory): in any history, at most one registered lazy data set holds its data in memory. -/
theorem C50_at_most_one (files : String → Res (DataSet α)) (w : LazyWorld α) (hw : Reach files w) (i j : Nat)
    (hi : i ∈ w.registered) (hj : j ∈ w.registered) (hi' : w.Holds i) (hj' : w.Holds j) : i = j :=
  (Inv.of_reach hw).one i hi j hj hi' hj'

/-- C50 (content): in any history, reading an entry (or the number of entries) of an existing lazy data set gives
exactly what its file gives, including the exceptions, whether it was loaded or not and whatever was read before; it is
never undefined behaviour when reading the files is not. -/
theorem C50_content (files : String → Res (DataSet α)) (hf : ∀ f, files f ≠ .ub) (w : LazyWorld α) (hw : Reach files w)
    (i : Nat) (o : LazyObj α) (ho : w.objs i = some o) (k : Nat) :
    (∃ w', w.getEntry files i k = .ok (w', files o.file >>= fun d => d.getEntry k)) ∧
    (∃ w', w.getNEntries files i = .ok (w', files o.file >>= fun d => .ok d.getNEntries)) := by
  have hinv := Inv.of_reach hw
  obtain ⟨v, h1, h2, h3⟩ := closeAll_spec w hinv.alive
  have hok : ∃ w' r, w.ensure files i = .ok (w', r) := by
    unfold LazyWorld.ensure
    rw [ho]; simp only
    cases hd : o.data with
    | some d => exact ⟨w, .ok d, rfl⟩
    | none =>
      simp only
      unfold LazyWorld.load
      rw [h1]; simp only
      have : ∃ o', v.objs i = some o' := by
        rw [h3 i]; split
        · exact ⟨_, by rw [ho]; rfl⟩
        · exact ⟨o, ho⟩
      obtain ⟨o', ho'⟩ := this
      rw [ho']; simp only
      cases hfl : files o'.file with
      | ok d => exact ⟨_, _, rfl⟩
      | throw e => exact ⟨_, _, rfl⟩
      | ub => exact absurd hfl (hf _)
  obtain ⟨w', r, hr⟩ := hok
  obtain ⟨_, o', ho', hr'⟩ := hinv.ensure hr
  rw [ho] at ho'; cases ho'
  subst hr'
  exact ⟨⟨w', by simp [LazyWorld.getEntry, hr]⟩, ⟨w', by simp [LazyWorld.getNEntries, hr]⟩⟩

/-- C50 (eviction): loading one registered data set by reading it really frees the others: afterwards no other
registered one holds data. -/
theorem C50_eviction (files : String → Res (DataSet α)) (w w' : LazyWorld α) (hw : Reach files w) (i k : Nat) (e : Event α)
    (hi : i ∈ w.registered) (hg : w.getEntry files i k = .ok (w', .ok e)) :
    w'.Holds i ∧ ∀ j ∈ w'.registered, w'.Holds j → j = i := by
  have hw' : Reach files w' := Reach.getEntry w w' i k _ hw hg
  have hinv := Inv.of_reach hw
  obtain ⟨v, h1, h2, h3⟩ := closeAll_spec w hinv.alive
  unfold LazyWorld.getEntry at hg
  obtain ⟨⟨x, r⟩, g1, g2⟩ := Res.bind_eq_ok.1 hg
  simp only [Res.pure_eq, Res.ok.injEq, Prod.mk.injEq] at g2
  obtain ⟨rfl, g2⟩ := g2
  have hh : x.Holds i ∧ i ∈ x.registered := by
    unfold LazyWorld.ensure at g1
    cases ho : w.objs i with
    | none => rw [ho] at g1; cases g1
    | some o =>
      rw [ho] at g1; simp only at g1
      cases hd : o.data with
      | some d =>
        rw [hd] at g1; simp only [Res.ok.injEq, Prod.mk.injEq] at g1
        obtain ⟨rfl, _⟩ := g1
        exact ⟨⟨o, d, ho, hd⟩, hi⟩
      | none =>
        rw [hd] at g1; simp only at g1
        unfold LazyWorld.load at g1
        rw [h1] at g1; simp only at g1
        cases hv : v.objs i with
        | none => rw [hv] at g1; cases g1
        | some o' =>
          rw [hv] at g1; simp only at g1
          cases hfl : files o'.file with
          | ok d =>
            rw [hfl] at g1; simp only [Res.ok.injEq, Prod.mk.injEq] at g1
            obtain ⟨rfl, _⟩ := g1
            exact ⟨⟨{ o' with data := some d }, d, by simp [setObj], rfl⟩, by simp only [setObj]; rw [h2]; exact hi⟩
          | throw e => rw [hfl] at g1; simp only [Res.ok.injEq, Prod.mk.injEq] at g1; rw [← g1.2] at g2; cases g2
          | ub => rw [hfl] at g1; cases g1
  exact ⟨hh.1, fun j hj hj' => C50_at_most_one files x hw' j i hj hh.2 hj' hh.1⟩

/-- C50 does not extend to copies: a copy is never put in the registry, so any number of copies can hold data in memory
at the same time. -/
theorem C50_copies_wrong (files : String → Res (DataSet α)) (f : String) (d : DataSet α) (hf : files f = .ok d) (n : Nat) :
    ∃ w, Reach files w ∧ (∀ i, 1 ≤ i → i ≤ n → w.Holds i) := by
  suffices h : ∃ w, Reach files w ∧ w.registered = [0] ∧ (∃ o, w.objs 0 = some o ∧ o.file = f) ∧
      (∀ i, n < i → w.objs i = none) ∧ (∀ i, 1 ≤ i → i ≤ n → w.Holds i) by
    obtain ⟨w, h1, _, _, _, h2⟩ := h; exact ⟨w, h1, h2⟩
  induction n with
  | zero =>
    refine ⟨start.construct 0 f, Reach.construct _ _ _ Reach.start rfl, rfl, ⟨⟨f, none⟩, by simp [LazyWorld.construct, setObj], rfl⟩, ?_, by omega⟩
    intro i hi
    have : i ≠ 0 := by omega
    simp [LazyWorld.construct, setObj, this, start]
  | succ n ih =>
    obtain ⟨w, h1, h2, ⟨o, ho, hof⟩, h3, h4⟩ := ih
    have hc : w.copy (n + 1) 0 = .ok (w.setObj (n + 1) (some ⟨f, none⟩)) := by simp [LazyWorld.copy, ho, hof]
    have hr := Reach.copy w _ (n + 1) 0 h1 (h3 _ (by omega)) hc
    have h0 : (0 : Nat) ≠ n + 1 := by omega
    obtain ⟨v, k1, k2, k3⟩ := closeAll_spec _ (Inv.of_reach hr).alive
    have hreg : (w.setObj (n + 1) (some ⟨f, none⟩)).registered = [0] := h2
    have hv : ∀ i, i ≠ 0 → v.objs i = (w.setObj (n + 1) (some ⟨f, none⟩)).objs i := by
      intro i hi; rw [k3 i, hreg, if_neg (by simpa using hi)]
    have hload : (w.setObj (n + 1) (some ⟨f, none⟩)).load files (n + 1) =
        .ok (v.setObj (n + 1) (some ⟨f, some d⟩), .ok d) := by
      unfold LazyWorld.load
      rw [k1]; simp only
      rw [hv (n + 1) (by omega)]
      simp [setObj, hf]
    refine ⟨_, Reach.load _ _ _ _ hr hload, ?_, ?_, ?_, ?_⟩
    · show v.registered = _; rw [k2]; exact hreg
    · refine ⟨{ o with data := none }, ?_, hof⟩
      simp only [setObj, if_neg h0]
      rw [k3 0, hreg]; simp [setObj, h0, ho]
    · intro i hi
      have a : i ≠ n + 1 := by omega
      have b : i ≠ 0 := by omega
      simp only [setObj, if_neg a]
      rw [hv i b]; simp only [setObj, if_neg a]; exact h3 i (by omega)
    · intro i hi hi'
      by_cases a : i = n + 1
      · exact ⟨⟨f, some d⟩, d, by simp [setObj, a], rfl⟩
      · obtain ⟨o', d', p1, p2⟩ := h4 i hi (by omega)
        refine ⟨o', d', ?_, p2⟩
        simp only [setObj, if_neg a]
        rw [hv i (by omega)]; simp only [setObj, if_neg a]; exact p1

/-! ### Non-vacuity -/

/-- Two registered data sets, one of them read: it holds its data, the other does not. -/
example : ∃ w : LazyWorld Int, Reach (fun f => if f = "a" then .ok ⟨[[1], [2]], ["x"], 1⟩ else .ok ⟨[[7]], ["x"], 1⟩) w ∧
    0 ∈ w.registered ∧ 1 ∈ w.registered ∧ w.Holds 0 ∧ ¬ w.Holds 1 := by
  let files : String → Res (DataSet Int) := fun f => if f = "a" then .ok ⟨[[1], [2]], ["x"], 1⟩ else .ok ⟨[[7]], ["x"], 1⟩
  have r0 := Reach.construct _ 1 "b" (Reach.construct _ 0 "a" (Reach.start (files := files)) rfl)
    (by simp [LazyWorld.construct, setObj, start])
  have hreg : 0 ∈ ((start.construct 0 "a").construct 1 "b" : LazyWorld Int).registered ∧
      1 ∈ ((start.construct 0 "a").construct 1 "b" : LazyWorld Int).registered := by
    simp [LazyWorld.construct, setObj, start]
  obtain ⟨v, k1, k2, k3⟩ := closeAll_spec _ (Inv.of_reach r0).alive
  obtain ⟨w2, h2⟩ := (C50_content files (by intro f; simp only [files]; split <;> simp) _ r0 0 ⟨"a", none⟩
    (by simp [LazyWorld.construct, setObj]) 1).1
  have h2' : ((start.construct 0 "a").construct 1 "b").getEntry files 0 1 = .ok (w2, .ok ⟨[2], some ["x"]⟩) := by
    rw [h2]; rfl
  have hev := C50_eviction files _ _ r0 0 1 _ hreg.1 h2'
  have hr2 : w2.registered = [0, 1] := by
    have : ((start.construct 0 "a").construct 1 "b").getEntry files 0 1 = .ok (w2, .ok ⟨[2], some ["x"]⟩) := h2'
    simp [LazyWorld.getEntry, LazyWorld.ensure, LazyWorld.load, k1, LazyWorld.construct, setObj, start] at this k1 k2 k3
    rw [k1] at this
    simp [k3, files] at this
    rw [← this.1]; exact k2
  exact ⟨w2, Reach.getEntry _ _ _ _ _ r0 h2', by simp [hr2], by simp [hr2], hev.1,
    fun h => absurd (hev.2 1 (by simp [hr2]) h) (by decide)⟩

end Oxsx
