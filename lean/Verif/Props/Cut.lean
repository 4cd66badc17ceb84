import Verif.Model.Cut
import Verif.Lemmas.Basic
import Mathlib.Algebra.BigOperators.Group.List.Basic
import Mathlib.Algebra.Order.BigOperators.Group.List
import Mathlib.Data.List.Count
import Mathlib.Tactic.Ring
import Mathlib.Tactic.Linarith
import Mathlib.Tactic.FieldSimp
/-
Properties C40 (cut semantics) and C41 (cut collections and cut-flow accounting).
-/
set_option linter.unusedSectionVars false
set_option linter.unusedSimpArgs false
set_option linter.unusedVariables false
namespace Oxsx
variable {α : Type} [LinearOrder α]

theorem Event.getDatumByName_eq {e : Event α} {names : List String} (hn : names.Nodup) (he : e.names = some names)
    {i : Nat} {n : String} {v : α} (h1 : names[i]? = some n) (h2 : e.obs[i]? = some v) :
    e.getDatumByName n = .ok v := by
  have hi := (List.getElem?_eq_some_iff.1 h2).1
  simp only [Event.getDatumByName, he, findPos_eq_of_nodup hn h1, Event.getDatum, at_, h2, Res.mapExc]

/-- C40: on an event holding the value `v` under the observable's name, a box cut passes exactly when `v` lies
strictly between its limits, a line cut exactly when `v` is strictly above ("lower" bound) or strictly below
("upper" bound) its value, a bool cut exactly when `v` equals its value. -/
theorem C40_semantics (e : Event α) (names : List String) (hn : names.Nodup) (he : e.names = some names)
    (i : Nat) (obs : String) (v : α) (h1 : names[i]? = some obs) (h2 : e.obs[i]? = some v) (nm : String) (x y : α) :
    (((Cut.box nm obs x y).passesCut e = .ok true ↔ x < v ∧ v < y) ∧
      ((Cut.box nm obs x y).passesCut e = .ok false ↔ v ≤ x ∨ y ≤ v)) ∧
    (∀ c, Cut.mkLine nm obs x "lower" = .ok c →
      (c.passesCut e = .ok true ↔ x < v) ∧ (c.passesCut e = .ok false ↔ v ≤ x)) ∧
    (∀ c, Cut.mkLine nm obs x "upper" = .ok c →
      (c.passesCut e = .ok true ↔ v < x) ∧ (c.passesCut e = .ok false ↔ x ≤ v)) ∧
    (((Cut.bool nm obs x).passesCut e = .ok true ↔ v = x) ∧
      ((Cut.bool nm obs x).passesCut e = .ok false ↔ v ≠ x)) := by
  have hg := Event.getDatumByName_eq hn he h1 h2
  refine ⟨⟨?_, ?_⟩, ?_, ?_, ?_, ?_⟩
  · simp [Cut.passesCut, hg, and_comm]
  · simp only [Cut.passesCut, hg, Res.ok_bind, Res.pure_eq, Res.ok.injEq, Bool.and_eq_false_iff,
      decide_eq_false_iff_not, not_lt]
    exact or_comm
  · intro c hc
    have : Cut.mkLine nm obs x "lower" = .ok (.line nm obs x "lower") := rfl
    rw [this] at hc; cases hc
    simp [Cut.passesCut, hg]
  · intro c hc
    have : Cut.mkLine nm obs x "upper" = .ok (.line nm obs x "upper") := rfl
    rw [this] at hc; cases hc
    simp [Cut.passesCut, hg]
  · simp [Cut.passesCut, hg]
  · simp [Cut.passesCut, hg]

example : (Cut.box "c" "r" (0 : Int) 5).passesCut ⟨[7, 4], some ["e", "r"]⟩ = .ok true ∧
    (Cut.box "c" "r" (0 : Int) 4).passesCut ⟨[7, 4], some ["e", "r"]⟩ = .ok false ∧
    (Cut.line "c" "e" (7 : Int) "lower").passesCut ⟨[7, 4], some ["e", "r"]⟩ = .ok false := by decide +kernel

/-- C40 (validation): constructing a line cut, or changing its side, succeeds exactly for "upper" and "lower";
anything else throws `ValueError`. -/
theorem C40_sidedness (nm obs side side' : String) (x : α) :
    ((∃ c, Cut.mkLine nm obs x side = .ok c) ↔ side = "upper" ∨ side = "lower") ∧
    (¬ (side = "upper" ∨ side = "lower") → Cut.mkLine nm obs x side = .throw .value) ∧
    (side' = "upper" ∨ side' = "lower" →
      (Cut.line nm obs x side).setSidedness side' = Cut.mkLine nm obs x side') ∧
    (¬ (side' = "upper" ∨ side' = "lower") → (Cut.line nm obs x side).setSidedness side' = .throw .value) := by
  unfold Cut.mkLine Cut.setSidedness Cut.checkSide
  refine ⟨?_, ?_, ?_, ?_⟩
  · by_cases h : side = "upper" ∨ side = "lower"
    · simp only [if_pos h]; exact ⟨fun _ => h, fun _ => ⟨_, rfl⟩⟩
    · simp only [if_neg h]
      exact ⟨fun ⟨c, hc⟩ => by simp at hc, fun h' => absurd h' h⟩
  · intro h; simp only [if_neg h]; rfl
  · intro h; rfl
  · intro h; simp only [if_neg h]; rfl

/-- The observable a cut looks at. -/
def Cut.observable : Cut α → String
  | .box _ o _ _ => o
  | .line _ o _ _ => o
  | .bool _ o _ => o

/-- C40 (missing observable): any cut on an observable the event's data set does not have throws
`NotFoundError`. -/
theorem C40_missing (e : Event α) (names : List String) (he : e.names = some names) (c : Cut α)
    (h : c.observable ∉ names) : c.passesCut e = .throw .notFound := by
  cases c <;> simp only [Cut.observable] at h <;>
    simp [Cut.passesCut, Event.getDatumByName, he, findPos_none.2 h]

example : (Cut.bool "c" "q" (0 : Int)).passesCut ⟨[7, 4], some ["e", "r"]⟩ = .throw .notFound := by decide +kernel

/-- The event passes the first `k` cuts. -/
def PassesFirst (cs : CutCollection α) (k : Nat) (e : Event α) : Prop :=
  ∀ c ∈ cs.take k, c.passesCut e = .ok true

instance (cs : CutCollection α) (k : Nat) (e : Event α) : Decidable (PassesFirst cs k e) := by
  unfold PassesFirst; infer_instance

/-- Cut number `k` is the first one the event fails. -/
def FirstFail (cs : CutCollection α) (k : Nat) (e : Event α) : Prop :=
  PassesFirst cs k e ∧ ∃ c, cs[k]? = some c ∧ c.passesCut e = .ok false

/-- Every cut can be evaluated on the event. -/
def Evaluable (cs : CutCollection α) (e : Event α) : Prop := ∀ c ∈ cs, ∃ b, c.passesCut e = .ok b

namespace CutCollection

theorem passesFirst_cons (c : Cut α) (cs : CutCollection α) (k : Nat) (e : Event α) :
    PassesFirst (c :: cs) (k + 1) e ↔ c.passesCut e = .ok true ∧ PassesFirst cs k e := by
  unfold PassesFirst; simp

theorem firstFail_cons (c : Cut α) (cs : CutCollection α) (k : Nat) (e : Event α) :
    FirstFail (c :: cs) (k + 1) e ↔ c.passesCut e = .ok true ∧ FirstFail cs k e := by
  unfold FirstFail; rw [passesFirst_cons]; simp [and_assoc]

theorem passes_true_iff (cs : CutCollection α) (e : Event α) :
    passesCuts cs e = .ok true ↔ ∀ c ∈ cs, c.passesCut e = .ok true := by
  induction cs with
  | nil => simp [passesCuts]
  | cons c cs ih =>
    unfold passesCuts
    cases hc : c.passesCut e with
    | ok b => cases b <;> simp [hc, ih]
    | throw x => simp [hc]
    | ub => simp [hc]

theorem passes_false_iff (cs : CutCollection α) (e : Event α) :
    passesCuts cs e = .ok false ↔ ∃ k, FirstFail cs k e := by
  induction cs with
  | nil => simp [passesCuts, FirstFail]
  | cons c cs ih =>
    unfold passesCuts
    have h0 : FirstFail (c :: cs) 0 e ↔ c.passesCut e = .ok false := by
      simp [FirstFail, PassesFirst]
    have hs : (∃ k, FirstFail (c :: cs) k e) ↔ c.passesCut e = .ok false ∨
        (c.passesCut e = .ok true ∧ ∃ k, FirstFail cs k e) := by
      constructor
      · rintro ⟨k, hk⟩
        cases k with
        | zero => exact .inl (h0.1 hk)
        | succ k => rw [firstFail_cons] at hk; exact .inr ⟨hk.1, k, hk.2⟩
      · rintro (h | ⟨h1, k, hk⟩)
        · exact ⟨0, h0.2 h⟩
        · exact ⟨k + 1, (firstFail_cons _ _ _ _).2 ⟨h1, hk⟩⟩
    rw [hs]
    cases hc : c.passesCut e with
    | ok b => cases b <;> simp [hc, ih]
    | throw x => simp [hc]
    | ub => simp [hc]

theorem firstFail_unique {cs : CutCollection α} {e : Event α} {j k : Nat} (hj : FirstFail cs j e)
    (hk : FirstFail cs k e) : j = k := by
  have key : ∀ {j k}, FirstFail cs j e → FirstFail cs k e → ¬ j < k := by
    intro j k hj hk hlt
    obtain ⟨_, c, hc, hf⟩ := hj
    have : c ∈ cs.take k := by
      rw [List.mem_iff_getElem?]; exact ⟨j, by rw [List.getElem?_take_of_lt hlt]; exact hc⟩
    have := hk.1 c this
    rw [hf] at this; cases this
  have h1 := key hj hk
  have h2 := key hk hj
  omega

/-- Shape of the logged test: same answer as the unlogged one; passing logs a pass, failing logs the first cut
failed. -/
theorem logFrom_eq (cs : CutCollection α) (e : Event α) (i : Nat) (log : CutLog) :
    (passesCuts cs e = .ok true → passesCutsLogFrom i cs e log = .ok (true, log.logPass)) ∧
    (∀ k, FirstFail cs k e → passesCutsLogFrom i cs e log =
      (log.logCut (i + k) >>= fun l => .ok (false, l))) ∧
    (∀ x, passesCuts cs e = .throw x → passesCutsLogFrom i cs e log = .throw x) ∧
    (passesCuts cs e = .ub → passesCutsLogFrom i cs e log = .ub) := by
  induction cs generalizing i with
  | nil => simp [passesCuts, passesCutsLogFrom, FirstFail]
  | cons c cs ih =>
    unfold passesCuts passesCutsLogFrom
    cases hc : c.passesCut e with
    | ok b =>
      cases b with
      | true =>
        simp only [Res.ok_bind, if_true]
        refine ⟨(ih (i + 1)).1, ?_, (ih (i + 1)).2.2⟩
        intro k hk
        cases k with
        | zero => obtain ⟨_, c', h1, h2⟩ := hk; simp at h1; subst h1; rw [hc] at h2; cases h2
        | succ k =>
          rw [firstFail_cons] at hk
          rw [(ih (i + 1)).2.1 k hk.2]
          congr 2; omega
      | false =>
        simp only [Res.ok_bind, Bool.false_eq_true, if_false, Res.pure_eq]
        refine ⟨by simp, ?_, by simp, by simp⟩
        intro k hk
        cases k with
        | zero => rfl
        | succ k => rw [firstFail_cons, hc] at hk; simp at hk
    | throw x =>
      simp only [Res.throw_bind]
      refine ⟨by simp, ?_, by simp, by simp⟩
      intro k hk
      cases k with
      | zero => obtain ⟨_, c', h1, h2⟩ := hk; simp at h1; subst h1; rw [hc] at h2; cases h2
      | succ k => rw [firstFail_cons, hc] at hk; simp at hk
    | ub =>
      simp only [Res.ub_bind]
      refine ⟨by simp, ?_, by simp, by simp⟩
      intro k hk
      cases k with
      | zero => obtain ⟨_, c', h1, h2⟩ := hk; simp at h1; subst h1; rw [hc] at h2; cases h2
      | succ k => rw [firstFail_cons, hc] at hk; simp at hk

theorem evaluable_cases {cs : CutCollection α} {e : Event α} (h : Evaluable cs e) :
    passesCuts cs e = .ok true ∨ passesCuts cs e = .ok false := by
  induction cs with
  | nil => left; rfl
  | cons c cs ih =>
    obtain ⟨b, hb⟩ := h c List.mem_cons_self
    have := ih (fun c hc => h c (List.mem_cons_of_mem _ hc))
    unfold passesCuts
    cases b
    · right; simp [hb]
    · simpa [hb] using this

end CutCollection
open CutCollection

/-- C41 (conjunction): an event passes a collection exactly when it passes every cut; it is rejected exactly when
some cut is the first one it fails (so cuts after that one are not looked at). -/
theorem C41_all_cuts (cs : CutCollection α) (e : Event α) :
    (passesCuts cs e = .ok true ↔ ∀ c ∈ cs, c.passesCut e = .ok true) ∧
    (passesCuts cs e = .ok false ↔ ∃ k, FirstFail cs k e) ∧
    (∀ j k, FirstFail cs j e → FirstFail cs k e → j = k) ∧
    (Evaluable cs e → passesCuts cs e = .ok true ∨ passesCuts cs e = .ok false) :=
  ⟨passes_true_iff cs e, passes_false_iff cs e, fun _ _ => firstFail_unique, evaluable_cases⟩

/-- C41 (one logged test): with a log that has one counter per cut, the logged test gives the same outcome as the
unlogged one, and the log counts one more event, plus one at the first cut failed (and nowhere else) if the event
is rejected. -/
theorem C41_logged (cs : CutCollection α) (e : Event α) (log : CutLog) (hl : log.counts.length = cs.length) :
    (passesCuts cs e = .ok true → ∃ log', passesCutsLog cs e log = .ok (true, log') ∧
      log'.nEvents = log.nEvents + 1 ∧ log'.counts = log.counts ∧ log'.names = log.names) ∧
    (∀ k, FirstFail cs k e → ∃ log', passesCutsLog cs e log = .ok (false, log') ∧
      log'.nEvents = log.nEvents + 1 ∧ log'.names = log.names ∧ log'.counts.length = log.counts.length ∧
      ∀ j, log'.counts.getD j 0 = log.counts.getD j 0 + if j = k then 1 else 0) ∧
    (∀ x, passesCuts cs e = .throw x → passesCutsLog cs e log = .throw x) := by
  obtain ⟨h1, h2, h3, _⟩ := logFrom_eq cs e 0 log
  refine ⟨fun h => ⟨_, h1 h, rfl, rfl, rfl⟩, ?_, h3⟩
  intro k hk
  have hlt : k < log.counts.length := by
    rw [hl]; obtain ⟨_, c, hc, _⟩ := hk; exact (List.getElem?_eq_some_iff.1 hc).1
  have hlog : log.logCut (0 + k) = .ok { log with counts := log.counts.set k (log.counts[k] + 1), nEvents := log.nEvents + 1 } := by
    unfold CutLog.logCut
    rw [Nat.zero_add, List.getElem?_eq_getElem hlt]
  refine ⟨{ log with counts := log.counts.set k (log.counts[k] + 1), nEvents := log.nEvents + 1 },
    (h2 k hk).trans (by rw [hlog]; rfl), rfl, rfl, by simp, ?_⟩
  intro j
  simp only [List.getD_eq_getElem?_getD, List.getElem?_set]
  by_cases hjk : k = j
  · subst hjk; simp [hlt]
  · simp [hjk, Ne.symm hjk]

/-- C41 (mismatched log): a log with too few counters throws `NotFoundError` when an event fails a cut it has no
counter for. -/
theorem C41_short_log (cs : CutCollection α) (e : Event α) (log : CutLog) (k : Nat) (hk : FirstFail cs k e)
    (h : log.counts.length ≤ k) : passesCutsLog cs e log = .throw .notFound := by
  unfold passesCutsLog
  rw [(logFrom_eq cs e 0 log).2.1 k hk]
  simp [CutLog.logCut, List.getElem?_eq_none h]

namespace CutLog

theorem remainders_length (r : Int) (cs : List Nat) : (remainders r cs).length = cs.length := by
  induction cs generalizing r with
  | nil => rfl
  | cons c cs ih => simp [remainders, ih]

theorem remainders_get (r : Int) (cs : List Nat) (k : Nat) (hk : k < cs.length) :
    (remainders r cs)[k]? = some (r - ((cs.take (k + 1)).sum : Nat)) := by
  induction cs generalizing r k with
  | nil => simp at hk
  | cons c cs ih =>
    cases k with
    | zero => simp [remainders]
    | succ k =>
      simp only [remainders, List.getElem?_cons_succ, List.take_succ_cons, List.sum_cons]
      rw [ih _ _ (by simpa using hk)]
      push_cast; congr 1; ring

end CutLog

instance (cs : CutCollection α) (k : Nat) (e : Event α) : Decidable (FirstFail cs k e) :=
  decidable_of_iff (PassesFirst cs k e ∧ (cs[k]?.map (fun c => c.passesCut e)) = some (.ok false)) (by
    unfold FirstFail; simp only [Option.map_eq_some_iff])

/-- Is the `k`-th cut the first one failed? (a Boolean version of `FirstFail`, used to count). -/
def firstFailB (cs : CutCollection α) (k : Nat) (e : Event α) : Bool :=
  decide (PassesFirst cs k e) && decide ((cs[k]?.map (fun c => c.passesCut e)) = some (.ok false))

theorem firstFailB_iff (cs : CutCollection α) (k : Nat) (e : Event α) :
    firstFailB cs k e = true ↔ FirstFail cs k e := by
  unfold firstFailB FirstFail
  simp only [Bool.and_eq_true, decide_eq_true_eq, Option.map_eq_some_iff]

/-- Logged run over a data set, starting from any log with one counter per cut. -/
theorem runAll_from (cs : CutCollection α) (es : List (Event α)) (he : ∀ e ∈ es, Evaluable cs e)
    (log : CutLog) (hl : log.counts.length = cs.length) :
    ∃ bs log', runAll cs log es = .ok (bs, log') ∧ bs.length = es.length ∧
      (∀ (i : Nat) (e : Event α), es[i]? = some e → bs[i]? = some (decide (passesCuts cs e = .ok true))) ∧
      log'.nEvents = log.nEvents + es.length ∧ log'.counts.length = cs.length ∧ log'.names = log.names ∧
      ∀ k, log'.counts.getD k 0 = log.counts.getD k 0 + es.countP (firstFailB cs k) := by
  induction es generalizing log with
  | nil => exact ⟨[], log, rfl, rfl, by simp, by simp, hl, rfl, by simp⟩
  | cons e es ih =>
    obtain ⟨h1, h2, _⟩ := C41_logged cs e log hl
    rcases evaluable_cases (he e List.mem_cons_self) with hp | hp
    · obtain ⟨l1, a1, a2, a3, a4⟩ := h1 hp
      obtain ⟨bs, l2, b1, b2, b3, b4, b5, b6, b7⟩ := ih (fun e h => he e (List.mem_cons_of_mem _ h)) l1 (by rw [a3, hl])
      refine ⟨true :: bs, l2, by simp [runAll, a1, b1], by simp [b2], ?_, by rw [b4, a2]; simp; omega, b5,
        by rw [b6, a4], ?_⟩
      · intro i e' hi
        cases i with
        | zero => simp at hi; subst hi; simp [hp]
        | succ i => exact b3 i e' (by simpa using hi)
      · intro k
        rw [b7, a3, List.countP_cons_of_neg]
        intro hc
        have := (passes_false_iff cs e).2 ⟨k, (firstFailB_iff _ _ _).1 hc⟩
        rw [hp] at this; cases this
    · obtain ⟨k, hk⟩ := (passes_false_iff cs e).1 hp
      obtain ⟨l1, a1, a2, a4, a3, a5⟩ := h2 k hk
      obtain ⟨bs, l2, b1, b2, b3, b4, b5, b6, b7⟩ := ih (fun e h => he e (List.mem_cons_of_mem _ h)) l1 (by rw [a3, hl])
      refine ⟨false :: bs, l2, by simp [runAll, a1, b1], by simp [b2], ?_, by rw [b4, a2]; simp; omega, b5,
        by rw [b6, a4], ?_⟩
      · intro i e' hi
        cases i with
        | zero => simp at hi; subst hi; simp [hp]
        | succ i => exact b3 i e' (by simpa using hi)
      · intro j
        rw [b7, a5, List.countP_cons]
        have : (firstFailB cs j e = true) ↔ j = k := by
          rw [firstFailB_iff]; exact ⟨fun h => firstFail_unique h hk, fun h => h ▸ hk⟩
        by_cases hj : j = k
        · rw [if_pos hj, if_pos (this.2 hj)]; omega
        · rw [if_neg hj, if_neg (fun h => hj (this.1 h))]; omega

/-- Events that pass the first `k` cuts either pass the first `k+1` or have `k` as first failed cut. -/
theorem countP_split (cs : CutCollection α) (es : List (Event α)) (he : ∀ e ∈ es, Evaluable cs e) (k : Nat)
    (hk : k < cs.length) :
    es.countP (fun e => decide (PassesFirst cs k e)) =
      es.countP (fun e => decide (PassesFirst cs (k + 1) e)) + es.countP (firstFailB cs k) := by
  induction es with
  | nil => rfl
  | cons e es ih =>
    have ih := ih (fun e h => he e (List.mem_cons_of_mem _ h))
    simp only [List.countP_cons, decide_eq_true_eq, firstFailB_iff]
    have hck : cs[k]? = some cs[k] := by simp [hk]
    have hsucc : PassesFirst cs (k + 1) e ↔ PassesFirst cs k e ∧ cs[k].passesCut e = .ok true := by
      unfold PassesFirst
      rw [← List.take_append_getElem hk]
      simp only [List.mem_append, List.mem_singleton, or_imp, forall_and, forall_eq]
    have hff : FirstFail cs k e ↔ PassesFirst cs k e ∧ cs[k].passesCut e = .ok false := by
      unfold FirstFail; simp [hck]
    obtain ⟨b, hb⟩ := he e List.mem_cons_self cs[k] (List.getElem_mem hk)
    rw [ih, if_congr hsucc rfl rfl, if_congr hff rfl rfl, hb]
    by_cases hp : PassesFirst cs k e
    · cases b <;> simp [hp] <;> omega
    · simp [hp]

theorem countP_sum (cs : CutCollection α) (es : List (Event α)) (he : ∀ e ∈ es, Evaluable cs e) (k : Nat)
    (hk : k ≤ cs.length) :
    es.length = es.countP (fun e => decide (PassesFirst cs k e)) +
      ((List.range k).map (fun j => es.countP (firstFailB cs j))).sum := by
  induction k with
  | zero =>
    have : (fun e : Event α => decide (PassesFirst cs 0 e)) = fun _ => true := by
      funext e; simp [PassesFirst]
    rw [this]; simp
  | succ k ih =>
    rw [ih (by omega), countP_split cs es he k (by omega), List.range_succ]
    simp; omega

/-- C41 (cut flow): run the collection over any list of events every cut can be evaluated on, starting from a fresh
log built from the collection's cut names. Then the answers are the unlogged ones; the log has seen every event;
counter `k` is the number of events whose first failed cut is `k`; events seen = passes + total of the counters;
the reported remainder after cut `k` is the number of events passing cuts `0..k`, so it never increases and ends
at the number of passes. -/
theorem C41_cut_flow (cs : CutCollection α) (es : List (Event α)) (he : ∀ e ∈ es, Evaluable cs e) :
    ∃ bs log, runAll cs (CutLog.ofNames cs.getCutNames) es = .ok (bs, log) ∧ bs.length = es.length ∧
      (∀ (i : Nat) (e : Event α), es[i]? = some e → bs[i]? = some (decide (passesCuts cs e = .ok true))) ∧
      log.nEvents = es.length ∧ log.counts.length = cs.length ∧
      (∀ k, k < cs.length → log.counts.getD k 0 = es.countP (firstFailB cs k)) ∧
      log.nEvents = es.countP (fun e => decide (passesCuts cs e = .ok true)) + log.counts.sum ∧
      log.remainderCounts.length = cs.length ∧
      (∀ k, k < cs.length → log.remainderCounts[k]? =
        some ((es.countP (fun e => decide (PassesFirst cs (k + 1) e)) : Nat) : Int)) ∧
      log.remainderCounts.Pairwise (· ≥ ·) ∧
      (∀ r, log.remainderCounts.getLast? = some r →
        r = ((es.countP (fun e => decide (passesCuts cs e = .ok true)) : Nat) : Int)) := by
  obtain ⟨bs, log, h1, h2, h3, h4, h5, h6, h7⟩ := runAll_from cs es he (CutLog.ofNames cs.getCutNames)
    (by simp [CutLog.ofNames, getCutNames])
  have hc : ∀ k, k < cs.length → log.counts.getD k 0 = es.countP (firstFailB cs k) := by
    intro k hk
    rw [h7 k]; simp [CutLog.ofNames, getCutNames, List.getD_eq_getElem?_getD, hk]
  have hne : log.nEvents = es.length := by rw [h4]; simp [CutLog.ofNames]
  have hcounts : log.counts = (List.range cs.length).map (fun j => es.countP (firstFailB cs j)) := by
    apply List.ext_getElem?
    intro j
    by_cases hj : j < cs.length
    · have := hc j hj
      simp only [List.getD_eq_getElem?_getD] at this
      rw [List.getElem?_eq_getElem (by omega)] at this ⊢
      simp at this
      simp [hj, this]
    · rw [List.getElem?_eq_none (by omega), List.getElem?_eq_none (by simp; omega)]
  have hpass : (fun e : Event α => decide (PassesFirst cs cs.length e)) =
      fun e => decide (passesCuts cs e = .ok true) := by
    funext e
    rw [decide_eq_decide, passes_true_iff]
    unfold PassesFirst; rw [List.take_length]
  have hrem : ∀ k, k < cs.length → log.remainderCounts[k]? =
        some ((es.countP (fun e => decide (PassesFirst cs (k + 1) e)) : Nat) : Int) := by
    intro k hk
    unfold CutLog.remainderCounts
    rw [CutLog.remainders_get _ _ _ (by omega), hne]
    have := countP_sum cs es he (k + 1) (by omega)
    have ht : log.counts.take (k + 1) = (List.range (k + 1)).map (fun j => es.countP (firstFailB cs j)) := by
      rw [hcounts, ← List.map_take, List.take_range, Nat.min_eq_left (by omega)]
    rw [ht]; congr 1; omega
  have hlen : log.remainderCounts.length = cs.length := by
    unfold CutLog.remainderCounts; rw [CutLog.remainders_length, h5]
  refine ⟨bs, log, h1, h2, h3, hne, h5, hc, ?_, hlen, hrem, ?_, ?_⟩
  · rw [hne, hcounts, ← hpass]; exact countP_sum cs es he cs.length le_rfl
  · rw [List.pairwise_iff_getElem]
    intro i j hi hj hij
    rw [hlen] at hi hj
    have hi' := hrem i hi
    have hj' := hrem j hj
    rw [List.getElem?_eq_getElem (by omega)] at hi' hj'
    rw [Option.some.inj hi', Option.some.inj hj']
    have : es.countP (fun e => decide (PassesFirst cs (j + 1) e)) ≤ es.countP (fun e => decide (PassesFirst cs (i + 1) e)) := by
      apply List.countP_mono_left
      intro e _ he
      simp only [decide_eq_true_eq] at he ⊢
      intro c hcm
      exact he c (by
        have := List.take_take (i := i + 1) (j := j + 1) (l := cs)
        rw [Nat.min_eq_left (by omega)] at this
        rw [← this] at hcm
        exact List.mem_of_mem_take hcm)
    exact_mod_cast this
  · intro r hr
    rw [List.getLast?_eq_getElem?, hlen] at hr
    have hpos : 0 < cs.length := by
      rcases Nat.eq_zero_or_pos cs.length with h | h
      · rw [List.getElem?_eq_none (by omega)] at hr; cases hr
      · exact h
    rw [hrem _ (by omega), show cs.length - 1 + 1 = cs.length by omega, hpass] at hr
    exact (Option.some.inj hr).symm

/-- Three events through two cuts: one fails the first, one the second (and would fail nothing else), one passes. -/
def exCuts : CutCollection Int := [.box "e cut" "e" 0 5, .line "r cut" "r" 10 "upper"]
def exEvents : List (Event Int) :=
  [⟨[5, 3], some ["e", "r"]⟩, ⟨[4, 11], some ["e", "r"]⟩, ⟨[1, 2], some ["e", "r"]⟩]

example : (∀ e ∈ exEvents, Evaluable exCuts e) ∧
    runAll exCuts (CutLog.ofNames (getCutNames exCuts)) exEvents =
      .ok ([false, false, true], ⟨[1, 1], ["e cut", "r cut"], 3⟩) ∧
    CutLog.remainderCounts ⟨[1, 1], ["e cut", "r cut"], 3⟩ = [2, 1] := by
  refine ⟨?_, by decide +kernel, by decide +kernel⟩
  intro e he c hc
  simp only [exEvents, exCuts, List.mem_cons, List.not_mem_nil, or_false] at he hc
  rcases he with rfl | rfl | rfl <;> rcases hc with rfl | rfl <;> exact ⟨_, rfl⟩

/-- C41 (percentages): for a log that has seen at least one event, the percentage removed at cut `k` plus the
percentage remaining after it is the percentage remaining before it. -/
theorem C41_percentages {β : Type} [Field β] [CharZero β] (log : CutLog) (h : log.nEvents ≠ 0) (k : Nat)
    (hk : k < log.counts.length) :
    ∃ p r : β, (log.cutPercentages (α := β))[k]? = some p ∧ (log.remainderPercentages (α := β))[k]? = some r ∧
      p + r = (if k = 0 then 100 else ((log.remainderPercentages (α := β))[k - 1]?).getD 0) := by
  have hr := CutLog.remainders_get log.nEvents log.counts k hk
  have hn : (log.nEvents : β) ≠ 0 := by exact_mod_cast h
  refine ⟨_, _, by
    simp only [CutLog.cutPercentages, List.getElem?_map, List.getElem?_eq_getElem hk]; rfl, by
    simp only [CutLog.remainderPercentages, CutLog.remainderCounts, List.getElem?_map, hr]; rfl, ?_⟩
  have hs : (log.counts.take (k + 1)).sum = (log.counts.take k).sum + log.counts[k] := by
    rw [← List.take_append_getElem hk, List.sum_append, List.sum_singleton]
  by_cases h0 : k = 0
  · subst h0
    rw [hs]; simp; field_simp; ring
  · rw [if_neg h0]
    have hr' := CutLog.remainders_get log.nEvents log.counts (k - 1) (by omega)
    simp only [CutLog.remainderPercentages, CutLog.remainderCounts, List.getElem?_map, hr', Option.map_some,
      Option.getD_some]
    rw [show k - 1 + 1 = k by omega, hs]
    push_cast; field_simp; ring

/-- C41, a collection as it is built: adding cuts one after the other to an empty collection keeps all of them in the order of adding, so that counter k of a
log belongs to the k-th cut added; an event passes exactly if it passes each cut added, and the first cut it fails is the first it fails in that order. -/
theorem C41_added {α : Type} [LinearOrder α] (cuts : List (Cut α)) :
    let cs : CutCollection α := cuts.foldl CutCollection.addCut []
    cs.getCutNames = cuts.map Cut.getName ∧ (∀ k : Nat, cs[k]? = cuts[k]?) ∧
    (∀ e, CutCollection.passesCuts cs e = .ok true ↔ ∀ c ∈ cuts, c.passesCut e = .ok true) ∧
    (∀ e (k : Nat) c, cuts[k]? = some c → c.passesCut e = .ok false → (∀ c' ∈ cuts.take k, c'.passesCut e = .ok true) →
      ∃ log, CutCollection.passesCutsLog cs e (CutLog.ofNames cs.getCutNames) = .ok (false, log) ∧ log.nEvents = 1 ∧
        log.names = cuts.map Cut.getName ∧ log.counts.getD k 0 = 1 ∧ ∀ j, j ≠ k → log.counts.getD j 0 = 0) := by
  have key : ∀ (l a : List (Cut α)), l.foldl CutCollection.addCut a = a ++ l := by
    intro l
    induction l with
    | nil => simp
    | cons x xs ih => intro a; rw [List.foldl_cons, ih]; simp [CutCollection.addCut]
  have hcs : cuts.foldl CutCollection.addCut [] = cuts := by rw [key]; simp
  intro cs
  have hcs' : cs = cuts := hcs
  rw [hcs']
  refine ⟨rfl, fun _ => rfl, fun e => (C41_all_cuts cuts e).1, fun e k c h1 h2 h3 => ?_⟩
  obtain ⟨log, g1, g2, g3, _, g4⟩ := (C41_logged cuts e (CutLog.ofNames (CutCollection.getCutNames cuts)) (by simp [CutLog.ofNames, CutCollection.getCutNames])).2.1 k
    ⟨h3, c, h1, h2⟩
  have hz : ∀ j, (CutLog.ofNames (CutCollection.getCutNames cuts)).counts.getD j 0 = 0 := by
    intro j; simp only [CutLog.ofNames, List.getD_eq_getElem?_getD, List.getElem?_replicate]; split <;> rfl
  refine ⟨log, g1, by rw [g2]; rfl, by rw [g3]; rfl, by rw [g4, hz, if_pos rfl], fun j hj => by rw [g4, hz, if_neg hj]⟩

example : ([Cut.bool "a" "e" (7 : Int), Cut.bool "b" "r" 0].foldl CutCollection.addCut [] |> CutCollection.getCutNames) = ["a", "b"] ∧
    (CutCollection.passesCutsLog ([Cut.bool "a" "e" (7 : Int), Cut.bool "b" "r" 0].foldl CutCollection.addCut []) ⟨[7, 4], some ["e", "r"]⟩
      (CutLog.ofNames ["a", "b"])) = .ok (false, ⟨[0, 1], ["a", "b"], 1⟩) := by decide +kernel

end Oxsx
