import Verif.Props.Counting
import Verif.Model.Reports
set_option linter.unusedSectionVars false
set_option linter.unusedSimpArgs false
set_option linter.unusedVariables false
/-
C99: what the reports of a cut log and of a counting result show.
-/
namespace Oxsx
variable {α : Type} [Field α] [LinearOrder α] [IsStrictOrderedRing α]

/-! ### Specification: a history of calls on a cut log -/

/-- The calls a program can make on a cut log. -/
inductive LogCall where
  | pass
  | cut (i : Nat)
  | calculate
  | print
  deriving DecidableEq, Repr

namespace LogCall

/-- The calls that recompute the percentages. -/
def refreshes : LogCall → Bool
  | .calculate => true
  | .print => true
  | _ => false

/-- How many times an event was logged as cut by cut `i`. -/
def cutBy (cs : List LogCall) (i : Nat) : Nat := cs.count (.cut i)

/-- How many events were logged as cut by one of the first `k` cuts. -/
def cutByFirst (cs : List LogCall) (k : Nat) : Nat := ((List.range k).map (cutBy cs)).sum

/-- How many events were logged, with `k` cuts: the calls for cuts that do not exist throw and count nothing. -/
def events (k : Nat) (cs : List LogCall) : Nat := cs.count .pass + cutByFirst cs k

end LogCall

namespace CutLogObj

/-- The effect of a call. -/
def exec (o : CutLogObj α) : LogCall → CutLogObj α
  | .pass => o.logPass
  | .cut i => ((o.logCut i).toOption).getD o
  | .calculate => o.calculateMeta
  | .print => ((o.asString.toOption).map (·.2)).getD o

/-- A log made with these names, after these calls. -/
def run (names : List String) (cs : List LogCall) : CutLogObj α := cs.foldl exec (new names)

theorem foldl_metaStep (l : List Nat) (r : Int) (o : CutLogObj α) : (l.foldl metaStep (r, o)).2 =
    { o with
      remCounts := o.remCounts ++ CutLog.remainders r l
      cutPercent := o.cutPercent ++ l.map (fun (c : Nat) => Fl.div ((c : α) * 100) (o.log.nEvents : α))
      remPercent := o.remPercent ++ (CutLog.remainders r l).map (fun (c : Int) => Fl.div ((c : α) * 100) (o.log.nEvents : α)) } := by
  induction l generalizing r o with
  | nil => simp [CutLog.remainders]
  | cons c l ih =>
    rw [List.foldl_cons]
    show (l.foldl metaStep (r - c, _)).2 = _
    rw [ih]
    simp [CutLog.remainders, List.append_assoc]

theorem calculateMeta_eq (o : CutLogObj α) : o.calculateMeta =
    { o with
      remCounts := o.log.remainderCounts
      cutPercent := o.log.counts.map (fun (c : Nat) => Fl.div ((c : α) * 100) (o.log.nEvents : α))
      remPercent := o.log.remainderCounts.map (fun (c : Int) => Fl.div ((c : α) * 100) (o.log.nEvents : α)) } := by
  unfold calculateMeta
  rw [foldl_metaStep]
  simp [CutLog.remainderCounts]

theorem row_eq (o : CutLogObj α) (hl : o.log.counts.length = o.log.names.length) (i : Nat) (hi : i < o.log.names.length) :
    o.calculateMeta.row i = .ok ⟨o.log.names.getD i "", o.log.counts.getD i 0, Fl.div ((o.log.counts.getD i 0 : α) * 100) (o.log.nEvents : α),
      (o.log.nEvents : Int) - ((o.log.counts.take (i + 1)).sum : Nat),
      Fl.div ((((o.log.nEvents : Int) - ((o.log.counts.take (i + 1)).sum : Nat) : Int) : α) * 100) (o.log.nEvents : α)⟩ := by
  have hi' : i < o.log.counts.length := by omega
  have hrem := CutLog.remainders_get o.log.nEvents o.log.counts i hi'
  have at_some : ∀ {β : Type} (l : List β) (b : β), l[i]? = some b → at_ l i = .ok b := by
    intro β l b h; unfold at_; rw [h]
  unfold row
  rw [calculateMeta_eq]
  rw [at_some o.log.names (o.log.names.getD i "") (by simp [List.getD_eq_getElem?_getD, hi])]
  rw [at_some o.log.counts (o.log.counts.getD i 0) (by simp [List.getD_eq_getElem?_getD, hi'])]
  simp only [Res.ok_bind]
  rw [at_some _ (Fl.div ((o.log.counts.getD i 0 : α) * 100) (o.log.nEvents : α)) (by simp [List.getD_eq_getElem?_getD, hi'])]
  simp only [Res.ok_bind]
  rw [show o.log.remainderCounts = CutLog.remainders o.log.nEvents o.log.counts from rfl, at_some _ _ hrem]
  simp only [Res.ok_bind]
  rw [at_some _ (Fl.div ((((o.log.nEvents : Int) - ((o.log.counts.take (i + 1)).sum : Nat) : Int) : α) * 100) (o.log.nEvents : α)) (by
    rw [List.getElem?_map, hrem]; rfl)]
  rfl

theorem asString_eq (o : CutLogObj α) (hl : o.log.counts.length = o.log.names.length) (hne : o.log.names ≠ []) :
    ∃ rows, o.asString = .ok (some rows, o.calculateMeta) ∧ rows.length = o.log.names.length ∧
      ∀ i, i < o.log.names.length → ∃ r, rows[i]? = some r ∧ o.calculateMeta.row i = .ok r := by
  have h0 : o.log.counts.length ≠ 0 := by rw [hl]; exact fun h => hne (List.length_eq_zero_iff.1 h)
  obtain ⟨rows, hr⟩ : ∃ rows, Res.traverse o.calculateMeta.row (List.range o.log.names.length) = .ok rows :=
    ⟨_, Res.traverse_ok (fun i hi => row_eq o hl i (List.mem_range.1 hi))⟩
  refine ⟨rows, ?_, ?_, ?_⟩
  · unfold asString
    rw [if_neg h0, Res.throwIf_false_of (by simp [hl]), Res.ok_bind, hr]
    rfl
  · have := Res.traverse_length hr; simpa using this
  · intro i hi
    obtain ⟨r, h1, h2⟩ := Res.traverse_get hr i i (by simp [hi])
    exact ⟨r, h1, h2⟩

/-- The counters of a log after a history of calls. -/
theorem run_log (names : List String) (cs : List LogCall) : (run names cs : CutLogObj α).log =
    ⟨(List.range names.length).map (LogCall.cutBy cs), names, LogCall.events names.length cs⟩ := by
  induction cs using List.reverseRecOn with
  | nil =>
    have h0 : LogCall.cutBy [] = fun _ => 0 := by funext i; simp [LogCall.cutBy]
    simp only [run, new, CutLog.ofNames, LogCall.events, LogCall.cutByFirst, h0, List.foldl_nil]
    simp [List.map_const']
  | append_singleton cs c ih =>
    have hr : (run names (cs ++ [c]) : CutLogObj α) = (run names cs).exec c := by simp [run]
    rw [hr]
    have same : ∀ c', (∀ i, c' ≠ .cut i) → LogCall.cutBy (cs ++ [c']) = LogCall.cutBy cs := by
      intro c' h
      funext i
      simp [LogCall.cutBy, List.count_append, List.count_singleton, h i]
    have hmeta : ∀ o : CutLogObj α, o.calculateMeta.log = o.log := fun o => by rw [calculateMeta_eq]
    cases c with
    | pass =>
      show (run names cs : CutLogObj α).log.logPass = _
      rw [ih, same _ (by simp)]
      simp [CutLog.logPass, LogCall.events, LogCall.cutByFirst, same _ (show ∀ i, LogCall.pass ≠ .cut i by simp), List.count_append]
      omega
    | calculate =>
      show (run names cs : CutLogObj α).calculateMeta.log = _
      rw [hmeta, ih, same _ (by simp)]
      simp [LogCall.events, LogCall.cutByFirst, same _ (show ∀ i, LogCall.calculate ≠ .cut i by simp), List.count_append]
    | print =>
      have : ((run names cs : CutLogObj α).exec .print).log = (run names cs : CutLogObj α).log := by
        show ((((run names cs : CutLogObj α).asString.toOption).map (·.2)).getD (run names cs)).log = _
        by_cases hn : names = []
        · have h0 : (run names cs : CutLogObj α).log.counts.length = 0 := by rw [ih]; simp [hn]
          unfold asString; rw [if_pos h0]; rfl
        · obtain ⟨rows, h1, _⟩ := asString_eq (run names cs : CutLogObj α) (by rw [ih]; simp) (by rw [ih]; exact hn)
          rw [h1]; exact hmeta _
      rw [this, ih, same _ (by simp)]
      simp [LogCall.events, LogCall.cutByFirst, same _ (show ∀ i, LogCall.print ≠ .cut i by simp), List.count_append]
    | cut i =>
      have hcut : ∀ j, LogCall.cutBy (cs ++ [.cut i]) j = LogCall.cutBy cs j + if j = i then 1 else 0 := by
        intro j
        by_cases h : j = i
        · simp [LogCall.cutBy, List.count_append, List.count_singleton, h]
        · simp [LogCall.cutBy, List.count_append, List.count_singleton, h, Ne.symm h]
      by_cases hi : i < names.length
      · have hc : (run names cs : CutLogObj α).logCut i = .ok { (run names cs : CutLogObj α) with
            log := ⟨((List.range names.length).map (LogCall.cutBy cs)).set i (LogCall.cutBy cs i + 1), names, LogCall.events names.length cs + 1⟩ } := by
          unfold logCut CutLog.logCut
          rw [ih]
          simp [hi]
        show ((((run names cs : CutLogObj α).logCut i).toOption).getD _).log = _
        rw [hc]
        show (⟨_, _, _⟩ : CutLog) = _
        have h1 : ((List.range names.length).map (LogCall.cutBy cs)).set i (LogCall.cutBy cs i + 1) =
            (List.range names.length).map (LogCall.cutBy (cs ++ [.cut i])) := by
          apply List.ext_getElem (by simp)
          intro j h1 h2
          simp only [List.getElem_set, List.getElem_map, List.getElem_range]
          rw [hcut j]
          by_cases h : i = j
          · subst h; simp
          · simp [h, Ne.symm h]
        rw [h1]
        have h2 : LogCall.cutByFirst (cs ++ [.cut i]) names.length = LogCall.cutByFirst cs names.length + 1 := by
          unfold LogCall.cutByFirst
          have : ∀ k, ((List.range k).map (LogCall.cutBy (cs ++ [.cut i]))).sum = ((List.range k).map (LogCall.cutBy cs)).sum + if i < k then 1 else 0 := by
            intro k
            induction k with
            | zero => simp
            | succ k ihk =>
              simp only [List.range_succ, List.map_append, List.sum_append, ihk, List.map_cons, List.map_nil, List.sum_cons, List.sum_nil, hcut k]
              by_cases a : i < k
              · have : k ≠ i := by omega
                simp [a, this, show i < k + 1 by omega]; omega
              · by_cases b : k = i
                · subst b; simp; omega
                · simp [a, b, show ¬ i < k + 1 by omega]
          rw [this, if_pos hi]
        simp [LogCall.events, h2, List.count_append]
        omega
      · have hc : (run names cs : CutLogObj α).logCut i = .throw .notFound := by
          unfold logCut CutLog.logCut
          rw [ih]
          simp [hi]
        show ((((run names cs : CutLogObj α).logCut i).toOption).getD _).log = _
        rw [hc]
        show (run names cs : CutLogObj α).log = _
        rw [ih]
        have h1 : (List.range names.length).map (LogCall.cutBy (cs ++ [.cut i])) = (List.range names.length).map (LogCall.cutBy cs) := by
          refine List.map_congr_left (fun j hj => ?_)
          rw [hcut j, if_neg (by have := List.mem_range.1 hj; omega)]; simp
        simp [LogCall.events, LogCall.cutByFirst, h1, List.count_append]

end CutLogObj

open LogCall CutLogObj in
/-- C99 (counts): after any history of calls the counts a log returns are one number per cut, in order: how many events were logged as cut by it. -/
theorem C99_counts (names : List String) (cs : List LogCall) :
    (run names cs : CutLogObj α).getCutCounts.length = names.length ∧
    ∀ i, i < names.length → (run names cs : CutLogObj α).getCutCounts[i]? = some (cs.count (.cut i)) := by
  unfold getCutCounts
  rw [run_log]
  refine ⟨by simp, fun i hi => ?_⟩
  simp [hi, cutBy]

open LogCall CutLogObj in
/-- C99 (cut table): after any history of calls the report of a log of `names` has one line per cut, in order, with the name, the number of events
logged as cut by that cut, the number of events left after it (on the last line those logged as passing), and both as percentages of all the events
logged; the percentages are not finite if none was logged. With no cut the report is empty; it never throws. -/
theorem C99_cut_table (names : List String) (cs : List LogCall) :
    (names = [] → ∃ o, (run names cs : CutLogObj α).asString = .ok (none, o)) ∧
    (names ≠ [] → ∃ rows o, (run names cs : CutLogObj α).asString = .ok (some rows, o) ∧ rows.length = names.length ∧
      ∀ i, i < names.length → ∃ r, rows[i]? = some r ∧ some r.name = names[i]? ∧ r.cut = cs.count (.cut i) ∧
        r.remaining = (events names.length cs : Int) - cutByFirst cs (i + 1) ∧ (i + 1 = names.length → r.remaining = cs.count .pass) ∧
        (events names.length cs = 0 → r.cutPercent = none ∧ r.remPercent = none) ∧
        (0 < events names.length cs → r.cutPercent = some (100 * (r.cut : α) / events names.length cs) ∧
          r.remPercent = some (100 * (r.remaining : α) / events names.length cs))) := by
  have hlog := run_log (α := α) names cs
  constructor
  · intro hn
    refine ⟨run names cs, ?_⟩
    unfold asString
    rw [if_pos (by rw [hlog]; simp [hn])]
  · intro hn
    obtain ⟨rows, h1, h2, h3⟩ := asString_eq (run names cs : CutLogObj α) (by rw [hlog]; simp) (by rw [hlog]; exact hn)
    refine ⟨rows, _, h1, by rw [h2, hlog], ?_⟩
    intro i hi
    obtain ⟨r, e1, e2⟩ := h3 i (by rw [hlog]; exact hi)
    rw [row_eq _ (by rw [hlog]; simp) i (by rw [hlog]; exact hi)] at e2
    have e2 := Res.ok.inj e2
    refine ⟨r, e1, ?_⟩
    have take : ((((List.range names.length).map (cutBy cs)).take (i + 1)).sum) = cutByFirst cs (i + 1) := by
      rw [← List.map_take, List.take_range, Nat.min_eq_left (by omega)]; rfl
    have hget : ((List.range names.length).map (cutBy cs)).getD i 0 = cutBy cs i := by
      simp [List.getD_eq_getElem?_getD, hi]
    rw [hlog] at e2
    simp only [take, hget] at e2
    subst e2
    refine ⟨by simp [List.getD_eq_getElem?_getD, hi], rfl, rfl, ?_, ?_, ?_⟩
    · intro hl
      simp only [hl, events]; push_cast; ring
    · intro h0
      simp [h0, Fl.div]
    · intro hpos
      have : (events names.length cs : α) ≠ 0 := by exact_mod_cast hpos.ne'
      simp only [Fl.div, this, if_false]
      constructor <;> congr 1 <;> ring

open LogCall CutLogObj in
/-- C99 (percentages): `GetCutPercentages` gives the percentages at the last call that recomputed them, which are those of the report only if nothing
was logged since; nothing before the first such call. -/
theorem C99_percentages_partial (names : List String) (cs : List LogCall) :
    ((∀ c ∈ cs, c.refreshes = false) → (run names cs : CutLogObj α).getCutPercentages = []) ∧
    (∀ h t c, cs = h ++ c :: t → c.refreshes = true → (∀ c ∈ t, c.refreshes = false) →
      (run names cs : CutLogObj α).getCutPercentages.length = names.length ∧ ∀ i, i < names.length →
        (run names cs : CutLogObj α).getCutPercentages[i]? = some (if events names.length h = 0 then none
          else some (100 * (cutBy h i : α) / events names.length h))) := by
  have keep : ∀ (t : List LogCall) (o : CutLogObj α), (∀ c ∈ t, c.refreshes = false) → (t.foldl exec o).cutPercent = o.cutPercent := by
    intro t
    induction t with
    | nil => intro o _; rfl
    | cons c t ih =>
      intro o h
      rw [List.foldl_cons, ih _ (fun c hc => h c (by simp [hc]))]
      have hc := h c (by simp)
      cases c with
      | pass => rfl
      | cut i =>
        show (((o.logCut i).toOption).getD o).cutPercent = _
        unfold logCut
        cases o.log.logCut i with
        | ok l => rfl
        | throw e => rfl
        | ub => rfl
      | calculate => simp [refreshes] at hc
      | print => simp [refreshes] at hc
  constructor
  · intro h
    unfold getCutPercentages run
    rw [keep cs _ h]; rfl
  · intro h t c e hc ht
    have hr : (run names cs : CutLogObj α).cutPercent = ((run names h : CutLogObj α).exec c).cutPercent := by
      unfold run
      rw [e, List.foldl_append, List.foldl_cons, keep t _ ht]
    have hlog := run_log (α := α) names h
    have hex : ((run names h : CutLogObj α).exec c).cutPercent = (run names h : CutLogObj α).calculateMeta.cutPercent ∨
        (names = [] ∧ ((run names h : CutLogObj α).exec c).cutPercent = (run names h : CutLogObj α).cutPercent) := by
      cases c with
      | pass => simp [refreshes] at hc
      | cut i => simp [refreshes] at hc
      | calculate => left; rfl
      | print =>
        by_cases hn : names = []
        · right
          refine ⟨hn, ?_⟩
          show ((((run names h : CutLogObj α).asString.toOption).map (·.2)).getD (run names h)).cutPercent = _
          unfold asString
          rw [if_pos (by rw [hlog]; simp [hn])]; rfl
        · left
          obtain ⟨rows, h1, _⟩ := asString_eq (run names h : CutLogObj α) (by rw [hlog]; simp) (by rw [hlog]; exact hn)
          show ((((run names h : CutLogObj α).asString.toOption).map (·.2)).getD (run names h)).cutPercent = _
          rw [h1]; rfl
    have empty : ∀ (q : List LogCall), (run [] q : CutLogObj α).cutPercent = [] := by
      intro q
      induction q using List.reverseRecOn with
      | nil => rfl
      | append_singleton q c ih =>
        have hl := run_log (α := α) [] q
        have hr : (run [] (q ++ [c]) : CutLogObj α) = (run [] q).exec c := by simp [run]
        rw [hr]
        cases c with
        | pass => exact ih
        | cut i =>
          show ((((run [] q : CutLogObj α).logCut i).toOption).getD (run [] q)).cutPercent = _
          have : (run [] q : CutLogObj α).logCut i = .throw .notFound := by
            unfold logCut CutLog.logCut
            rw [hl]; rfl
          rw [this]; exact ih
        | calculate =>
          show (run [] q : CutLogObj α).calculateMeta.cutPercent = _
          rw [calculateMeta_eq, hl]; rfl
        | print =>
          show ((((run [] q : CutLogObj α).asString.toOption).map (·.2)).getD (run [] q)).cutPercent = _
          unfold asString
          rw [if_pos (by rw [hl]; rfl)]; exact ih
    unfold getCutPercentages
    rcases hex with hex | ⟨hn, _⟩
    · rw [hr, hex, calculateMeta_eq, hlog]
      refine ⟨by simp, ?_⟩
      intro i hi
      simp only [List.getElem?_map, List.getElem?_range hi, Option.map_some, Option.map_map]
      congr 1
      unfold Fl.div
      by_cases h0 : events names.length h = 0
      · simp [h0]
      · have : (events names.length h : α) ≠ 0 := by exact_mod_cast h0
        rw [if_neg this, if_neg h0]
        congr 1; ring
    · subst hn
      rw [empty]
      exact ⟨rfl, fun i hi => by simp at hi⟩

open LogCall CutLogObj in
/-- C99: the percentages returned are not those of the report: half of the events logged were cut, `GetCutPercentages` still says all of them. -/
theorem C99_percentages_wrong : ∃ (names : List String) (cs : List LogCall),
    (run names cs : CutLogObj ℚ).getCutPercentages = [some 100] ∧
    ∃ rows o, (run names cs : CutLogObj ℚ).asString = .ok (some rows, o) ∧ rows.map (·.cutPercent) = [some 50] := by
  refine ⟨["energy"], [.cut 0, .print, .pass], by decide +kernel, ?_⟩
  obtain ⟨rows, o, h1, h2, h3⟩ := (C99_cut_table (α := ℚ) ["energy"] [.cut 0, .print, .pass]).2 (by simp)
  refine ⟨rows, o, h1, ?_⟩
  obtain ⟨r, g1, _, g3, _, _, _, g4⟩ := h3 0 (by simp)
  have hr : rows = [r] := by
    match rows, h2, g1 with
    | [x], _, g1 => simpa using g1
  have hc := (g4 (by decide)).1
  rw [hr, List.map_singleton, hc, g3]
  decide +kernel

/-! ### The summary of a counting result -/

/-- What is asked of `std::sort` with the comparison by decreasing rate: the same entries, none followed by one with a larger rate. Nothing is asked
about the order of equal rates. -/
def SortsByRate (sort : List (String × α) → List (String × α)) : Prop :=
  ∀ l, (sort l).Perm l ∧ (sort l).Pairwise (fun p q => q.2 ≤ p.2)

/-- A background as given to `AddBackground`. -/
structure Background (α : Type) where
  rate : α
  name : String
  error : α
  log : CutLog

namespace CountingResult

/-- A result to which these backgrounds were added. -/
def withBackgrounds (r : CountingResult α) (bs : List (Background α)) : CountingResult α :=
  bs.foldl (fun r b => r.addBackground b.rate b.name b.error b.log) r

theorem withBackgrounds_eq (r : CountingResult α) (bs : List (Background α)) : r.withBackgrounds bs =
    { r with rates := r.rates ++ bs.map (·.rate), rateErrors := r.rateErrors ++ bs.map (·.error), bgNames := r.bgNames ++ bs.map (·.name), bgLogs := r.bgLogs ++ bs.map (·.log) } := by
  unfold withBackgrounds
  induction bs generalizing r with
  | nil => simp
  | cons b bs ih => rw [List.foldl_cons, ih]; simp [addBackground, List.append_assoc]

/-- The last of the errors given for a name. -/
def lastError (bs : List (Background α)) (n : String) : α := ((bs.reverse.find? (fun b => b.name = n)).map (·.error)).getD 0

theorem summary_eq (sort : List (String × α) → List (String × α)) (bs : List (Background α)) (r : CountingResult α)
    (hr : r.rates = bs.map (·.rate)) (he : r.rateErrors = bs.map (·.error)) (hn : r.bgNames = bs.map (·.name)) :
    r.summary sort = .ok ((sort (bs.map (fun b => (b.name, b.rate)))).map (fun p => ⟨p.1, p.2, lastError bs p.1⟩)) := by
  have loop : ∀ k, k ≤ bs.length → ∃ m : SMap α, Res.forFold r.collectStep ([], []) (List.range k) = .ok ((bs.take k).map (fun b => (b.name, b.rate)), m) ∧
      ∀ n, (SMap.find m n).getD 0 = lastError (bs.take k) n := by
    intro k
    induction k with
    | zero => intro _; exact ⟨[], rfl, fun n => rfl⟩
    | succ k ih =>
      intro hk
      obtain ⟨m, h1, h2⟩ := ih (by omega)
      have hk' : k < bs.length := by omega
      have at_map : ∀ {β : Type} (f : Background α → β), at_ (bs.map f) k = .ok (f bs[k]) := by
        intro β f; unfold at_; simp [hk']
      have step : r.collectStep ((bs.take k).map (fun b => (b.name, b.rate)), m) k =
          .ok ((bs.take (k + 1)).map (fun b => (b.name, b.rate)), SMap.insert bs[k].name bs[k].error m) := by
        unfold collectStep
        rw [hr, he, hn, at_map, at_map, at_map]
        simp only [Res.ok_bind]
        rw [List.take_succ_eq_append_getElem hk', List.map_append]
        rfl
      refine ⟨SMap.insert bs[k].name bs[k].error m, ?_, ?_⟩
      · rw [List.range_succ, Res.forFold_append, h1]
        simp only [Res.bind]
        exact (Res.forFold_cons_ok step).trans rfl
      · intro n
        rw [List.take_succ_eq_append_getElem hk', SMap.find_insert]
        unfold lastError
        rw [List.reverse_append]
        simp only [List.reverse_cons, List.reverse_nil, List.nil_append, List.cons_append, List.find?_cons]
        by_cases h : bs[k].name = n
        · simp [h]
        · have := h2 n
          unfold lastError at this
          simp [h, Ne.symm h, this]
  obtain ⟨m, h1, h2⟩ := loop bs.length le_rfl
  unfold summary
  have hlen : r.rates.length = bs.length := by rw [hr]; simp
  rw [hlen, h1, Res.ok_bind]
  simp only [List.take_length] at h2 ⊢
  congr 1
  refine List.map_congr_left (fun p _ => ?_)
  unfold summaryRow; rw [h2]

theorem tableOf_eq (l : CutLog) : tableOf (α := α) l = CutLogObj.asString (⟨l, [], [], []⟩ : CutLogObj α) >>= fun t => Res.ok t.1 := rfl

/-- The table does not depend on what was derived before. -/
theorem tableOf_run (names : List String) (cs : List LogCall) : ∃ t o, (CutLogObj.run names cs : CutLogObj α).asString = .ok (t, o) ∧
    tableOf (α := α) (CutLogObj.run (α := α) names cs).log = .ok t := by
  have hlog := CutLogObj.run_log (α := α) names cs
  have key : ∀ o : CutLogObj α, CutLogObj.calculateMeta (⟨o.log, [], [], []⟩ : CutLogObj α) = o.calculateMeta := by
    intro o; rw [CutLogObj.calculateMeta_eq, CutLogObj.calculateMeta_eq]
  by_cases hn : names = []
  · have h0 : (CutLogObj.run names cs : CutLogObj α).log.counts.length = 0 := by rw [hlog]; simp [hn]
    refine ⟨none, _, by unfold CutLogObj.asString; rw [if_pos h0], ?_⟩
    unfold tableOf CutLogObj.asString
    rw [if_pos h0]; rfl
  · have h1 : (CutLogObj.run names cs : CutLogObj α).log.counts.length = (CutLogObj.run names cs : CutLogObj α).log.names.length := by rw [hlog]; simp
    have h2 : (CutLogObj.run names cs : CutLogObj α).log.names ≠ [] := by rw [hlog]; exact hn
    obtain ⟨rows, e1, _⟩ := CutLogObj.asString_eq (CutLogObj.run names cs : CutLogObj α) h1 h2
    refine ⟨some rows, _, e1, ?_⟩
    have h0 : (CutLogObj.run names cs : CutLogObj α).log.counts.length ≠ 0 := by rw [h1]; exact fun h => h2 (List.length_eq_zero_iff.1 h)
    unfold CutLogObj.asString at e1
    unfold tableOf CutLogObj.asString
    rw [if_neg h0] at e1 ⊢
    rw [key]
    rw [Res.throwIf_false_of (by simp [h1]), Res.ok_bind] at e1 ⊢
    obtain ⟨q, g1, g2⟩ := Res.bind_eq_ok.1 e1
    rw [g1]
    have := Res.ok.inj g2
    rw [Prod.mk.injEq] at this
    simp only [Res.ok_bind]
    show Res.ok _ = _
    rw [← this.1]

end CountingResult

open CountingResult in
/-- C99 (summary): the lines of the summary are the names and rates of the backgrounds added, in order of decreasing rate, and the total and its
error are over all of them; the error next to a rate is the last error given for a background of that name - its own if the names are distinct. -/
theorem C99_summary_partial {sort : List (String × α) → List (String × α)} (hsort : SortsByRate sort) (sqrt : α → α)
    (hs : ∀ v : α, 0 ≤ v → sqrt v * sqrt v = v) (bs : List (Background α)) (obs : Int) (eff : α) (sig : String) (ls ld : CutLog)
    {rep : CountingReport α} (hrep : (((CountingResult.new.withBackgrounds bs).setSignal eff sig ls).setDataLog ld |>.setObservedCounts obs).asString sort sqrt = .ok rep) :
    (rep.summary.map (fun w => (w.name, w.rate))).Perm (bs.map (fun b => (b.name, b.rate))) ∧
    rep.summary.Pairwise (fun v w => w.rate ≤ v.rate) ∧
    rep.total = (rep.summary.map (·.rate)).sum ∧ rep.totalError * rep.totalError = (bs.map (fun b => b.error * b.error)).sum ∧
    (∀ w ∈ rep.summary, w.error = lastError bs w.name) ∧
    ((bs.map (·.name)).Nodup → rep.summary.Perm (bs.map (fun b => ⟨b.name, b.rate, b.error⟩))) ∧
    rep.observed = obs ∧ rep.efficiency = eff ∧ rep.signal.1 = sig := by
  have hb := withBackgrounds_eq (CountingResult.new : CountingResult α) bs
  generalize hR : (((CountingResult.new.withBackgrounds bs).setSignal eff sig ls).setDataLog ld |>.setObservedCounts obs) = R at hrep
  have q1 : R.rates = bs.map (·.rate) := by rw [← hR, hb]; rfl
  have q2 : R.rateErrors = bs.map (·.error) := by rw [← hR, hb]; rfl
  have q3 : R.bgNames = bs.map (·.name) := by rw [← hR, hb]; rfl
  have hsum := summary_eq sort bs R q1 q2 q3
  unfold CountingResult.asString at hrep
  obtain ⟨_, _, hrep⟩ := Res.bind_eq_ok.1 hrep
  obtain ⟨t1, _, hrep⟩ := Res.bind_eq_ok.1 hrep
  obtain ⟨t2, _, hrep⟩ := Res.bind_eq_ok.1 hrep
  rw [hsum, Res.ok_bind] at hrep
  have e := Res.ok.inj hrep
  subst e
  obtain ⟨p1, p2⟩ := hsort (bs.map (fun b => (b.name, b.rate)))
  have hmap : ((sort (bs.map (fun b => (b.name, b.rate)))).map (fun p : String × α => (⟨p.1, p.2, lastError bs p.1⟩ : SummaryRow α))).map (fun w => (w.name, w.rate)) =
      sort (bs.map (fun b => (b.name, b.rate))) := by
    rw [List.map_map]; exact List.map_id _
  have htot := C51_totals sqrt hs R
  refine ⟨by simp only [hmap]; exact p1, ?_, ?_, ?_, ?_, ?_, by rw [← hR]; rfl, by rw [← hR]; rfl, by rw [← hR]; rfl⟩
  · rw [List.pairwise_map]; exact p2
  · show R.expectedCounts = _
    rw [htot.1, q1, List.map_map]
    have := (p1.map (fun p : String × α => p.2)).sum_eq
    rw [List.map_map] at this
    exact this.symm
  · show R.expectedCountError sqrt * R.expectedCountError sqrt = _
    rw [htot.2, q2, List.map_map]; rfl
  · intro w hw
    obtain ⟨p, _, rfl⟩ := List.mem_map.1 hw
    rfl
  · intro hnd
    refine (p1.map _).trans ?_
    rw [List.map_map]
    have : bs.map ((fun p : String × α => (⟨p.1, p.2, lastError bs p.1⟩ : SummaryRow α)) ∘ fun b => (b.name, b.rate)) = bs.map (fun b => ⟨b.name, b.rate, b.error⟩) := by
      refine List.map_congr_left (fun b hb => ?_)
      have : lastError bs b.name = b.error := by
        unfold lastError
        have hf : bs.reverse.find? (fun b' => b'.name = b.name) = some b := by
          cases hq : bs.reverse.find? (fun b' => decide (b'.name = b.name)) with
          | none =>
            have := List.find?_eq_none.1 hq b (List.mem_reverse.2 hb)
            simp at this
          | some b' =>
            have h1 := List.find?_some hq
            have h2 := List.mem_reverse.1 (List.mem_of_find?_eq_some hq)
            have := List.inj_on_of_nodup_map hnd h2 hb (by simpa using h1)
            rw [this]
        rw [hf]; rfl
      simp [this]
    rw [this]

open CountingResult in
/-- C99 (parts): the report always comes, with one part per background holding its name and the table of its log, and the tables of the signal and of
the data, for logs kept by any history of calls. -/
theorem C99_report (sort : List (String × α) → List (String × α)) (sqrt : α → α)
    (bs : List (α × String × α × List String × List LogCall)) (obs : Int) (eff : α) (sig : String)
    (sn dn : List String) (sc dc : List LogCall) :
    ∃ rep, ((((CountingResult.new.withBackgrounds (bs.map (fun b => ⟨b.1, b.2.1, b.2.2.1, (CutLogObj.run (α := α) b.2.2.2.1 b.2.2.2.2).log⟩))).setSignal eff sig
        (CutLogObj.run (α := α) sn sc).log).setDataLog (CutLogObj.run (α := α) dn dc).log).setObservedCounts obs).asString sort sqrt = .ok rep ∧
      List.Forall₂ (fun b p => p.1 = b.2.1 ∧ ∃ o, (CutLogObj.run b.2.2.2.1 b.2.2.2.2 : CutLogObj α).asString = .ok (p.2, o)) bs rep.backgrounds ∧
      (∃ o, (CutLogObj.run sn sc : CutLogObj α).asString = .ok (rep.signal.2, o)) ∧ (∃ o, (CutLogObj.run dn dc : CutLogObj α).asString = .ok (rep.data, o)) := by
  set l : List (Background α) := bs.map (fun b => ⟨b.1, b.2.1, b.2.2.1, (CutLogObj.run (α := α) b.2.2.2.1 b.2.2.2.2).log⟩) with hl
  have hb := withBackgrounds_eq (CountingResult.new : CountingResult α) l
  generalize hR : ((((CountingResult.new.withBackgrounds l).setSignal eff sig
        (CutLogObj.run (α := α) sn sc).log).setDataLog (CutLogObj.run (α := α) dn dc).log).setObservedCounts obs) = R
  have q1 : R.rates = l.map (·.rate) := by rw [← hR, hb]; rfl
  have q2 : R.rateErrors = l.map (·.error) := by rw [← hR, hb]; rfl
  have q3 : R.bgNames = l.map (·.name) := by rw [← hR, hb]; rfl
  have q4 : R.bgLogs = l.map (·.log) := by rw [← hR, hb]; rfl
  have q5 : R.sigLog = (CutLogObj.run (α := α) sn sc).log := by rw [← hR]; rfl
  have q6 : R.dataLog = (CutLogObj.run (α := α) dn dc).log := by rw [← hR]; rfl
  have hsum := summary_eq sort l R q1 q2 q3
  obtain ⟨ts, os, es, es'⟩ := tableOf_run (α := α) sn sc
  obtain ⟨td, od, ed, ed'⟩ := tableOf_run (α := α) dn dc
  have part : ∀ i (hi : i < bs.length), ∃ t o, (CutLogObj.run bs[i].2.2.2.1 bs[i].2.2.2.2 : CutLogObj α).asString = .ok (t, o) ∧
      R.backgroundPart i = .ok (bs[i].2.1, t) := by
    intro i hi
    obtain ⟨t, o, e, e'⟩ := tableOf_run (α := α) bs[i].2.2.2.1 bs[i].2.2.2.2
    refine ⟨t, o, e, ?_⟩
    have at_map : ∀ {β : Type} (f : Background α → β), at_ (l.map f) i = .ok (f ⟨bs[i].1, bs[i].2.1, bs[i].2.2.1, (CutLogObj.run (α := α) bs[i].2.2.2.1 bs[i].2.2.2.2).log⟩) := by
      intro β f; unfold at_; simp [hl, hi]
    unfold backgroundPart
    rw [q3, q4, at_map, at_map, Res.ok_bind, Res.ok_bind, e']
    rfl
  obtain ⟨ps, hps⟩ : ∃ ps, Res.traverse R.backgroundPart (List.range R.bgLogs.length) = .ok ps := by
    rw [show R.bgLogs.length = bs.length by rw [q4]; simp [hl]]
    have : ∀ i ∈ List.range bs.length, ∃ p, R.backgroundPart i = .ok p := by
      intro i hi
      obtain ⟨t, o, _, h⟩ := part i (List.mem_range.1 hi)
      exact ⟨_, h⟩
    choose! f hf using this
    exact ⟨_, Res.traverse_ok hf⟩
  refine ⟨⟨ps, (R.sigName, ts), td, (sort (l.map (fun b => (b.name, b.rate)))).map (fun p => ⟨p.1, p.2, lastError l p.1⟩), R.expectedCounts, R.expectedCountError sqrt, R.sigEff, R.observed⟩, ?_, ?_, ⟨os, es⟩, ⟨od, ed⟩⟩
  · unfold CountingResult.asString
    rw [hps, q5, q6, es', ed', hsum]
    rfl
  · have hlen := Res.traverse_length hps
    rw [List.length_range, q4, List.length_map, hl, List.length_map] at hlen
    rw [List.forall₂_iff_get]
    refine ⟨hlen.symm, ?_⟩
    intro i h1 h2
    obtain ⟨t, o, e, e'⟩ := part i h1
    obtain ⟨r, g1, g2⟩ := Res.traverse_get hps i i (by rw [q4]; simp [hl, h1])
    rw [e'] at g2
    have g2 := Res.ok.inj g2
    have : ps.get ⟨i, h2⟩ = (bs[i].2.1, t) := by
      rw [g2]
      have := List.getElem?_eq_getElem h2
      rw [g1] at this
      exact (Option.some.inj this).symm
    rw [this]
    exact ⟨rfl, o, e⟩

/-- C99: two backgrounds with the same name show the same error, whatever was given for the first. -/
theorem C99_names_wrong : ∃ (bs : List (Background ℚ)) (rep : CountingReport ℚ),
    (CountingResult.new.withBackgrounds bs).asString (fun l => l.insertionSort (fun p q => q.2 ≤ p.2)) id = .ok rep ∧
    bs.map (fun b => (b.rate, b.error)) = [(10, 3), (5, 1)] ∧ rep.summary.map (fun w => (w.rate, w.error)) = [(10, 1), (5, 1)] := by
  refine ⟨[⟨10, "bi", 3, .ofNames []⟩, ⟨5, "bi", 1, .ofNames []⟩], _, rfl, rfl, ?_⟩
  decide +kernel

/-! ### Concrete cases -/

-- four events: two pass, one fails the first cut, one the second, and one is logged for a cut that does not exist
example : ∃ rows o, (CutLogObj.run ["energy", "radius"] [.pass, .cut 0, .cut 7, .cut 1, .calculate, .pass] : CutLogObj ℚ).asString = .ok (some rows, o) ∧
    rows.map (fun r => (r.name, r.cut, r.remaining)) = [("energy", 1, 3), ("radius", 1, 2)] ∧
    rows.map (fun r => (r.cutPercent, r.remPercent)) = [(some 25, some 75), (some 25, some 50)] := by
  refine ⟨_, _, rfl, ?_, ?_⟩ <;> decide +kernel

example : SortsByRate (fun l : List (String × ℚ) => l.insertionSort (fun p q => q.2 ≤ p.2)) := by
  intro l
  have htot : Std.Total (fun p q : String × ℚ => q.2 ≤ p.2) := ⟨fun p q => le_total _ _⟩
  have htr : IsTrans (String × ℚ) (fun p q => q.2 ≤ p.2) := ⟨fun p q r h1 h2 => le_trans h2 h1⟩
  exact ⟨List.perm_insertionSort _ _, List.pairwise_insertionSort _ _⟩

end Oxsx
