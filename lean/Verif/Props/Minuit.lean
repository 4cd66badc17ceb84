import Verif.Model.Minuit
import Verif.Lemmas.Basic
import Verif.Props.SysParams
import Verif.Props.Matrix
import Verif.Props.HistTools
import Mathlib.Tactic.Linarith
import Mathlib.Tactic.Ring
set_option linter.unusedSectionVars false
set_option linter.unusedSimpArgs false
set_option linter.unusedVariables false
/-
C56, C75: the interface to Minuit2.
-/
namespace Oxsx
variable {α : Type} [Field α] [LinearOrder α] [IsStrictOrderedRing α]

/-- A minimiser for `n` parameters that works with vectors of that length and reports a point it asked for, with the value it was given
there; `seen` is what it has been told so far. -/
def MnRun.Honest (n : Nat) : MnRun α → List (List α × α) → Prop
  | .done o, seen => o.params.length = n ∧ (o.params, o.fval) ∈ seen
  | .ask x k, seen => x.length = n ∧ ∀ v, (k v).Honest n ((x, v) :: seen)

/-- A minimiser that reports the smallest of the values it was given. -/
def MnRun.Minimal : MnRun α → List (List α × α) → Prop
  | .done o, seen => ∀ p ∈ seen, o.fval ≤ p.2
  | .ask x k, seen => ∀ v, (k v).Minimal ((x, v) :: seen)

/-- A minimiser whose reported point has a property. -/
def MnRun.Reports (P : List α → Prop) : MnRun α → Prop
  | .done o => P o.params
  | .ask _ k => ∀ v, (k v).Reports P

/-- The dictionary giving the k-th name the k-th value. -/
def pairUp (names : List String) (vals : List α) : ParamDict α := names.zip vals

theorem pairUp_keys {names : List String} {vals : List α} (hl : vals.length = names.length) : (pairUp names vals).keys = names := by
  unfold pairUp SMap.keys; rw [List.map_fst_zip (by omega)]

theorem pairUp_sorted {names : List String} {vals : List α} (hs : names.Pairwise (· < ·)) (hl : vals.length = names.length) : (pairUp names vals).Sorted := by
  have h : (List.map Prod.fst (pairUp names vals)).Pairwise (· < ·) := by
    have := pairUp_keys hl; unfold SMap.keys at this; rw [this]; exact hs
  exact (List.pairwise_map.1 h)

theorem pairUp_find {names : List String} {vals : List α} (hs : names.Pairwise (· < ·)) (hl : vals.length = names.length) {i : Nat} {n : String} {v : α}
    (h1 : names[i]? = some n) (h2 : vals[i]? = some v) : (pairUp names vals).find n = some v := by
  apply SMap.find_of_mem (pairUp_sorted hs hl)
  unfold pairUp
  obtain ⟨a1, a2⟩ := List.getElem?_eq_some_iff.1 h1
  obtain ⟨b1, b2⟩ := List.getElem?_eq_some_iff.1 h2
  have : (names.zip vals)[i]? = some (n, v) := by rw [List.getElem?_zip_eq_some]; exact ⟨h1, h2⟩
  exact List.mem_of_getElem? this

theorem MinuitFCN.setValues_eq {names : List String} (hs : names.Pairwise (· < ·)) {vals : List α} (hl : vals.length = names.length) {m : ParamDict α}
    (hm : m.Sorted) (hk : ∀ k ∈ m.keys, k ∈ names) : setValues m names vals = .ok (pairUp names vals) := by
  unfold setValues
  rw [if_neg (by omega)]
  congr 1
  have hss : ∀ (l m : SMap α), m.Sorted → (l.foldl (fun (m : SMap α) p => SMap.insert p.1 p.2 m) m).Sorted := by
    intro l
    induction l with
    | nil => intro m h; exact h
    | cons p r ih => intro m h; exact ih _ (SMap.sorted_insert h _ _)
  apply SMap.ext (hss _ _ hm) (pairUp_sorted hs hl)
  intro k
  have := find_foldl_insert (pairUp names vals) (pairUp_sorted hs hl) m k
  unfold pairUp at this
  rw [this]
  cases hf : SMap.find (names.zip vals) k with
  | some v => exact hf.symm
  | none =>
    have h0 : k ∉ (pairUp names vals).keys := (SMap.find_none_iff _ _).1 hf
    rw [pairUp_keys hl] at h0
    have : SMap.find m k = none := (SMap.find_none_iff _ _).2 (fun h => h0 (hk k h))
    simp only [this]
    exact hf.symm

/-- C56, one call: the wrapper evaluates the statistic where the k-th parameter (in alphabetical order) has the k-th value, and changes
the sign exactly when maximising. -/
theorem C56_call {f : MinuitFCN α} {t : TestStat α} (ht : f.stat = some t) (hs : f.names.Pairwise (· < ·)) (hm : f.cur.Sorted)
    (hk : ∀ k ∈ f.cur.keys, k ∈ f.names) {vals : List α} (hl : vals.length = f.names.length) :
    f.call vals = (t.eval (pairUp f.names vals) >>= fun v => Res.ok (if f.flip then -v else v, { f with cur := pairUp f.names vals })) := by
  unfold MinuitFCN.call
  rw [ht]
  simp only
  rw [MinuitFCN.setValues_eq hs hl hm hk]
  simp only [Res.ok_bind]
  congr 1
  funext v
  split <;> simp

/-- Running a minimiser. -/
theorem MnRun.run_spec {t : TestStat α} {names : List String} (hs : names.Pairwise (· < ·)) : ∀ (r : MnRun α) (f : MinuitFCN α) (seen : List (List α × α))
    {o : MnOutcome α} {f' : MinuitFCN α} {tr : List (List α × α)},
    f.stat = some t → f.names = names → f.cur.Sorted → (∀ k ∈ f.cur.keys, k ∈ names) → r.Honest names.length seen → r.run f = .ok (o, f', tr) →
    o.params.length = names.length ∧ ((o.params, o.fval) ∈ seen ∨ (o.params, o.fval) ∈ tr) ∧
    (∀ p ∈ tr, p.1.length = names.length ∧ t.eval (pairUp names p.1) = .ok (if f.flip then -p.2 else p.2)) ∧
    f'.stat = some t ∧ f'.names = names ∧ f'.cur.Sorted ∧ (∀ k ∈ f'.cur.keys, k ∈ names) ∧ f'.flip = f.flip ∧ f'.up = f.up ∧
    (r.Minimal seen → ∀ p, p ∈ seen ∨ p ∈ tr → o.fval ≤ p.2) ∧ (∀ P, r.Reports P → P o.params) := by
  intro r
  induction r with
  | done o0 =>
    intro f seen o f' tr h1 h2 h3 h4 hh hr
    cases hr
    exact ⟨hh.1, Or.inl hh.2, by simp, h1, h2, h3, h4, rfl, rfl, fun hm p hp => hm p (by simpa using hp), fun P h => h⟩
  | ask x k ih =>
    intro f seen o f' tr h1 h2 h3 h4 hh hr
    unfold MnRun.run at hr
    obtain ⟨c, hc, hr⟩ := Res.bind_eq_ok.1 hr
    obtain ⟨s, hs', hr⟩ := Res.bind_eq_ok.1 hr
    cases hr
    rw [C56_call h1 (h2 ▸ hs) h3 (h2 ▸ h4) (by rw [h2]; exact hh.1)] at hc
    obtain ⟨v, hv, hc⟩ := Res.bind_eq_ok.1 hc
    cases hc
    rw [h2] at hv
    obtain ⟨a1, a2, a3, a4, a5, a6, a7, a8, a9, a10, a11⟩ := ih (if f.flip then -v else v) { f with cur := pairUp f.names x }
      ((x, if f.flip then -v else v) :: seen) h1 h2 (by rw [h2]; exact pairUp_sorted hs hh.1)
      (by intro k hk; simp only [h2] at hk; rw [pairUp_keys hh.1] at hk; exact hk) (hh.2 _) hs'
    have hbase : t.eval (pairUp names x) = .ok (if f.flip then -(if f.flip then -v else v) else (if f.flip then -v else v)) := by
      rw [hv]; congr 1; split <;> simp
    refine ⟨a1, ?_, ?_, a4, a5, a6, a7, a8, a9, ?_, ?_⟩
    · rcases a2 with h | h
      · rcases List.mem_cons.1 h with h | h
        · right; rw [h]; exact List.mem_cons_self
        · left; exact h
      · right; exact List.mem_cons_of_mem _ h
    · intro p hp
      rcases List.mem_cons.1 hp with h | h
      · rw [h]; exact ⟨hh.1, hbase⟩
      · exact a3 p h
    · intro hm p hp
      apply a10 (hm _) p
      rcases hp with h | h
      · left; exact List.mem_cons_of_mem _ h
      · rcases List.mem_cons.1 h with h | h
        · left; rw [h]; exact List.mem_cons_self
        · right; exact h
    · intro P hP
      exact a11 P (hP _)

theorem MnRun.run_reports : ∀ (r : MnRun α) (f : MinuitFCN α) {o : MnOutcome α} {f' : MinuitFCN α} {tr : List (List α × α)} (P : List α → Prop),
    r.Reports P → r.run f = .ok (o, f', tr) → P o.params := by
  intro r
  induction r with
  | done o0 => intro f o f' tr P hP hr; cases hr; exact hP
  | ask x k ih =>
    intro f o f' tr P hP hr
    unfold MnRun.run at hr
    obtain ⟨c, hc, hr⟩ := Res.bind_eq_ok.1 hr
    obtain ⟨s, hs', hr⟩ := Res.bind_eq_ok.1 hr
    cases hr
    exact ih _ _ P (hP _) hs'

/-- The dictionaries of an optimiser are `std::map`s. -/
structure Minuit.WF (m : Minuit α) : Prop where
  vals : m.initVals.Sorted
  errs : m.initErrs.Sorted
  mins : m.minima.Sorted
  maxs : m.maxima.Sorted
  cur : m.fcn.cur.Sorted

/-- What the parts of `optimise` did, when it succeeded. -/
theorem Minuit.optimise_inv {m m' : Minuit α} {t : TestStat α} {mn : MnSetup α → MnRun α} {r : MinuitResult α} {su : MnSetup α}
    {asked : List (List α × α)} (h : m.optimise t mn = .ok (m', r, su, asked)) :
    ∃ (o : MnOutcome α) (f f' : MinuitFCN α),
      m.checks = .ok () ∧ m.initErrs.keys = m.initVals.keys ∧ t.names = m.initErrs.keys ∧
      Histogram.getValues m.initVals t.names = .ok su.values ∧ Histogram.getValues m.initErrs t.names = .ok su.errors ∧
      su.limits = (m.limits t.names).1 ∧ Res.traverse (Minuit.fixOne t.names) m.fixed = .ok su.fixed ∧ su.up = f.up ∧
      f = { (m.fcn.assign (MinuitFCN.make t t.names)) with flip := m.maximising } ∧ (mn su).run f = .ok (o, f', asked) ∧
      MinuitFCN.setValues [] t.names o.params = .ok r.bestFit ∧ r.valid = o.valid ∧ r.extremeVal = (if m.maximising then -o.fval else o.fval) ∧
      Minuit.covMatrix o.cov = .ok r.covariance ∧ m'.fcn = f' ∧ m'.minima = (m.limits t.names).2.1 ∧ m'.maxima = (m.limits t.names).2.2 := by
  unfold Minuit.optimise at h
  obtain ⟨i, hi, h⟩ := Res.bind_eq_ok.1 h
  unfold Minuit.initialise at hi
  obtain ⟨u, hu, hi⟩ := Res.bind_eq_ok.1 hi
  obtain ⟨vals, hvals, hi⟩ := Res.bind_eq_ok.1 hi
  obtain ⟨errs, herrs, hi⟩ := Res.bind_eq_ok.1 hi
  obtain ⟨u', hu', hi⟩ := Res.bind_eq_ok.1 hi
  cases hi
  by_cases hn : t.names ≠ m.initErrs.keys
  · rw [if_pos hn] at h; cases h
  rw [if_neg hn] at h
  have hn : t.names = m.initErrs.keys := not_not.1 hn
  obtain ⟨fx, hfx, h⟩ := Res.bind_eq_ok.1 h
  obtain ⟨q, hq, h⟩ := Res.bind_eq_ok.1 h
  obtain ⟨best, hbest, h⟩ := Res.bind_eq_ok.1 h
  obtain ⟨c, hc, h⟩ := Res.bind_eq_ok.1 h
  cases h
  have hk : m.initErrs.keys = m.initVals.keys := by
    unfold Minuit.checks at hu
    split at hu
    · cases hu
    · split at hu
      · cases hu
      · rename_i h; exact not_not.1 h
  have hf : ({ (m.fcn.assign (MinuitFCN.make t m.initErrs.keys)) with
      flip := if m.maximising then true else (m.fcn.assign (MinuitFCN.make t m.initErrs.keys)).flip } : MinuitFCN α) =
      { (m.fcn.assign (MinuitFCN.make t m.initErrs.keys)) with flip := m.maximising } := by
    cases m.maximising <;> rfl
  rw [hn]
  refine ⟨q.1, { (m.fcn.assign (MinuitFCN.make t m.initErrs.keys)) with flip := m.maximising }, q.2.1, hu, hk, rfl, hvals, herrs, rfl, hfx, rfl, rfl, ?_,
    hbest, rfl, rfl, hc, rfl, rfl, rfl⟩
  simp only [hf] at hq
  exact hq

/-- C56, a whole fit: the minimiser may ask for whatever points it likes. The statistic is evaluated with the k-th value for the k-th
parameter at every one of them; the best fit has exactly the statistic's parameters; the extreme value reported is the value of the
statistic at the best fit reported; and if the minimiser reports the smallest value it saw, then no point evaluated has a smaller (when
maximising: larger) statistic. (`m.fcn.cur`: nothing left over from a fit with other parameters, see `C56_stale_wrong`.) -/
theorem C56_fit_partial {m m' : Minuit α} {t : TestStat α} {mn : MnSetup α → MnRun α} {r : MinuitResult α} {su : MnSetup α} {asked : List (List α × α)}
    (hw : m.WF) (hcur : ∀ k ∈ m.fcn.cur.keys, k ∈ t.names) (hh : (mn su).Honest t.names.length []) (h : m.optimise t mn = .ok (m', r, su, asked)) :
    r.bestFit.keys = t.names ∧ t.eval r.bestFit = .ok r.extremeVal ∧
    (∀ p ∈ asked, ∃ y, t.eval (pairUp t.names p.1) = .ok y) ∧
    ((mn su).Minimal [] → ∀ p ∈ asked, ∀ y, t.eval (pairUp t.names p.1) = .ok y →
      if m.maximising then y ≤ r.extremeVal else r.extremeVal ≤ y) ∧
    (∀ k ∈ m'.fcn.cur.keys, k ∈ t.names) := by
  obtain ⟨o, f, f', h1, h2, h3, h4, h5, h6, h7, h8, h9, h10, h11, h12, h13, h14, h15, _, _⟩ := Minuit.optimise_inv h
  have hs : t.names.Pairwise (· < ·) := by rw [h3]; exact SMap.sorted_keys hw.errs
  have hflip : f.flip = m.maximising := by rw [h9]
  obtain ⟨a1, a2, a3, a4, a5, a6, a7, a8, a9, a10, a11⟩ := MnRun.run_spec (t := t) hs (mn su) f [] (by rw [h9]; rfl) (by rw [h9]; rfl)
    (by rw [h9]; exact hw.cur) (by rw [h9]; exact hcur) hh h10
  rw [MinuitFCN.setValues_eq hs a1 SMap.sorted_nil (by simp [SMap.keys])] at h11
  have h11 := Res.ok.inj h11
  rw [hflip] at a3
  have a2 : (o.params, o.fval) ∈ asked := by simpa using a2
  rw [← h11]
  refine ⟨pairUp_keys a1, ?_, ?_, ?_, ?_⟩
  · rw [h13]; exact (a3 _ a2).2
  · intro p hp; exact ⟨_, (a3 p hp).2⟩
  · intro hm p hp y hy
    have hle := a10 hm p (Or.inr hp)
    rw [(a3 p hp).2] at hy
    cases hy
    rw [h13]
    split
    · linarith
    · exact hle
  · rw [h15]; exact a7

/-- C56, fixed parameters: if the minimiser leaves the parameters it is told to fix at their initial values, the best fit has, for each name
given to `Fix`, the initial value given for that name. -/
theorem C56_fixed {m m' : Minuit α} {t : TestStat α} {mn : MnSetup α → MnRun α} {r : MinuitResult α} {su : MnSetup α} {asked : List (List α × α)}
    (hw : m.WF) (hr : (mn su).Reports (fun x => x.length = t.names.length ∧ ∀ i ∈ su.fixed, x[i]? = su.values[i]?))
    (h : m.optimise t mn = .ok (m', r, su, asked)) : ∀ n ∈ m.fixed, n ∈ t.names ∧ r.bestFit.find n = m.initVals.find n := by
  obtain ⟨o, f, f', h1, h2, h3, h4, h5, h6, h7, h8, h9, h10, h11, h12, h13, h14, h15, _, _⟩ := Minuit.optimise_inv h
  have hs : t.names.Pairwise (· < ·) := by rw [h3]; exact SMap.sorted_keys hw.errs
  obtain ⟨hl, hfix⟩ := MnRun.run_reports _ _ _ hr h10
  rw [MinuitFCN.setValues_eq hs hl SMap.sorted_nil (by simp [SMap.keys])] at h11
  have h11 := Res.ok.inj h11
  intro n hn
  obtain ⟨j, hj⟩ := List.mem_iff_getElem?.1 hn
  obtain ⟨i, hi, hfi⟩ := Res.traverse_get h7 j n hj
  unfold Minuit.fixOne at hfi
  cases hp : findPos t.names n with
  | none => rw [hp] at hfi; cases hfi
  | some i' =>
    rw [hp] at hfi
    cases hfi
    have hni := findPos_some hp
    refine ⟨List.mem_of_getElem? hni, ?_⟩
    obtain ⟨v, hv, hlook⟩ := Res.traverse_get h4 i n hni
    have hx := hfix i (List.mem_of_getElem? hi)
    rw [hv] at hx
    have e1 := pairUp_find hs hl hni hx
    rw [← h11]
    refine Eq.trans e1 ?_
    have e2 : List.lookup n m.initVals = m.initVals.find n := SMap.lookup_eq_find _ _
    rw [e2] at hlook
    cases hfv : m.initVals.find n with
    | none => rw [hfv] at hlook; cases hlook
    | some w => rw [hfv] at hlook; cases hlook; rfl

/-- C56, what is fixed: after any sequence of `Fix` and `Release`, the minimiser is told to fix exactly the parameters whose last call was
`Fix`, each at its own position. -/
theorem C56_fix_release {m m' : Minuit α} {t : TestStat α} {mn : MnSetup α → MnRun α} {r : MinuitResult α} {su : MnSetup α} {asked : List (List α × α)}
    (calls : List (Bool × String)) (hm : m.fixed = [])
    (h : (calls.foldl (fun (m : Minuit α) c => if c.1 then m.fix c.2 else m.release c.2) m).optimise t mn = .ok (m', r, su, asked)) :
    ∀ i n, t.names[i]? = some n → t.names.Nodup → (i ∈ su.fixed ↔ ∃ pre post, calls = pre ++ (true, n) :: post ∧ ∀ c ∈ post, c.2 ≠ n) := by
  have key : ∀ (calls : List (Bool × String)) (m : Minuit α) (n : String),
      (n ∈ (calls.foldl (fun (m : Minuit α) c => if c.1 then m.fix c.2 else m.release c.2) m).fixed ↔
        (∃ pre post, calls = pre ++ (true, n) :: post ∧ ∀ c ∈ post, c.2 ≠ n) ∨ (n ∈ m.fixed ∧ ∀ c ∈ calls, c.2 ≠ n)) := by
    intro calls
    induction calls with
    | nil => intro m n; simp
    | cons c calls ih =>
      intro m n
      rw [List.foldl_cons, ih]
      have hstep : n ∈ (if c.1 then m.fix c.2 else m.release c.2).fixed ↔ (c = (true, n)) ∨ (n ∈ m.fixed ∧ c.2 ≠ n) := by
        obtain ⟨b, k⟩ := c
        cases b with
        | true =>
          simp only [if_true, Minuit.fix]
          by_cases hk : k ∈ m.fixed
          · rw [if_pos hk]
            by_cases e : k = n
            · subst e; simp [hk]
            · simp [e]
          · rw [if_neg hk]
            by_cases e : k = n
            · subst e; simp
            · simp [e, Ne.symm e]
        | false =>
          simp only [Bool.false_eq_true, if_false, Minuit.release, List.mem_filter]
          constructor
          · rintro ⟨h1, h2⟩
            exact Or.inr ⟨h1, fun e => by simp [e] at h2⟩
          · rintro (h1 | ⟨h1, h2⟩)
            · cases h1
            · exact ⟨h1, by simpa using fun e => h2 e.symm⟩
      rw [hstep]
      constructor
      · rintro (⟨pre, post, rfl, hp⟩ | ⟨hc | ⟨hn, hne⟩, hall⟩)
        · exact Or.inl ⟨c :: pre, post, rfl, hp⟩
        · exact Or.inl ⟨[], calls, by rw [hc]; rfl, hall⟩
        · exact Or.inr ⟨hn, List.forall_mem_cons.2 ⟨hne, hall⟩⟩
      · rintro (⟨pre, post, he, hp⟩ | ⟨hn, hall⟩)
        · cases pre with
          | nil =>
            simp only [List.nil_append, List.cons.injEq] at he
            obtain ⟨rfl, rfl⟩ := he
            exact Or.inr ⟨Or.inl rfl, hp⟩
          | cons a pre =>
            simp only [List.cons_append, List.cons.injEq] at he
            obtain ⟨rfl, rfl⟩ := he
            exact Or.inl ⟨pre, post, rfl, hp⟩
        · exact Or.inr ⟨Or.inr ⟨hn, hall c (by simp)⟩, fun x hx => hall x (by simp [hx])⟩
  intro i n hin hnd
  obtain ⟨o, f, f', h1, h2, h3, h4, h5, h6, h7, _⟩ := Minuit.optimise_inv h
  have hk := key calls m n
  rw [hm] at hk
  simp only [List.not_mem_nil, false_and, or_false] at hk
  rw [← hk]
  constructor
  · intro hi
    obtain ⟨j, hj⟩ := List.mem_iff_getElem?.1 hi
    have hjl : j < (calls.foldl (fun (m : Minuit α) c => if c.1 then m.fix c.2 else m.release c.2) m).fixed.length := by
      rw [← Res.traverse_length h7]; exact (List.getElem?_eq_some_iff.1 hj).1
    obtain ⟨i', hi', hfi⟩ := Res.traverse_get h7 j _ (List.getElem?_eq_getElem hjl)
    rw [hj] at hi'
    cases hi'
    unfold Minuit.fixOne at hfi
    cases hp : findPos t.names ((calls.foldl (fun (m : Minuit α) c => if c.1 then m.fix c.2 else m.release c.2) m).fixed[j]) with
    | none => rw [hp] at hfi; cases hfi
    | some i' =>
      rw [hp] at hfi
      cases hfi
      have := findPos_some hp
      rw [hin] at this
      cases this
      exact List.getElem_mem hjl
  · intro hn
    obtain ⟨j, hj⟩ := List.mem_iff_getElem?.1 hn
    obtain ⟨i', hi', hfi⟩ := Res.traverse_get h7 j n hj
    unfold Minuit.fixOne at hfi
    cases hp : findPos t.names n with
    | none => rw [hp] at hfi; cases hfi
    | some i'' =>
      rw [hp] at hfi
      cases hfi
      have hs := findPos_some hp
      have e : i = i' := by
        obtain ⟨a1, a2⟩ := List.getElem?_eq_some_iff.1 hin
        obtain ⟨b1, b2⟩ := List.getElem?_eq_some_iff.1 hs
        exact (List.Nodup.getElem_inj_iff hnd).1 (a2.trans b2.symm)
      rw [e]
      exact List.mem_of_getElem? hi'

/-- C56, limits: with minima and maxima for the statistic's parameters, and a minimiser that keeps the limits it is given, every best-fit
value lies between the minimum and the maximum given for its own name. -/
theorem C56_limits {m m' : Minuit α} {t : TestStat α} {mn : MnSetup α → MnRun α} {r : MinuitResult α} {su : MnSetup α} {asked : List (List α × α)}
    (hw : m.WF) (hmin : m.minima.keys = t.names) (hne : t.names ≠ [])
    (hr : (mn su).Reports (fun x => x.length = t.names.length ∧ ∀ (i : Nat) (v : α) (l : α × α), x[i]? = some v → su.limits[i]? = some l → l.1 ≤ v ∧ v ≤ l.2))
    (h : m.optimise t mn = .ok (m', r, su, asked)) :
    ∀ n ∈ t.names, ∃ v lo hi, r.bestFit.find n = some v ∧ m.minima.find n = some lo ∧ m.maxima.find n = some hi ∧ lo ≤ v ∧ v ≤ hi ∧ lo < hi := by
  obtain ⟨o, f, f', h1, h2, h3, h4, h5, h6, h7, h8, h9, h10, h11, h12, h13, h14, h15, _, _⟩ := Minuit.optimise_inv h
  have hs : t.names.Pairwise (· < ·) := by rw [h3]; exact SMap.sorted_keys hw.errs
  obtain ⟨hl, hlim⟩ := MnRun.run_reports _ _ _ hr h10
  rw [MinuitFCN.setValues_eq hs hl SMap.sorted_nil (by simp [SMap.keys])] at h11
  have h11 := Res.ok.inj h11
  -- the checks
  have hmm : m.minima.keys = m.maxima.keys := by
    unfold Minuit.checks at h1
    split at h1
    · cases h1
    · rename_i h; exact not_not.1 h
  have hrange : ∀ p ∈ m.minima, p.2 < (m.maxima.find p.1).getD 0 := by
    unfold Minuit.checks at h1
    split at h1
    · cases h1
    · split at h1
      · cases h1
      · have gen : ∀ l : ParamDict α, Res.forFold (fun _ p => Minuit.checkRange m.maxima p) () l = .ok () → ∀ p ∈ l, p.2 < (m.maxima.find p.1).getD 0 := by
          intro l
          induction l with
          | nil => intro _ p hp; simp at hp
          | cons q l ih =>
            intro hl p hp
            obtain ⟨u, hu, hl⟩ := Res.forFold_cons_eq_ok.1 hl
            rcases List.mem_cons.1 hp with h | h
            · rw [h]; unfold Minuit.checkRange at hu; exact not_le.1 (Res.throwIf_eq_ok.1 hu)
            · exact ih hl p h
        exact gen _ h1
  intro n hn
  obtain ⟨i, hi⟩ := List.mem_iff_getElem?.1 hn
  have hlt : i < o.params.length := by rw [hl]; exact (List.getElem?_eq_some_iff.1 hi).1
  have hv := List.getElem?_eq_getElem hlt
  obtain ⟨lo, hlo⟩ := Option.isSome_iff_exists.1 ((SMap.find_isSome_iff m.minima n).2 (by rw [hmin]; exact hn))
  obtain ⟨hi', hhi⟩ := Option.isSome_iff_exists.1 ((SMap.find_isSome_iff m.maxima n).2 (by rw [← hmm, hmin]; exact hn))
  have htouch : ∀ (l : List String) (d : ParamDict α) (x : α), d.find n = some x → (Minuit.touch d l).find n = some x := by
    intro l
    induction l with
    | nil => intro d x h; exact h
    | cons a l ih => intro d x h; exact ih _ _ (by rw [SMap.find_insertNew, h]; rfl)
  have hne' : m.minima.length ≠ 0 ∧ m.maxima.length ≠ 0 := by
    have e1 : m.minima.length = t.names.length := by rw [← hmin]; simp [SMap.keys]
    have e2 : m.maxima.length = t.names.length := by rw [← hmin, hmm]; simp [SMap.keys]
    have : t.names.length ≠ 0 := fun h => hne (List.length_eq_zero_iff.1 h)
    exact ⟨by omega, by omega⟩
  have hli : su.limits[i]? = some (lo, hi') := by
    rw [h6]
    unfold Minuit.limits
    rw [if_pos hne']
    simp only [List.getElem?_map, hi, Option.map_some, htouch _ _ _ hlo, htouch _ _ _ hhi, Option.getD_some]
  obtain ⟨b1, b2⟩ := hlim i _ _ hv hli
  have hr := hrange (n, lo) (SMap.find_mem hlo)
  rw [hhi] at hr
  rw [← h11]
  exact ⟨_, lo, hi', pairUp_find hs hl hi hv, hlo, hhi, b1, b2, hr⟩

/-- C56, refused settings: a logic error, and the statistic is never evaluated, if minima and maxima are for different parameters, or
initial values and errors are, or a minimum is not below its maximum, or the parameters are not the statistic's, or a name to fix is not a
parameter (with a legal method). -/
theorem C56_refused {m : Minuit α} {t : TestStat α} {mn : MnSetup α → MnRun α} (hw : m.WF) (hmeth : m.method ∈ ["Migrad", "Minimize", "Simplex"])
    (h : m.minima.keys ≠ m.maxima.keys ∨ m.initErrs.keys ≠ m.initVals.keys ∨
      (∃ n lo hi, m.minima.find n = some lo ∧ m.maxima.find n = some hi ∧ hi ≤ lo) ∨ t.names ≠ m.initErrs.keys ∨ ∃ n ∈ m.fixed, n ∉ t.names) :
    m.optimise t mn = .throw .logic := by
  have hm' : Minuit.checkMethod m.method = .ok () := by
    unfold Minuit.checkMethod
    rw [Res.throwIf_eq_ok]
    simp only [List.mem_cons, List.not_mem_nil, or_false] at hmeth
    tauto
  have chk : ∀ l : ParamDict α, (∀ u, Res.forFold (fun _ p => Minuit.checkRange m.maxima p) () l = .ok u →
      ∀ p ∈ l, p.2 < (m.maxima.find p.1).getD 0) ∧ (Res.forFold (fun _ p => Minuit.checkRange m.maxima p) () l = .ok () ∨
      Res.forFold (fun _ p => Minuit.checkRange m.maxima p) () l = .throw .logic) := by
    intro l
    induction l with
    | nil => exact ⟨fun _ _ p hp => by simp at hp, Or.inl rfl⟩
    | cons q l ih =>
      constructor
      · intro u hl p hp
        obtain ⟨u', hu, hl⟩ := Res.forFold_cons_eq_ok.1 hl
        rcases List.mem_cons.1 hp with h | h
        · rw [h]; unfold Minuit.checkRange at hu; exact not_le.1 (Res.throwIf_eq_ok.1 hu)
        · exact ih.1 u hl p h
      · by_cases hq : q.2 ≥ (m.maxima.find q.1).getD 0
        · right
          have : Minuit.checkRange m.maxima q = .throw .logic := by unfold Minuit.checkRange Res.throwIf; rw [if_pos hq]
          simp only [Res.forFold, this]
        · have : Minuit.checkRange m.maxima q = .ok () := by unfold Minuit.checkRange Res.throwIf; rw [if_neg hq]
          simp only [Res.forFold, this]
          exact ih.2
  by_cases c1 : m.minima.keys = m.maxima.keys
  swap
  · unfold Minuit.optimise Minuit.initialise Minuit.checks; rw [if_pos c1]; rfl
  by_cases c2 : m.initErrs.keys = m.initVals.keys
  swap
  · unfold Minuit.optimise Minuit.initialise Minuit.checks; rw [if_neg (not_not.2 c1), if_pos c2]; rfl
  have hck : m.checks = Res.forFold (fun _ p => Minuit.checkRange m.maxima p) () m.minima := by
    unfold Minuit.checks; rw [if_neg (not_not.2 c1), if_neg (not_not.2 c2)]
  rcases (chk m.minima).2 with c3 | c3
  swap
  · unfold Minuit.optimise Minuit.initialise; rw [hck, c3]; rfl
  have hno : ¬ ∃ n lo hi, m.minima.find n = some lo ∧ m.maxima.find n = some hi ∧ hi ≤ lo := by
    rintro ⟨n, lo, hi, a, b, c⟩
    have := (chk m.minima).1 () c3 (n, lo) (SMap.find_mem a)
    simp only [b, Option.getD_some] at this
    exact absurd this (not_lt.2 c)
  have gv : ∀ d : ParamDict α, ∀ ks : List String, (∀ k ∈ ks, k ∈ d.keys) → ∃ vs, Histogram.getValues d ks = .ok vs := by
    intro d ks hks
    refine ⟨ks.map (fun k => (d.find k).getD 0), ?_⟩
    unfold Histogram.getValues
    apply Res.traverse_ok
    intro k hk
    obtain ⟨x, hx⟩ := Option.isSome_iff_exists.1 ((SMap.find_isSome_iff d k).2 (hks k hk))
    rw [SMap.lookup_eq_find, hx]; rfl
  obtain ⟨vs, hvs⟩ := gv m.initVals m.initErrs.keys (fun k hk => by rw [← c2]; exact hk)
  obtain ⟨es, hes⟩ := gv m.initErrs m.initErrs.keys (fun k hk => hk)
  unfold Minuit.optimise Minuit.initialise
  rw [hck, c3, Res.ok_bind, hvs, Res.ok_bind, hes, Res.ok_bind, hm', Res.ok_bind, Res.ok_bind]
  by_cases c4 : t.names = m.initErrs.keys
  swap
  · rw [if_pos c4]
  rw [if_neg (not_not.2 c4)]
  have hfx : ∃ n ∈ m.fixed, n ∉ t.names := by
    rcases h with h | h | h | h | h
    · exact absurd c1 h
    · exact absurd c2 h
    · exact absurd h hno
    · exact absurd c4 h
    · exact h
  have tr : ∀ l : List String, (∃ n ∈ l, n ∉ m.initErrs.keys) → Res.traverse (Minuit.fixOne m.initErrs.keys) l = .throw .logic := by
    intro l
    induction l with
    | nil => rintro ⟨n, hn, _⟩; simp at hn
    | cons a l ih =>
      rintro ⟨n, hn, hn'⟩
      by_cases ha : a ∈ m.initErrs.keys
      · have : ∃ i, Minuit.fixOne m.initErrs.keys a = .ok i := by
          unfold Minuit.fixOne
          cases hp : findPos m.initErrs.keys a with
          | some i => exact ⟨i, rfl⟩
          | none => exact absurd ha (findPos_none.1 hp)
        obtain ⟨i, hi⟩ := this
        have h2 : ∃ n ∈ l, n ∉ m.initErrs.keys := by
          rcases List.mem_cons.1 hn with h | h
          · exact absurd (h ▸ ha) hn'
          · exact ⟨n, h, hn'⟩
        simp only [Res.traverse, hi, ih h2]
      · have : Minuit.fixOne m.initErrs.keys a = .throw .logic := by
          unfold Minuit.fixOne
          cases hp : findPos m.initErrs.keys a with
          | some i => exact absurd (List.mem_of_getElem? (findPos_some hp)) ha
          | none => rfl
        simp only [Res.traverse, this]
  rw [tr m.fixed (by rw [← c4]; exact hfx)]
  rfl

/-- C56, the covariance: a packed list of k(k+1)/2 numbers becomes the symmetric k by k matrix whose entry (i, j), j ≤ i, is number
i(i+1)/2 + j; a list of any other length is a dimension error. -/
theorem C56_covariance (v : List α) :
    (∀ k : Nat, v.length = k * (k + 1) / 2 → ∃ c, Minuit.covMatrix v = .ok c ∧ c.nRows = k ∧ c.nCols = k ∧
      ∀ i j, i < k → j ≤ i → ∃ x, v[i * (i + 1) / 2 + j]? = some x ∧ c.getComponent i j = .ok x ∧ c.getComponent j i = .ok x) ∧
    ((¬ ∃ k : Nat, v.length = k * (k + 1) / 2) → Minuit.covMatrix v = .throw .dimension) := by
  constructor
  · intro k hk
    have hrow : (Nat.sqrt (8 * v.length + 1) - 1) / 2 = k := by
      have e : 2 * (k * (k + 1) / 2) = k * (k + 1) := Nat.mul_div_cancel' (Nat.even_mul_succ_self k).two_dvd
      have : 8 * v.length + 1 = (2 * k + 1) * (2 * k + 1) := by
        rw [hk, show 8 * (k * (k + 1) / 2) = 4 * (2 * (k * (k + 1) / 2)) by ring, e]; ring
      rw [this, Nat.sqrt_eq]
      omega
    unfold Minuit.covMatrix
    simp only [hrow]
    exact (C19_symmetric (Matrix'.mk' k k) ⟨rfl, rfl⟩ v).2 rfl hk.symm
  · intro hno
    unfold Minuit.covMatrix
    simp only
    exact (C19_symmetric (Matrix'.mk' _ _) ⟨rfl, rfl⟩ v).1 (Or.inr fun h => hno ⟨_, h.symm⟩)

/-- C75: `SetUpperContourEdge` has no effect on a fit: the minimiser is always set up with 1/2, and afterwards the edge reads 1/2. -/
theorem C75_contour_edge_wrong (m : Minuit α) (t : TestStat α) (mn : MnSetup α → MnRun α) (v : α) :
    (m.setUpperContourEdge v).getUpperContourEdge = v ∧ (m.setUpperContourEdge v).optimise t mn = m.optimise t mn ∧
    (∀ m' r su asked, (m.setUpperContourEdge v).optimise t mn = .ok (m', r, su, asked) → su.up = 1 / 2 ∧ m'.getUpperContourEdge = 1 / 2) := by
  have key : (m.setUpperContourEdge v).optimise t mn = m.optimise t mn := rfl
  refine ⟨rfl, key, ?_⟩
  intro m' r su asked h
  obtain ⟨o, f, f', h1, h2, h3, h4, h5, h6, h7, h8, h9, h10, h11, h12, h13, h14, h15, _, _⟩ := Minuit.optimise_inv h
  have up : ∀ (r : MnRun α) (f : MinuitFCN α) {o : MnOutcome α} {f' : MinuitFCN α} {tr : List (List α × α)},
      r.run f = .ok (o, f', tr) → f'.up = f.up := by
    intro r
    induction r with
    | done o0 => intro f o f' tr hr; cases hr; rfl
    | ask x k ih =>
      intro f o f' tr hr
      unfold MnRun.run at hr
      obtain ⟨c, hc, hr⟩ := Res.bind_eq_ok.1 hr
      obtain ⟨s, hs', hr⟩ := Res.bind_eq_ok.1 hr
      cases hr
      rw [ih _ _ hs']
      unfold MinuitFCN.call at hc
      split at hc
      · cases hc
      · obtain ⟨d, hd, hc⟩ := Res.bind_eq_ok.1 hc
        obtain ⟨y, hy, hc⟩ := Res.bind_eq_ok.1 hc
        cases hc; rfl
  refine ⟨by rw [h8, h9]; rfl, ?_⟩
  unfold Minuit.getUpperContourEdge
  rw [h15, up _ _ h10, h9]; rfl

/-! Concrete cases. -/

/-- A statistic of two parameters: (a - 1)² + (b - 2)², refusing any other set of parameters. -/
def twoStat : TestStat ℚ := ⟨["a", "b"], fun d => if d.keys = ["a", "b"] then
  .ok (((d.find "a").getD 0 - 1) ^ 2 + ((d.find "b").getD 0 - 2) ^ 2) else .throw .parameter⟩

/-- A statistic of one parameter, refusing any other set of parameters. -/
def oneStat : TestStat ℚ := ⟨["a"], fun d => if d.keys = ["a"] then .ok ((d.find "a").getD 0 ^ 2) else .throw .parameter⟩

/-- A small minimiser: tries the initial values, then 1 and 2, and reports the better. -/
def smallMn (y : List ℚ) (cov : List ℚ) (s : MnSetup ℚ) : MnRun ℚ :=
  .ask s.values fun v => .ask y fun w => if v ≤ w then .done ⟨s.values, v, true, cov⟩ else .done ⟨y, w, true, cov⟩

theorem smallMn_ok (y cov : List ℚ) (s : MnSetup ℚ) (n : Nat) (h1 : s.values.length = n) (h2 : y.length = n) :
    (smallMn y cov s).Honest n [] ∧ (smallMn y cov s).Minimal [] := by
  unfold smallMn
  refine ⟨⟨h1, fun v => ⟨h2, fun w => ?_⟩⟩, fun v w => ?_⟩ <;> beta_reduce
  · split
    · exact ⟨h1, by simp⟩
    · exact ⟨h2, by simp⟩
  · split
    · rename_i h
      intro p hp
      simp only [List.mem_cons, List.not_mem_nil, or_false] at hp
      rcases hp with rfl | rfl
      · exact h
      · exact le_refl _
    · rename_i h
      intro p hp
      simp only [List.mem_cons, List.not_mem_nil, or_false] at hp
      rcases hp with rfl | rfl
      · exact le_refl _
      · exact (not_le.1 h).le

def twoMinuit : Minuit ℚ := { (Minuit.new : Minuit ℚ) with
  initVals := [("a", 0), ("b", 0)], initErrs := [("a", 1), ("b", 1)], minima := [("a", -3), ("b", -4)], maxima := [("a", 3), ("b", 4)] }

/-- The fits of the examples, as (best fit, extreme value, fixed positions, limits). -/
def mnShow (m : Minuit ℚ) (t : TestStat ℚ) (mn : MnSetup ℚ → MnRun ℚ) : Res (ParamDict ℚ × ℚ × List Nat × List (ℚ × ℚ) × List (List ℚ × ℚ)) :=
  m.optimise t mn >>= fun r => Res.ok (r.2.1.bestFit, r.2.1.extremeVal, r.2.2.1.fixed, r.2.2.1.limits, r.2.2.2)

set_option synthInstance.maxSize 4000 in
set_option synthInstance.maxHeartbeats 400000 in
example : mnShow twoMinuit twoStat (smallMn [1, 2] [1, 0, 1]) =
    .ok ([("a", 1), ("b", 2)], 0, [], [(-3, 3), (-4, 4)], [([0, 0], 5), ([1, 2], 0)]) := by decide +kernel

set_option synthInstance.maxSize 4000 in
set_option synthInstance.maxHeartbeats 400000 in
example : mnShow { twoMinuit with maximising := true } twoStat (smallMn [1, 2] [1, 0, 1]) =
    .ok ([("a", 0), ("b", 0)], 5, [], [(-3, 3), (-4, 4)], [([0, 0], -5), ([1, 2], 0)]) := by decide +kernel

set_option synthInstance.maxSize 4000 in
set_option synthInstance.maxHeartbeats 400000 in
example : mnShow (twoMinuit.fix "b") twoStat (smallMn [1, 0] [1, 0, 1]) =
    .ok ([("a", 1), ("b", 0)], 4, [1], [(-3, 3), (-4, 4)], [([0, 0], 5), ([1, 0], 4)]) := by decide +kernel

example : twoMinuit.WF ∧ ∀ k ∈ twoMinuit.fcn.cur.keys, k ∈ twoStat.names :=
  ⟨⟨by decide +kernel, by decide +kernel, by decide +kernel, by decide +kernel, by decide +kernel⟩, by decide +kernel⟩

example : twoMinuit.method ∈ ["Migrad", "Minimize", "Simplex"] ∧ ∃ n ∈ (twoMinuit.fix "z").fixed, n ∉ twoStat.names := by decide +kernel

/-- C56, why `_partial`: the values of an earlier fit stay in the wrapper. An optimiser that has fitted a statistic of `a` and `b` cannot
afterwards fit one of `a` alone, which a fresh optimiser with the same settings can. -/
theorem C56_stale_wrong : (twoMinuit.optimise twoStat (smallMn [1, 2] [1, 0, 1])).isOk = true ∧
    (twoMinuit.optimise twoStat (smallMn [1, 2] [1, 0, 1]) >>= fun r =>
      { r.1 with initVals := [("a", 5)], initErrs := [("a", 1)], minima := [], maxima := [] }.optimise oneStat (smallMn [0] [1]) >>= fun r =>
        Res.ok r.2.1.bestFit) = .throw .parameter ∧
    ({ twoMinuit with initVals := [("a", 5)], initErrs := [("a", 1)], minima := [], maxima := [] }.optimise oneStat (smallMn [0] [1]) >>= fun r =>
        Res.ok r.2.1.bestFit) = .ok [("a", 0)] := by
  decide +kernel

/-- Non-vacuity of `C56_fix_release`: `b` is fixed and released, `a` released and fixed: only position 0 is fixed. -/
example : twoMinuit.fixed = [] ∧
    (([(true, "b"), (false, "a"), (true, "a"), (false, "b")].foldl (fun (m : Minuit ℚ) c => if c.1 then m.fix c.2 else m.release c.2) twoMinuit).optimise
      twoStat (smallMn [1, 2] [1, 0, 1]) >>= fun r => Res.ok r.2.2.1.fixed) = .ok [0] := by decide +kernel

end Oxsx
