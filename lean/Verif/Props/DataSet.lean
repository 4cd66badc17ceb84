import Verif.Model.DataSet
import Verif.Lemmas.Basic
import Verif.Props.Cut
import Mathlib.Data.List.Perm.Basic
import Mathlib.Tactic.Linarith
import Mathlib.Data.Rat.Floor
/-
Property C43: the in-memory data set.
-/
set_option linter.unusedSectionVars false
set_option linter.unusedSimpArgs false
set_option linter.unusedVariables false
namespace Oxsx
variable {α : Type}

namespace DataSet

/-- Every event has the declared, non-zero number of observables. -/
def WF (d : DataSet α) : Prop :=
  (∀ r ∈ d.data, r.length = d.nObs) ∧ (d.data ≠ [] ↔ d.nObs ≠ 0)

instance (d : DataSet α) : Decidable (WF d) := by unfold WF; infer_instance

theorem wf_empty (ns : List String) : WF ((empty : DataSet α).setObservableNames ns) :=
  ⟨by simp [empty, setObservableNames], by simp [empty, setObservableNames]⟩

theorem addEntry_ok {d : DataSet α} {e : Event α} (h0 : e.obs ≠ []) (h : d.nObs = 0 ∨ d.nObs = e.obs.length) :
    d.addEntry e = .ok ⟨d.data ++ [e.obs], d.names, e.obs.length⟩ := by
  unfold addEntry
  rw [if_neg (by rcases h with h | h <;> simp [h]), if_neg (by simpa using h0)]

theorem wf_addEntry {d d' : DataSet α} {e : Event α} (hd : WF d) (h : d.addEntry e = .ok d') : WF d' := by
  unfold addEntry at h
  split at h
  · cases h
  split at h
  · cases h
  · rename_i h1 h2
    cases h
    refine ⟨?_, fun _ => h2, fun _ => by simp⟩
    intro r hr
    rcases List.mem_append.1 hr with hr | hr
    · have := hd.1 r hr
      have := hd.2.1 (List.ne_nil_of_mem hr)
      push Not at h1
      simp only
      rw [hd.1 r hr]; exact h1 this
    · simp at hr; simp [hr]

end DataSet
open DataSet

/-- C43 (adding): an event is accepted exactly when it is not empty and has as many observables as the events
already there; then it is appended under the set's names, everything else unchanged. Otherwise `DimensionError`. -/
theorem C43_add (d : DataSet α) (hd : d.WF) (e : Event α) :
    ((e.obs ≠ [] ∧ ∀ r ∈ d.data, r.length = e.obs.length) →
      ∃ d', d.addEntry e = .ok d' ∧ d'.WF ∧ d'.names = d.names ∧ d'.getNEntries = d.getNEntries + 1 ∧
        d'.getEntry d.getNEntries = .ok ⟨e.obs, some d.names⟩ ∧
        ∀ i, i < d.getNEntries → d'.getEntry i = d.getEntry i) ∧
    ((e.obs = [] ∨ ∃ r ∈ d.data, r.length ≠ e.obs.length) → d.addEntry e = .throw .dimension) := by
  constructor
  · rintro ⟨h1, h2⟩
    have h3 : d.data ≠ [] ∨ d.nObs = 0 := by
      by_cases h : d.data = []
      · right; by_contra h'; exact hd.2.2 h' h
      · exact .inl h
    have h : d.nObs = 0 ∨ d.nObs = e.obs.length := by
      rcases h3 with h3 | h3
      · obtain ⟨r, hr⟩ := List.exists_mem_of_ne_nil _ h3
        right; rw [← hd.1 r hr]; exact h2 r hr
      · exact .inl h3
    have ha := addEntry_ok h1 h
    refine ⟨_, ha, wf_addEntry hd ha, rfl, by simp [getNEntries], ?_, ?_⟩
    · simp [getEntry, getNEntries]
    · intro i hi
      unfold getNEntries at hi
      simp [getEntry, List.getElem?_append_left hi]
  · intro h
    unfold addEntry
    by_cases h0 : d.nObs ≠ 0 ∧ d.nObs ≠ e.obs.length
    · rw [if_pos h0]
    · rw [if_neg h0]
      rcases h with h | ⟨r, hr, hne⟩
      · simp [h]
      · exfalso
        have a := hd.1 r hr
        have b := hd.2.1 (List.ne_nil_of_mem hr)
        exact h0 ⟨b, by rw [← a]; exact hne⟩

/-- C43 (history): starting from an empty set, whatever events were added (rejected ones leave no trace), the set
is well formed; `GetEntry(i)` gives the `i`-th accepted event and an index beyond the last throws `NotFoundError`. -/
theorem C43_entries (ns : List String) (es : List (Event α)) (m : Nat) (hm : 0 < m) (hes : ∀ e ∈ es, e.obs.length = m) :
    ∃ d, Res.forFold addEntry (empty.setObservableNames ns) es = .ok d ∧ d.WF ∧ d.getNEntries = es.length ∧
      (∀ (i : Nat) (e : Event α), es[i]? = some e → d.getEntry i = .ok ⟨e.obs, some ns⟩) ∧
      (∀ i, es.length ≤ i → d.getEntry i = .throw .notFound) := by
  have key : ∀ (es : List (Event α)) (d : DataSet α), d.WF → (d.nObs = 0 ∨ d.nObs = m) →
      (∀ e ∈ es, e.obs.length = m) →
      ∃ d', Res.forFold addEntry d es = .ok d' ∧ d'.WF ∧ d'.names = d.names ∧ d'.data = d.data ++ es.map (·.obs) := by
    intro es
    induction es with
    | nil => intro d hd _ _; exact ⟨d, rfl, hd, rfl, by simp⟩
    | cons e es ih =>
      intro d hd hn he
      have hl := he e List.mem_cons_self
      have ha := addEntry_ok (d := d) (e := e) (by intro h; rw [h] at hl; simp at hl; omega) (by rw [hl]; exact hn)
      obtain ⟨d', h1, h2, h3, h4⟩ := ih _ (wf_addEntry hd ha) (.inr hl) (fun e h => he e (List.mem_cons_of_mem _ h))
      exact ⟨d', by rw [Res.forFold_cons_ok ha, h1], h2, h3, by rw [h4]; simp⟩
  obtain ⟨d, h1, h2, h3, h4⟩ := key es _ (wf_empty ns) (.inl rfl) hes
  have h4 : d.data = es.map (·.obs) := by rw [h4]; simp [empty, setObservableNames]
  refine ⟨d, h1, h2, by simp [getNEntries, h4], ?_, ?_⟩
  · intro i e hi
    simp [getEntry, h4, hi, h3]; rfl
  · intro i hi
    simp [getEntry, h4, List.getElem?_eq_none hi]

example : Res.forFold addEntry (empty.setObservableNames ["e", "r"])
    [⟨[(1 : Int), 2], none⟩, ⟨[3, 4], none⟩] = .ok ⟨[[1, 2], [3, 4]], ["e", "r"], 2⟩ := by decide +kernel

/-- C43 (concatenation): for two compatible sets `a + b` holds the events of `a` then those of `b`, under the names
of `a`. -/
theorem C43_concat_partial (a b : DataSet α) (ha : a.WF) (hb : b.WF) (hab : a.nObs = 0 ∨ b.data = [] ∨ a.nObs = b.nObs) :
    ∃ r a', a.plus b = .ok (r, a') ∧ r.WF ∧ r.data = a.data ++ b.data ∧ r.names = a.names := by
  have key : ∀ k, k ≤ b.data.length → ∃ s, Res.forFold (fun (a : DataSet α) i => do
        let e ← b.getEntry i
        a.addEntry e) a (List.range k) = .ok s ∧
        (s.WF ∧ s.data = a.data ++ b.data.take k ∧ s.names = a.names ∧
        (s.nObs = a.nObs ∨ s.nObs = b.nObs)) := by
    intro k hk
    apply Res.forFold_range (fun k (s : DataSet α) => s.WF ∧ s.data = a.data ++ b.data.take k ∧ s.names = a.names ∧
        (s.nObs = a.nObs ∨ s.nObs = b.nObs))
    · exact ⟨ha, by simp, rfl, .inl rfl⟩
    · rintro i s hi ⟨h1, h2, h3, h4⟩
      have hi' : i < b.data.length := by omega
      have hl := hb.1 _ (List.getElem_mem hi')
      have hne := hb.2.1 (List.ne_nil_of_mem (List.getElem_mem hi'))
      have hadd : s.addEntry ⟨b.data[i], some b.names⟩ = _ := addEntry_ok (d := s)
        (e := ⟨b.data[i], some b.names⟩) (by intro h; simp only at h; rw [h] at hl; simp at hl; exact hne hl.symm) (by
          simp only [hl]
          rcases h4 with h4 | h4
          · rcases hab with h | h | h
            · left; rw [h4, h]
            · rw [h] at hi'; simp at hi'
            · right; rw [h4, h]
          · exact .inr h4)
      refine ⟨_, ?_, wf_addEntry h1 hadd, ?_, h3, .inr hl⟩
      · simp only [getEntry, List.getElem?_eq_getElem hi', Res.ok_bind]; exact hadd
      · simp only [h2, List.append_assoc, List.take_append_getElem]
  obtain ⟨s, h1, h2, h3, h4, _⟩ := key b.data.length le_rfl
  refine ⟨s, s, ?_, h2, by rw [h3, List.take_length], h4⟩
  unfold plus getNEntries
  rw [h1]; rfl

/-- C43 is false of `operator+`: the left operand is modified (it receives the events of the right one) whenever the
right operand is not empty, for all compatible sets. -/
theorem C43_concat_modifies_left_wrong (a b : DataSet α) (ha : a.WF) (hb : b.WF)
    (hab : a.nObs = 0 ∨ a.nObs = b.nObs) (hne : b.data ≠ []) :
    ∃ r a', a.plus b = .ok (r, a') ∧ a'.data = a.data ++ b.data ∧ a' ≠ a := by
  obtain ⟨r, a', h1, h2, h3, h4⟩ := C43_concat_partial a b ha hb (by rcases hab with h | h; exact .inl h; exact .inr (.inr h))
  have : r = a' := by
    unfold plus at h1
    rw [Res.bind_eq_ok] at h1
    obtain ⟨x, _, hx⟩ := h1
    cases hx; rfl
  subst this
  refine ⟨r, r, h1, h3, ?_⟩
  intro h
  rw [h] at h3
  have := congrArg List.length h3
  simp at this
  exact hne this

example : (DataSet.mk [[(1 : Int)]] ["e"] 1).plus ⟨[[2]], ["f"], 1⟩ =
    .ok (⟨[[1], [2]], ["e"], 1⟩, ⟨[[1], [2]], ["e"], 1⟩) := by decide +kernel

/-- C43 is false for `a + a`: on any non-empty set the loop never ends. -/
theorem C43_self_concat_diverges_wrong (a : DataSet α) (ha : a.WF) (hne : a.data ≠ []) (fuel : Nat) :
    DataSet.selfPlusFrom fuel 0 a = none := by
  have key : ∀ fuel i (a : DataSet α), a.WF → i < a.data.length → DataSet.selfPlusFrom fuel i a = none := by
    intro fuel
    induction fuel with
    | zero => intros; rfl
    | succ f ih =>
      intro i a ha hi
      have hl := ha.1 _ (List.getElem_mem hi)
      have hn := ha.2.1 (List.ne_nil_of_mem (List.getElem_mem hi))
      have hadd : a.addEntry ⟨a.data[i], some a.names⟩ = _ := addEntry_ok (d := a)
        (e := ⟨a.data[i], some a.names⟩) (by intro h; simp only at h; rw [h] at hl; simp at hl; exact hn hl.symm)
        (.inr hl.symm)
      unfold DataSet.selfPlusFrom
      rw [if_pos (show i < a.getNEntries from hi)]
      have : (a.getEntry i >>= a.addEntry) = a.addEntry ⟨a.data[i], some a.names⟩ := by
        simp only [getEntry, List.getElem?_eq_getElem hi, Res.ok_bind]
      rw [this, hadd]
      exact ih (i + 1) _ (wf_addEntry ha hadd) (by simp; omega)
  exact key fuel 0 a ha (List.length_pos_of_ne_nil hne)

/-- C43, the other half: on an empty set `a + a` ends at once and leaves it empty. -/
theorem C43_self_concat_empty (ns : List String) (k fuel : Nat) :
    DataSet.selfPlusFrom (fuel + 1) 0 (⟨[], ns, k⟩ : DataSet α) = some (.ok ⟨[], ns, k⟩) := by
  unfold DataSet.selfPlusFrom
  rw [if_neg (by simp [getNEntries])]

example : (DataSet.mk [[(1 : Int)]] ["e"] 1).WF := by decide +kernel

end Oxsx
