import Verif.Props.SystematicManager
/-
What the systematic manager answers about its groups after any history of registration calls (C26), and the one parameter of
`Scale` and `Shift` (C71).
-/
set_option linter.unusedSectionVars false
set_option linter.unusedSimpArgs false
set_option linter.unusedVariables false
namespace Oxsx
open SysLog
variable {α : Type} [Field α] [LinearOrder α] [IsStrictOrderedRing α]

namespace SysManager

/-- `fNGroups` is set by the first `Add` and is the number of groups from then on. -/
def Counted (m : SysManager α) : Prop :=
  (m.nGroups = none ∧ m.groups.flatMap (·.2) = []) ∨ (m.nGroups = some m.groups.length ∧ m.groups.flatMap (·.2) ≠ [])

theorem counted_push (m : SysManager α) (hs : SMap.Sorted m.groups) (p : Nat) (g : String) : (m.push p g).Counted := by
  right
  refine ⟨rfl, ?_⟩
  intro h
  have hm : (g, ((SMap.find m.groups g).getD []) ++ [p]) ∈ (m.push p g).groups := by
    apply SMap.find_mem
    show SMap.find (m.groups.insert g _) g = _
    rw [SMap.find_insert]; simp
  have : p ∈ (m.push p g).groups.flatMap (·.2) := List.mem_flatMap.2 ⟨_, hm, by simp⟩
  rw [h] at this; simp at this

theorem counted_exec (name : Nat → String) (m m' : SysManager α) (hs : SMap.Sorted m.groups) (hc : m.Counted) (c : ManagerCall)
    (h : m.exec name c = .ok m') : m'.Counted := by
  cases c with
  | add p =>
    simp only [exec, SysManager.add] at h
    obtain ⟨_, _, h⟩ := Res.bind_eq_ok.1 h
    cases h
    exact counted_push m hs p ""
  | addTo p g =>
    simp only [exec, SysManager.addTo] at h
    split at h
    · simp only [SysManager.add] at h
      obtain ⟨_, _, h⟩ := Res.bind_eq_ok.1 h
      cases h
      exact counted_push m hs p ""
    · cases h
      exact counted_push m hs p g
  | addDist d gs =>
    simp only [exec, SysManager.addDist] at h
    obtain ⟨_, _, h⟩ := Res.bind_eq_ok.1 h
    cases h
    exact hc

theorem counted_run (name : Nat → String) (calls : List ManagerCall) : (run name calls : SysManager α).Counted := by
  have key : ∀ (calls : List ManagerCall) (m : SysManager α) (log : List ManagerCall), Rel m log → m.Counted →
      (calls.foldl (fun m c => match m.exec name c with
        | .ok m' => m'
        | _ => m) m).Counted := by
    intro calls
    induction calls with
    | nil => intro m log _ h; exact h
    | cons c calls ih =>
      intro m log hr h
      simp only [List.foldl_cons]
      rcases rel_exec name hr c with ⟨h1, m', h2, h3⟩ | ⟨h1, h2⟩
      · rw [h2]; exact ih m' _ h3 (counted_exec name m m' hr.sorted h c h2)
      · rcases h2 with h2 | h2 <;> rw [h2] <;> exact ih m log hr h
  exact key calls _ _ rel_new (Or.inl ⟨rfl, rfl⟩)

end SysManager

/-- **C26 (what the manager answers).** After any sequence of registration calls, some of them refused: the group names are the
global group and the groups something was added to, each once and in alphabetical order; the names listed for a known group are
those of the systematics added to it, in the order added; for an unknown one NotFoundError is thrown; the number of systematics
is the number of accepted additions; the number in a known group is the number added to it; and once something was
added the number of groups is the number of group names. -/
theorem C26_queries_partial (name : Nat → String) (calls : List ManagerCall) :
    (∀ g, g ∈ (SysManager.run name calls : SysManager α).getGroupNames ↔ Known (ofCalls name calls) g) ∧
    (SysManager.run name calls : SysManager α).getGroupNames.Pairwise (· < ·) ∧
    (∀ g, Known (ofCalls name calls) g → (SysManager.run name calls : SysManager α).getSystematicsNamesInGroup name g =
      .ok ((members (ofCalls name calls) g).map name)) ∧
    (∀ g, ¬ Known (ofCalls name calls) g →
      (SysManager.run name calls : SysManager α).getSystematicsNamesInGroup name g = .throw .notFound) ∧
    (SysManager.run name calls : SysManager α).countSystematics = (added (ofCalls name calls)).length ∧
    (∀ g, Known (ofCalls name calls) g → (SysManager.run name calls : SysManager α).getNSystematicsInGroup g =
      .ok (members (ofCalls name calls) g).length) ∧
    (added (ofCalls name calls) ≠ [] → (SysManager.run name calls : SysManager α).getNGroups =
      .ok (SysManager.run name calls : SysManager α).getGroupNames.length) := by
  have hr := SysManager.rel_run (α := α) name calls
  have hc := SysManager.counted_run (α := α) name calls
  refine ⟨fun g => ?_, SMap.sorted_keys hr.sorted, fun g hk => ?_, fun g hk => ?_, ?_, fun g hk => ?_, fun ha => ?_⟩
  · have h := hr.groups g
    unfold SysManager.getGroupNames
    rw [← SMap.find_isSome_iff, h]
    split <;> simp_all
  · simp only [SysManager.getSystematicsNamesInGroup, hr.groups g, if_pos hk]
  · simp only [SysManager.getSystematicsNamesInGroup, hr.groups g, if_neg hk]
  · rw [← hr.perm.length_eq, SysManager.countSystematics, List.length_flatMap]
  · simp only [SysManager.getNSystematicsInGroup, hr.groups g, if_pos hk]
  · rcases hc with ⟨h1, h2⟩ | ⟨h1, h2⟩
    · exfalso
      have := hr.perm
      rw [h2] at this
      exact ha (List.nil_perm.1 this)
    · simp only [SysManager.getNGroups, h1, SysManager.getGroupNames, SMap.keys, List.length_map]

/-- **C26 (what it does not answer).** Asking a manager for the number of systematics in an unknown group, or a new manager
for its number of groups, is undefined behaviour: the first dereferences `end()`, the second reads an uninitialised member.
The documented NotFoundError is not thrown. -/
theorem C26_queries_wrong (name : Nat → String) (calls : List ManagerCall) :
    (∀ g, ¬ Known (ofCalls name calls) g → (SysManager.run name calls : SysManager α).getNSystematicsInGroup g = .ub) ∧
    (added (ofCalls name calls) = [] → (SysManager.run name calls : SysManager α).getNGroups = .ub) := by
  have hr := SysManager.rel_run (α := α) name calls
  have hc := SysManager.counted_run (α := α) name calls
  refine ⟨fun g hk => ?_, fun ha => ?_⟩
  · simp only [SysManager.getNSystematicsInGroup, hr.groups g, if_neg hk]
  · rcases hc with ⟨h1, h2⟩ | ⟨h1, h2⟩
    · simp only [SysManager.getNGroups, h1]
    · have := hr.perm
      rw [ha] at this
      exact absurd (List.perm_nil.1 this) h2

/-- Beside them: a global systematic and two in a group, one refused; and a manager with nothing added. -/
example : Res.toOption ((SysManager.run exSysName [.add 0, .addTo 1 "b", .addTo 2 "b", .add 0] : SysManager ℚ).getNGroups) = some 2 ∧
    (SysManager.run exSysName [.add 0, .addTo 1 "b", .addTo 2 "b", .add 0] : SysManager ℚ).getGroupNames = ["", "b"] ∧
    (SysManager.run exSysName [.add 0, .addTo 1 "b", .addTo 2 "b", .add 0] : SysManager ℚ).countSystematics = 3 ∧
    (SysManager.run exSysName [] : SysManager ℚ).getNGroups = .ub := by
  refine ⟨by decide +kernel, by decide +kernel, by decide +kernel, rfl⟩

/-- **C71 (the parameter of a scale or a shift).** Its own name, and only that, is accepted by `SetParameter` and `GetParameter`; what
was set is read back, by name and as a dictionary; setting by dictionary takes the entry of that name and throws without one. -/
theorem C71_one_parameter (p : OneParam α) (n : String) (v : α) :
    (n = p.name → p.setParameter n v = .ok ⟨p.name, v⟩) ∧
    (n ≠ p.name → p.setParameter n v = .throw .parameter ∧ p.getParameter n = .throw .parameter) ∧
    (∀ q, p.setParameter n v = .ok q → q.getParameter n = .ok v ∧ SMap.find q.getParameters n = some v ∧
      ∀ k, k ≠ n → SMap.find q.getParameters k = none) ∧
    (∀ pd : ParamDict α, p.setParameters pd = match SMap.find pd p.name with
      | some x => p.setParameter p.name x
      | none => .throw .parameter) := by
  refine ⟨fun h => by simp [OneParam.setParameter, h], fun h => by simp [OneParam.setParameter, OneParam.getParameter, h], ?_, fun pd => ?_⟩
  · intro q h
    by_cases hn : n = p.name
    · simp only [OneParam.setParameter, hn, ne_eq, not_true_eq_false, if_false] at h
      have := Res.ok.inj h
      subst this
      refine ⟨by simp [OneParam.getParameter, hn], by simp [OneParam.getParameters, SMap.find_insert, hn], fun k hk => ?_⟩
      rw [hn] at hk
      simp only [OneParam.getParameters, SMap.find_insert, if_neg hk]
      simp [SMap.find, hk, Ne.symm hk]
    · simp [OneParam.setParameter, hn] at h
  · simp only [OneParam.setParameters, OneParam.setParameter]
    cases SMap.find pd p.name <;> simp

/-- Beside it: a scale set to 2. -/
example : (⟨"s", 1⟩ : OneParam ℚ).setParameter "s" 2 = .ok ⟨"s", 2⟩ ∧ (⟨"s", 1⟩ : OneParam ℚ).setParameter "t" 2 = .throw .parameter := by
  decide +kernel

end Oxsx
