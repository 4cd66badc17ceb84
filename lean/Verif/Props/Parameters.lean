import Verif.Lemmas.Parameters
import Mathlib.Data.Rat.Defs
/-
Properties C15 (parameter registry), C16 (renaming in the registry), C17 (component registry).
-/
set_option linter.unusedSectionVars false
set_option linter.unusedSimpArgs false
set_option linter.unusedVariables false
namespace Oxsx
variable {α : Type}

/-! ### C15 -/

/-- C15 (success): with every registered name in the dictionary (extra names allowed), all are set:
`GetParameters` then returns exactly the dictionary restricted to the registered names, and no other variable
has changed. -/
theorem C15_set_get (m : ParamManager) (hs : m.Sorted) (hd : m.Distinct) (s : Store α) (hl : m.Live s)
    (d : ParamDict α) (hall : ∀ n ∈ m.getParameterNames, (d.find n).isSome) :
    ∃ s', m.setParameters d s = (s', .ok ()) ∧
      (∃ g, m.getParameters s' = .ok g ∧ SMap.Sorted g ∧ g.keys = m.getParameterNames ∧
        g.length = m.getParameterCount ∧ ∀ n ∈ m.getParameterNames, g.find n = d.find n) ∧
      (∀ n ∈ m.getParameterNames, ∀ v, d.find n = some v → m.getParameter s' n = .ok v) ∧
      (∀ r : Ref, r ∉ m.map (·.2) → r.get s' = r.get s) := by
  obtain ⟨s', h1, h2, h3, h4⟩ := ParamManager.setLoop_ok m hd d m.keys (SMap.sorted_nodup hs)
    (fun _ h => h) (fun n hn => (SMap.find_isSome_iff d n).1 (hall n hn)) s hl
  obtain ⟨g, g1, g2, g3, g4, g5⟩ := ParamManager.getParameters_ok hs h4
  refine ⟨s', h1, ⟨g, g1, g2, g3, ?_, ?_⟩, ?_, ?_⟩
  · have := congrArg List.length g3
    simpa [SMap.keys, ParamManager.getParameterCount, ParamManager.getParameterNames] using this
  · intro n hn
    obtain ⟨r, hr⟩ := Option.isSome_iff_exists.1 ((SMap.find_isSome_iff m n).2 hn)
    obtain ⟨v, hv⟩ := Option.isSome_iff_exists.1 (hall n hn)
    obtain ⟨w, hw, hg⟩ := g4 n r hr
    rw [h2 n hn r v hr hv] at hg; cases hg
    rw [hw, hv]
  · intro n hn v hv
    obtain ⟨r, hr⟩ := Option.isSome_iff_exists.1 ((SMap.find_isSome_iff m n).2 hn)
    exact ParamManager.getParameter_of_find hr (h2 n hn r v hr hv)
  · intro r hr
    refine h3 r ?_
    intro n _ hf
    exact hr (List.mem_map.2 ⟨_, SMap.find_mem hf, rfl⟩)

/-- C15 (partial, failure): a missing name is a `ParameterError`. What the failed call leaves behind: the
names before the first missing one (in alphabetical order) have been set, the others have not. Missing: an
all-or-nothing update, which is false (`C15_not_atomic`). -/
theorem C15_missing_partial (m : ParamManager) (hs : m.Sorted) (hd : m.Distinct) (s : Store α)
    (hl : m.Live s) (d : ParamDict α) (hmiss : ∃ n ∈ m.getParameterNames, d.find n = none) :
    ∃ s' pre n post, m.setParameters d s = (s', .throw .parameter) ∧
      m.getParameterNames = pre ++ n :: post ∧ d.find n = none ∧
      (∀ k ∈ pre, ∃ v, d.find k = some v ∧ m.getParameter s' k = .ok v) ∧
      (∀ k ∈ n :: post, m.getParameter s' k = m.getParameter s k) := by
  have split : ∀ (l : List String), (∃ n ∈ l, d.find n = none) → ∃ pre n post, l = pre ++ n :: post ∧
      d.find n = none ∧ ∀ k ∈ pre, (d.find k).isSome := by
    intro l
    induction l with
    | nil => rintro ⟨n, hn, _⟩; cases hn
    | cons a l ih =>
      intro h
      by_cases ha : d.find a = none
      · exact ⟨[], a, l, rfl, ha, by simp⟩
      · have : ∃ n ∈ l, d.find n = none := by
          obtain ⟨n, hn, hf⟩ := h
          rcases List.mem_cons.1 hn with rfl | hn
          · exact absurd hf ha
          · exact ⟨n, hn, hf⟩
        obtain ⟨pre, n, post, h1, h2, h3⟩ := ih this
        refine ⟨a :: pre, n, post, by simp [h1], h2, ?_⟩
        intro k hk
        rcases List.mem_cons.1 hk with rfl | hk
        · cases hh : d.find k with
          | none => exact absurd hh ha
          | some v => rfl
        · exact h3 k hk
  obtain ⟨pre, n, post, h1, h2, h3⟩ := split _ hmiss
  have hnd := SMap.sorted_nodup hs
  have hkeys : m.keys = pre ++ n :: post := h1
  rw [hkeys] at hnd
  have hpre : ∀ k ∈ pre, k ∈ m.keys := fun k hk => by rw [hkeys]; simp [hk]
  obtain ⟨s', e1, e2, e3, e4⟩ := ParamManager.setLoop_ok m hd d pre hnd.of_append_left hpre
    (fun k hk => (SMap.find_isSome_iff d k).1 (h3 k hk)) s hl
  refine ⟨s', pre, n, post, ?_, h1, h2, ?_, ?_⟩
  · unfold ParamManager.setParameters
    rw [hkeys, ParamManager.setLoop_append m d pre _ s s' e1]
    have : m.setOne d s' n = .throw .outOfRange := by
      unfold ParamManager.setOne; rw [h2]; cases m.find n <;> rfl
    simp only [ParamManager.setLoop, this]
    rfl
  · intro k hk
    obtain ⟨r, hr⟩ := Option.isSome_iff_exists.1 ((SMap.find_isSome_iff m k).2 (hpre k hk))
    obtain ⟨v, hv⟩ := Option.isSome_iff_exists.1 (h3 k hk)
    exact ⟨v, hv, ParamManager.getParameter_of_find hr (e2 k hk r v hr hv)⟩
  · intro k hk
    unfold ParamManager.getParameter
    cases hf : m.find k with
    | none => rfl
    | some r =>
      simp only
      rw [e3 r ?_]
      intro k' hk' hf'
      have := ParamManager.distinct_inj hd hf hf'
      subst this
      exact (List.disjoint_of_nodup_append hnd) hk' hk

/-- C15 (single parameter): an unknown name is a `ParameterError` both ways; otherwise the value is read back
and every other registered parameter is untouched. -/
theorem C15_set_one (m : ParamManager) (hd : m.Distinct) (s : Store α) (hl : m.Live s)
    (n : String) (v : α) :
    (n ∉ m.getParameterNames → m.setParameter s n v = .throw .parameter ∧
      m.getParameter s n = .throw .parameter) ∧
    (n ∈ m.getParameterNames → ∃ s', m.setParameter s n v = .ok s' ∧ m.getParameter s' n = .ok v ∧
      ∀ k, k ≠ n → m.getParameter s' k = m.getParameter s k) := by
  constructor
  · intro hn
    have := (SMap.find_none_iff m n).2 hn
    simp [ParamManager.setParameter, ParamManager.getParameter, this, Res.mapExc, toParameterError]
  · intro hn
    obtain ⟨r, hr⟩ := Option.isSome_iff_exists.1 ((SMap.find_isSome_iff m n).2 hn)
    obtain ⟨x, hx⟩ := hl _ (SMap.find_mem hr)
    obtain ⟨s', hs'⟩ := Ref.set_ok_of_get_ok hx v
    refine ⟨s', by simp [ParamManager.setParameter, hr, hs', Res.mapExc],
      ParamManager.getParameter_of_find hr (Ref.get_set_same hs'), ?_⟩
    intro k hk
    unfold ParamManager.getParameter
    cases hf : m.find k with
    | none => rfl
    | some r' =>
      simp only
      rw [Ref.get_set_other hs']
      intro he; subst he
      exact hk (ParamManager.distinct_inj hd hf hr)

/-- Two registered doubles used as example. -/
def exParams : ParamManager := ParamManager.add (ParamManager.add [] (.dbl 0) "a") (.dbl 1) "b"
def exStore : Store ℚ := ⟨fun i => i, fun _ => []⟩

/-- C15 is false as an all-or-nothing update: with `b` missing, the call throws but `a` has changed. -/
theorem C15_not_atomic : exParams.Sorted ∧ exParams.Distinct ∧ exParams.Live exStore ∧
    ∃ s', exParams.setParameters [("a", (7 : ℚ))] exStore = (s', .throw .parameter) ∧
      exParams.getParameter exStore "a" = .ok 0 ∧ exParams.getParameter s' "a" = .ok 7 := by
  refine ⟨by decide +kernel, by decide +kernel, ?_, ?_⟩
  · intro p _
    cases h : p.2 with
    | dbl i => exact ⟨_, rfl⟩
    | elem c i =>
      rename_i hp
      have : exParams = [("a", .dbl 0), ("b", .dbl 1)] := by decide +kernel
      rw [this] at hp
      simp at hp
      rcases hp with rfl | rfl <;> cases h
  · have e : exParams = [("a", .dbl 0), ("b", .dbl 1)] := by decide +kernel
    rw [e]
    refine ⟨{ exStore with dbl := Function.update exStore.dbl 0 7 }, ?_, ?_, ?_⟩
    · simp [ParamManager.setParameters, SMap.keys, ParamManager.setLoop, ParamManager.setOne, SMap.find,
        Ref.set, toParameterError]
    · simp [ParamManager.getParameter, SMap.find, Ref.get, exStore, Res.mapExc]
    · simp [ParamManager.getParameter, SMap.find, Ref.get, exStore, Res.mapExc]

/-- Non-vacuity of C15_set_get: the same registry with a full dictionary and one extra name. -/
example : exParams.Sorted ∧ exParams.Distinct ∧ exParams.Live exStore ∧
    ∀ n ∈ exParams.getParameterNames,
      (SMap.find ([("a", 5), ("b", 6), ("zzz", 1)] : ParamDict ℚ) n).isSome :=
  ⟨C15_not_atomic.1, C15_not_atomic.2.1, C15_not_atomic.2.2.1, by decide +kernel⟩

/-! ### C16 (registry part) -/

/-- C16 (partial): in the registry, renaming an absent parameter or renaming onto an existing name (the same
name included) is a `ParameterError`; otherwise the value moves to the new name, every other parameter keeps
its value, the count is unchanged, and the result is again a legal registry. Missing: the systematics that
implement `RenameParameter` themselves, for which the claim is false (see `C16_*_wrong` theorems). -/
theorem C16_registry_rename_partial (m : ParamManager) (hs : m.Sorted) (s : Store α) (old new : String) :
    (old ∉ m.getParameterNames → m.renameParameter old new = .throw .parameter) ∧
    (new ∈ m.getParameterNames → m.renameParameter old new = .throw .parameter) ∧
    (old ∈ m.getParameterNames → new ∉ m.getParameterNames → ∃ m', m.renameParameter old new = .ok m' ∧
      m'.Sorted ∧ m'.getParameterCount = m.getParameterCount ∧
      m'.getParameter s new = m.getParameter s old ∧
      m'.getParameter s old = .throw .parameter ∧
      (∀ k, k ≠ old → k ≠ new → m'.getParameter s k = m.getParameter s k) ∧
      (∀ k, k ∈ m'.getParameterNames ↔ k = new ∨ (k ∈ m.getParameterNames ∧ k ≠ old))) := by
  refine ⟨?_, ?_, ?_⟩
  · intro h
    simp [ParamManager.renameParameter, (SMap.find_none_iff m old).2 h]
  · intro h
    obtain ⟨r, hr⟩ := Option.isSome_iff_exists.1 ((SMap.find_isSome_iff m new).2 h)
    unfold ParamManager.renameParameter
    cases m.find old <;> simp [hr]
  · intro ho hn
    obtain ⟨r, hr⟩ := Option.isSome_iff_exists.1 ((SMap.find_isSome_iff m old).2 ho)
    have hnf := (SMap.find_none_iff m new).2 hn
    have hne : new ≠ old := fun h => by subst h; exact hn ho
    have hsort := SMap.sorted_erase (SMap.sorted_insert hs new r) old
    have hfind : ∀ k, SMap.find ((SMap.insert new r m).erase old) k
        = if old = k then none else if new = k then some r else m.find k := by
      intro k; rw [SMap.find_erase, SMap.find_insert]
    have hmem : ∀ k, k ∈ SMap.keys ((SMap.insert new r m).erase old) ↔
        k = new ∨ (k ∈ m.keys ∧ k ≠ old) := by
      intro k
      rw [← SMap.find_isSome_iff, hfind, ← SMap.find_isSome_iff]
      by_cases h1 : old = k
      · subst h1; simp [Ne.symm hne]
      · by_cases h2 : new = k
        · subst h2; simp [h1]
        · simp [h1, h2, Ne.symm h1, Ne.symm h2]
    refine ⟨_, by simp [ParamManager.renameParameter, hr, hnf], hsort, ?_, ?_, ?_, ?_, hmem⟩
    · -- count: the key lists are permutations after swapping
      have hp : (SMap.keys ((SMap.insert new r m).erase old)).Perm (new :: m.keys.erase old) := by
        apply (List.perm_ext_iff_of_nodup (SMap.sorted_nodup hsort) ?_).2
        · intro k
          rw [hmem, List.mem_cons, (SMap.sorted_nodup hs).mem_erase_iff]
          tauto
        · rw [List.nodup_cons]
          exact ⟨fun h => hn (List.mem_of_mem_erase h), (SMap.sorted_nodup hs).erase _⟩
      have := hp.length_eq
      simp only [SMap.keys, List.length_map, List.length_cons] at this
      have ho' : old ∈ m.map (·.1) := ho
      rw [List.length_erase_of_mem ho'] at this
      have hpos : 0 < (m.map (·.1)).length := List.length_pos_of_mem ho'
      simp only [List.length_map] at this hpos
      show List.length _ = List.length m
      omega
    · simp [ParamManager.getParameter, hfind, hr, Ne.symm hne]
    · simp [ParamManager.getParameter, hfind, Res.mapExc, toParameterError]
    · intro k h1 h2
      simp [ParamManager.getParameter, hfind, Ne.symm h1, Ne.symm h2]

/-- Non-vacuity of C16: renaming `a` to `c` in the example registry. -/
example : exParams.Sorted ∧ "a" ∈ exParams.getParameterNames ∧ "c" ∉ exParams.getParameterNames := by
  decide +kernel

/-! ### C17 -/

namespace ComponentManager

theorem getParameters_ok {cm : ComponentManager} {s : Store α} (hs : ∀ c ∈ cm, SMap.Sorted c)
    (hl : ∀ c ∈ cm, ParamManager.Live c s) :
    ∃ g, ComponentManager.getParameters cm s = .ok g ∧ SMap.Sorted g ∧
      (∀ n, n ∈ g.keys ↔ ∃ c ∈ cm, n ∈ c.getParameterNames) ∧
      (∀ n v, g.find n = some v → ∃ c ∈ cm, c.getParameter s n = .ok v) := by
  have gen : ∀ (cs : List ParamManager) (pd : ParamDict α), SMap.Sorted pd → (∀ c ∈ cs, SMap.Sorted c) →
      (∀ c ∈ cs, ParamManager.Live c s) →
      ∃ g, Res.forFold (fun (pd : ParamDict α) (c : ParamManager) => (do
        let d ← c.getParameters s
        pure (pd.insertAll d) : Res (ParamDict α))) pd cs = .ok g ∧ SMap.Sorted g ∧
      (∀ n, n ∈ g.keys ↔ n ∈ pd.keys ∨ ∃ c ∈ cs, n ∈ c.getParameterNames) ∧
      (∀ n v, g.find n = some v → pd.find n = some v ∨ ∃ c ∈ cs, c.getParameter s n = .ok v) := by
    intro cs
    induction cs with
    | nil => intro pd hp _ _; exact ⟨pd, rfl, hp, by simp, fun n v h => Or.inl h⟩
    | cons c cs ih =>
      intro pd hp hs hl
      obtain ⟨d, d1, d2, d3, d4, d5⟩ := ParamManager.getParameters_ok (hs c (by simp)) (hl c (by simp))
      obtain ⟨g, g1, g2, g3, g4⟩ := ih (pd.insertAll d) (SMap.sorted_insertAll hp d)
        (fun c hc => hs c (by simp [hc])) (fun c hc => hl c (by simp [hc]))
      refine ⟨g, ?_, g2, ?_, ?_⟩
      · simp only [Res.forFold, d1, Res.ok_bind]; exact g1
      · intro n
        rw [g3 n, ← SMap.find_isSome_iff, SMap.find_insertAll, Option.isSome_or, Bool.or_eq_true,
          SMap.find_isSome_iff, SMap.find_isSome_iff, d3]
        simp [or_assoc, ParamManager.getParameterNames]
      · intro n v h
        rcases g4 n v h with h | ⟨c', hc', h⟩
        · rw [SMap.find_insertAll] at h
          cases hpd : pd.find n with
          | some w => rw [hpd] at h; exact Or.inl (by simpa using h)
          | none =>
            rw [hpd] at h
            simp only [Option.none_or] at h
            right
            refine ⟨c, by simp, ?_⟩
            cases hc : c.find n with
            | none => rw [d5 n hc] at h; cases h
            | some r =>
              obtain ⟨w, hw, hg⟩ := d4 n r hc
              rw [hw] at h; cases h
              exact ParamManager.getParameter_of_find hc hg
        · exact Or.inr ⟨c', by simp [hc'], h⟩
  obtain ⟨g, g1, g2, g3, g4⟩ := gen cm [] SMap.sorted_nil hs hl
  refine ⟨g, g1, g2, ?_, ?_⟩
  · intro n; rw [g3 n]; simp [SMap.keys]
  · intro n v h
    rcases g4 n v h with h | h
    · simp [SMap.find] at h
    · exact h

end ComponentManager

/-- C17 (names and count): the names are the union of the components' names, the count its size (no name
counted twice), and a name belonging to no component is a `ParameterError`. -/
theorem C17_names (cm : ComponentManager) (s : Store α) (hs : ∀ c ∈ cm, SMap.Sorted c)
    (hl : ∀ c ∈ cm, ParamManager.Live c s) :
    ∃ ns, ComponentManager.getParameterNames cm s = .ok ns ∧ ns.Nodup ∧
      (∀ n, n ∈ ns ↔ ∃ c ∈ cm, n ∈ c.getParameterNames) ∧
      ComponentManager.getTotalParameterCount cm s = .ok ns.length ∧
      ∀ n, n ∉ ns → ComponentManager.getParameter cm s n = .throw .parameter := by
  obtain ⟨g, g1, g2, g3, g4⟩ := ComponentManager.getParameters_ok hs hl
  refine ⟨g.keys, by simp [ComponentManager.getParameterNames, g1], SMap.sorted_nodup g2, g3,
    by simp [ComponentManager.getTotalParameterCount, g1, SMap.keys], ?_⟩
  intro n hn
  simp [ComponentManager.getParameter, g1, (SMap.find_none_iff g n).2 hn]

/-- C17 (set then get): with every name of every component in the (non-empty) dictionary, all components
receive their values - a shared name is set in each component that has it - and `GetParameters` /
`GetParameter` return the dictionary's values. Variables are not shared between components. -/
theorem C17_set_get (cm : ComponentManager) (s : Store α) (hs : ∀ c ∈ cm, SMap.Sorted c)
    (hl : ∀ c ∈ cm, ParamManager.Live c s)
    (hd : (cm.flatMap (fun c => c.map (·.2))).Nodup)
    (d : ParamDict α) (hne : d ≠ []) (hall : ∀ c ∈ cm, ∀ n ∈ c.getParameterNames, (d.find n).isSome) :
    ∃ s', ComponentManager.setParameters cm d s = (s', .ok ()) ∧
      (∀ c ∈ cm, ∀ n ∈ c.getParameterNames, ∀ v, d.find n = some v → c.getParameter s' n = .ok v) ∧
      ∃ g, ComponentManager.getParameters cm s' = .ok g ∧
        (∀ n, n ∈ g.keys ↔ ∃ c ∈ cm, n ∈ c.getParameterNames) ∧
        (∀ n ∈ g.keys, g.find n = d.find n ∧ ∀ v, d.find n = some v →
          ComponentManager.getParameter cm s' n = .ok v) := by
  have gen : ∀ (cs : List ParamManager) (s : Store α), (∀ c ∈ cs, SMap.Sorted c) →
      (∀ c ∈ cs, ParamManager.Live c s) → (cs.flatMap (fun c => c.map (·.2))).Nodup →
      (∀ c ∈ cs, ∀ n ∈ c.getParameterNames, (d.find n).isSome) →
      ∃ s', ComponentManager.setLoop d s cs = (s', .ok ()) ∧
        (∀ c ∈ cs, ∀ n r v, c.find n = some r → d.find n = some v → r.get s' = .ok v) ∧
        (∀ r, r ∉ cs.flatMap (fun c => c.map (·.2)) → r.get s' = r.get s) := by
    intro cs
    induction cs with
    | nil => intro s _ _ _ _; exact ⟨s, rfl, by simp, by simp⟩
    | cons c cs ih =>
      intro s hs hl hd hall
      rw [List.flatMap_cons] at hd
      have hd1 : ParamManager.Distinct c := hd.of_append_left
      have hd2 := hd.of_append_right
      have hdisj := List.disjoint_of_nodup_append hd
      obtain ⟨s1, e1, _, _, e4⟩ := C15_set_get c (hs c (by simp)) hd1 s (hl c (by simp)) d
        (hall c (by simp))
      have hl1 : ∀ c' ∈ cs, ParamManager.Live c' s1 := by
        intro c' hc' p hp
        rw [e4 p.2]
        · exact hl c' (by simp [hc']) p hp
        · intro hm
          exact hdisj hm (List.mem_flatMap.2 ⟨c', hc', List.mem_map_of_mem hp⟩)
      obtain ⟨s', f1, f2, f3⟩ := ih s1 (fun c h => hs c (by simp [h])) hl1 hd2
        (fun c h => hall c (by simp [h]))
      refine ⟨s', ?_, ?_, ?_⟩
      · simp only [ComponentManager.setLoop, e1]; exact f1
      · intro c' hc' n r v hr hv
        rcases List.mem_cons.1 hc' with rfl | hc'
        · rw [f3 r (fun h => hdisj (List.mem_map.2 ⟨_, SMap.find_mem hr, rfl⟩) h)]
          obtain ⟨s2, k1, k2, _, _⟩ := ParamManager.setLoop_ok c' hd1 d c'.keys
            (SMap.sorted_nodup (hs c' (by simp))) (fun _ h => h)
            (fun n hn => (SMap.find_isSome_iff d n).1 (hall c' (by simp) n hn)) s (hl c' (by simp))
          have : s2 = s1 := by
            have := k1.symm.trans e1
            exact congrArg Prod.fst this
          subst this
          exact k2 n ((SMap.find_isSome_iff c' n).1 (by simp [hr])) r v hr hv
        · exact f2 c' hc' n r v hr hv
      · intro r hr
        rw [List.flatMap_cons, List.mem_append, not_or] at hr
        rw [f3 r hr.2, e4 r hr.1]
  obtain ⟨s', h1, h2, h3⟩ := gen cm s hs hl hd hall
  have hl' : ∀ c ∈ cm, ParamManager.Live c s' := by
    intro c hc p hp
    have hf := SMap.find_of_mem (hs c hc) (show (p.1, p.2) ∈ c from hp)
    have hk : p.1 ∈ c.getParameterNames := (SMap.find_isSome_iff c p.1).1 (by simp [hf])
    obtain ⟨v, hv⟩ := Option.isSome_iff_exists.1 (hall c hc p.1 hk)
    exact ⟨v, h2 c hc p.1 p.2 v hf hv⟩
  have hget : ∀ c ∈ cm, ∀ n ∈ c.getParameterNames, ∀ v, d.find n = some v →
      c.getParameter s' n = .ok v := by
    intro c hc n hn v hv
    obtain ⟨r, hr⟩ := Option.isSome_iff_exists.1 ((SMap.find_isSome_iff c n).2 hn)
    exact ParamManager.getParameter_of_find hr (h2 c hc n r v hr hv)
  obtain ⟨g, g1, g2, g3, g4⟩ := ComponentManager.getParameters_ok hs hl'
  have hgd : ∀ n ∈ g.keys, g.find n = d.find n := by
    intro n hn
    obtain ⟨w, hw⟩ := Option.isSome_iff_exists.1 ((SMap.find_isSome_iff g n).2 hn)
    obtain ⟨c, hc, hcv⟩ := g4 n w hw
    have hn' : n ∈ c.getParameterNames := by
      by_contra hcon
      have := (SMap.find_none_iff c n).2 hcon
      simp [ParamManager.getParameter, this, Res.mapExc] at hcv
    obtain ⟨v, hv⟩ := Option.isSome_iff_exists.1 (hall c hc n hn')
    have := hget c hc n hn' v hv
    rw [hcv] at this; cases this
    rw [hw, hv]
  refine ⟨s', ?_, hget, g, g1, g3, ?_⟩
  · unfold ComponentManager.setParameters
    rw [if_neg (by simpa using hne)]; exact h1
  · intro n hn
    refine ⟨hgd n hn, ?_⟩
    intro v hv
    simp [ComponentManager.getParameter, g1, hgd n hn, hv]

/-- Boundary fact: an empty dictionary is accepted and changes nothing, whatever the components need. -/
theorem C17_empty_dict (cm : ComponentManager) (s : Store α) :
    ComponentManager.setParameters cm ([] : ParamDict α) s = (s, .ok ()) := rfl

/-- C17 (errors): a non-empty dictionary lacking a name needed by some component is a `ParameterError`. -/
theorem C17_missing (cm : ComponentManager) (s : Store α) (hs : ∀ c ∈ cm, SMap.Sorted c)
    (hl : ∀ c ∈ cm, ParamManager.Live c s)
    (hd : (cm.flatMap (fun c => c.map (·.2))).Nodup)
    (d : ParamDict α) (hne : d ≠ [])
    (hmiss : ∃ c ∈ cm, ∃ n ∈ c.getParameterNames, d.find n = none) :
    (ComponentManager.setParameters cm d s).2 = .throw .parameter := by
  unfold ComponentManager.setParameters
  rw [if_neg (by simpa using hne)]
  induction cm generalizing s with
  | nil => obtain ⟨c, hc, _⟩ := hmiss; cases hc
  | cons c cs ih =>
    rw [List.flatMap_cons] at hd
    have hd1 : ParamManager.Distinct c := hd.of_append_left
    have hdisj := List.disjoint_of_nodup_append hd
    by_cases hc : ∃ n ∈ c.getParameterNames, d.find n = none
    · obtain ⟨s', _, _, _, h1, _⟩ := C15_missing_partial c (hs c (by simp)) hd1 s (hl c (by simp)) d hc
      simp only [ComponentManager.setLoop, h1]
    · push Not at hc
      obtain ⟨s1, e1, _, _, e4⟩ := C15_set_get c (hs c (by simp)) hd1 s (hl c (by simp)) d
        (fun n hn => Option.isSome_iff_ne_none.2 (hc n hn))
      simp only [ComponentManager.setLoop, e1]
      refine ih s1 (fun c h => hs c (by simp [h])) ?_ hd.of_append_right ?_
      · intro c' hc' p hp
        rw [e4 p.2]
        · exact hl c' (by simp [hc']) p hp
        · intro hm
          exact hdisj hm (List.mem_flatMap.2 ⟨c', hc', List.mem_map_of_mem hp⟩)
      · obtain ⟨c', hc', n, hn, hf⟩ := hmiss
        rcases List.mem_cons.1 hc' with rfl | hc'
        · exact absurd hf (hc n hn)
        · exact ⟨c', hc', n, hn, hf⟩

/-- Non-vacuity of the C17 theorems: two components sharing the name `b`. -/
example : ∃ (c1 c2 : ParamManager), (∀ c ∈ [c1, c2], SMap.Sorted c) ∧
    (∀ c ∈ [c1, c2], ParamManager.Live c exStore) ∧
    ([c1, c2].flatMap (fun c => c.map (·.2))).Nodup ∧
    ∀ c ∈ [c1, c2], ∀ n ∈ c.getParameterNames,
      (SMap.find ([("a", 5), ("b", 6), ("c", 1)] : ParamDict ℚ) n).isSome := by
  refine ⟨[("a", .dbl 0), ("b", .dbl 1)], [("b", .dbl 2), ("c", .dbl 3)], by decide +kernel, ?_,
    by decide +kernel, by decide +kernel⟩
  intro c hc p hp
  simp at hc
  rcases hc with rfl | rfl <;> simp at hp <;> rcases hp with rfl | rfl <;> exact ⟨_, rfl⟩

end Oxsx
