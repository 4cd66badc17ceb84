import Verif.Model.Parameters
import Verif.Lemmas.Basic
/- Helper lemmas about parameter references and the registry loops. -/
set_option linter.unusedSectionVars false
set_option linter.unusedSimpArgs false
namespace Oxsx
variable {α : Type}

namespace Ref

theorem get_set_same {r : Ref} {s s' : Store α} {v : α} (h : r.set s v = .ok s') : r.get s' = .ok v := by
  cases r with
  | dbl i => simp only [set, Res.ok.injEq] at h; subst h; simp [get]
  | elem c i =>
    simp only [set] at h
    split at h
    · cases h
    · rename_i hi
      simp only [Res.ok.injEq] at h; subst h
      simp only [get, Function.update_self]
      push Not at hi
      rw [at_ok]; simp [hi]

theorem get_set_other {r r' : Ref} {s s' : Store α} {v : α} (h : r.set s v = .ok s') (hne : r' ≠ r) :
    r'.get s' = r'.get s := by
  cases r with
  | dbl i =>
    simp only [set, Res.ok.injEq] at h; subst h
    cases r' with
    | dbl j =>
      have : j ≠ i := fun h => hne (by rw [h])
      simp [get, Function.update_of_ne this]
    | elem c j => rfl
  | elem c i =>
    simp only [set] at h
    split at h
    · cases h
    · simp only [Res.ok.injEq] at h; subst h
      cases r' with
      | dbl j => rfl
      | elem c' j =>
        by_cases hc : c' = c
        · subst hc
          have : i ≠ j := fun h => hne (by rw [h])
          simp [get, at_, List.getElem?_set_ne this]
        · simp [get, Function.update_of_ne hc]

theorem set_ok_of_get_ok {r : Ref} {s : Store α} {x : α} (h : r.get s = .ok x) (v : α) :
    ∃ s', r.set s v = .ok s' := by
  cases r with
  | dbl i => exact ⟨_, rfl⟩
  | elem c i =>
    simp only [get, at_ok] at h
    have := (List.getElem?_eq_some_iff.1 h).1
    simp only [set]
    rw [if_neg (by omega)]
    exact ⟨_, rfl⟩

end Ref

namespace ParamManager

/-- Every registered reference can be read. -/
def Live (m : ParamManager) (s : Store α) : Prop := ∀ p ∈ m, ∃ x, p.2.get s = .ok x

/-- No variable is registered under two names. -/
def Distinct (m : ParamManager) : Prop := (m.map (·.2)).Nodup

instance (m : ParamManager) : Decidable m.Distinct := by unfold Distinct; infer_instance

theorem distinct_inj {m : ParamManager} (hd : m.Distinct) {n n' : String} {r : Ref}
    (h : m.find n = some r) (h' : m.find n' = some r) : n = n' := by
  have h1 := SMap.find_mem h
  have h2 := SMap.find_mem h'
  unfold Distinct at hd
  have := List.inj_on_of_nodup_map hd h1 h2 rfl
  exact congrArg Prod.fst this

theorem setLoop_ok (m : ParamManager) (hd : m.Distinct) (d : ParamDict α) (ns : List String)
    (hn : ns.Nodup) (hk : ∀ n ∈ ns, n ∈ m.keys) (hdn : ∀ n ∈ ns, n ∈ d.keys) (s : Store α)
    (hl : m.Live s) :
    ∃ s', m.setLoop d s ns = (s', .ok ()) ∧
      (∀ n ∈ ns, ∀ r v, m.find n = some r → d.find n = some v → r.get s' = .ok v) ∧
      (∀ r : Ref, (∀ n ∈ ns, m.find n ≠ some r) → r.get s' = r.get s) ∧ m.Live s' := by
  induction ns generalizing s with
  | nil => exact ⟨s, rfl, by simp, by simp, hl⟩
  | cons n ns ih =>
    obtain ⟨r, hr⟩ := Option.isSome_iff_exists.1 ((SMap.find_isSome_iff m n).2 (hk n (by simp)))
    obtain ⟨v, hv⟩ := Option.isSome_iff_exists.1 ((SMap.find_isSome_iff d n).2 (hdn n (by simp)))
    obtain ⟨x, hx⟩ := hl _ (SMap.find_mem hr)
    obtain ⟨s1, hs1⟩ := Ref.set_ok_of_get_ok hx v
    have hl1 : m.Live s1 := by
      intro p hp
      by_cases hpr : p.2 = r
      · exact ⟨v, by rw [hpr]; exact Ref.get_set_same hs1⟩
      · rw [Ref.get_set_other hs1 hpr]; exact hl p hp
    obtain ⟨s', h1, h2, h3, h4⟩ := ih (List.nodup_cons.1 hn).2 (fun k h => hk k (by simp [h]))
      (fun k h => hdn k (by simp [h])) s1 hl1
    refine ⟨s', ?_, ?_, ?_, h4⟩
    · simp only [setLoop, setOne, hr, hv, hs1]; exact h1
    · intro k hkm r' v' hr' hv'
      rcases List.mem_cons.1 hkm with rfl | hkm
      · rw [hr] at hr'; cases hr'
        rw [hv] at hv'; cases hv'
        rw [h3 r ?_]
        · exact Ref.get_set_same hs1
        · intro k' hk' he
          have := distinct_inj hd hr he
          subst this
          exact (List.nodup_cons.1 hn).1 hk'
      · exact h2 k hkm r' v' hr' hv'
    · intro r' hr'
      rw [h3 r' (fun k hk' => hr' k (by simp [hk']))]
      exact Ref.get_set_other hs1 (fun h => hr' n (by simp) (by rw [h]; exact hr))

theorem setLoop_append (m : ParamManager) (d : ParamDict α) (l₁ l₂ : List String) (s s' : Store α)
    (h : m.setLoop d s l₁ = (s', .ok ())) : m.setLoop d s (l₁ ++ l₂) = m.setLoop d s' l₂ := by
  induction l₁ generalizing s with
  | nil => simp only [setLoop] at h; cases h; rfl
  | cons n l ih =>
    simp only [setLoop, List.cons_append] at h ⊢
    cases h1 : m.setOne d s n with
    | ok s1 => rw [h1] at h; exact ih s1 h
    | throw e => rw [h1] at h; cases h
    | ub => rw [h1] at h; cases h

theorem getParameters_ok {m : ParamManager} (hs : m.Sorted) {s : Store α} (hl : m.Live s) :
    ∃ g, m.getParameters s = .ok g ∧ SMap.Sorted g ∧ g.keys = m.keys ∧
      (∀ n r, m.find n = some r → ∃ v, g.find n = some v ∧ r.get s = .ok v) ∧
      (∀ n, m.find n = none → g.find n = none) := by
  have gen : ∀ (l : SMap Ref) (d : ParamDict α), SMap.Sorted l → (∀ p ∈ l, ∃ x, p.2.get s = .ok x) →
      SMap.Sorted d → ∃ g, Res.forFold (fun (d : ParamDict α) (p : String × Ref) => (do
        let v ← p.2.get s
        pure (d.insert p.1 v) : Res (ParamDict α))) d l = .ok g ∧ SMap.Sorted g ∧
      (∀ n r, SMap.find l n = some r → ∃ v, g.find n = some v ∧ r.get s = .ok v) ∧
      (∀ n, SMap.find l n = none → g.find n = d.find n) := by
    intro l
    induction l with
    | nil => intro d _ _ hd; exact ⟨d, rfl, hd, by simp [SMap.find], by simp⟩
    | cons p r ih =>
      obtain ⟨k, rf⟩ := p
      intro d hl' hget hd
      obtain ⟨x, hx⟩ := hget (k, rf) (by simp)
      have hp := List.pairwise_cons.1 hl'
      obtain ⟨g, h1, h2, h3, h4⟩ := ih (SMap.insert k x d) hp.2 (fun p hp => hget p (by simp [hp]))
        (SMap.sorted_insert hd k x)
      refine ⟨g, ?_, h2, ?_, ?_⟩
      · simp only at hx
        simp only [Res.forFold, hx, Res.ok_bind]; exact h1
      · intro n r' hf
        rw [SMap.find_cons] at hf
        split at hf
        · rename_i hk; cases hf; subst hk
          refine ⟨x, ?_, hx⟩
          rw [h4 k ?_, SMap.find_insert, if_pos rfl]
          rw [SMap.find_none_iff]; intro hk
          obtain ⟨q, hq, he⟩ := List.mem_map.1 hk
          have := hp.1 q hq; rw [he] at this; exact lt_irrefl _ this
        · exact h3 n r' hf
      · intro n hf
        rw [SMap.find_cons] at hf
        split at hf
        · cases hf
        · rename_i hk
          rw [h4 n hf, SMap.find_insert, if_neg hk]
  obtain ⟨g, h1, h2, h3, h4⟩ := gen m [] hs hl SMap.sorted_nil
  refine ⟨g, h1, h2, ?_, h3, fun n hn => h4 n hn⟩
  apply SMap.sortedNames_ext (SMap.sorted_keys h2) (SMap.sorted_keys hs)
  intro n
  rw [← SMap.find_isSome_iff, ← SMap.find_isSome_iff]
  cases hf : m.find n with
  | none => rw [h4 n hf]; simp [SMap.find]
  | some r => obtain ⟨v, hv, _⟩ := h3 n r hf; simp [hv]

theorem getParameter_of_find {m : ParamManager} {n : String} {r : Ref} (h : m.find n = some r)
    {s : Store α} {v : α} (hg : r.get s = .ok v) : m.getParameter s n = .ok v := by
  simp [getParameter, h, hg, Res.mapExc]

end ParamManager
end Oxsx
