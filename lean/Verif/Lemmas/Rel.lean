import Verif.Lemmas.Basic
/- Two runs of the same loop on related states. -/
set_option linter.unusedSectionVars false
set_option linter.unusedSimpArgs false
set_option linter.unusedVariables false
namespace Oxsx
namespace Res

theorem forFold_cons {σ : Type u} {α : Type v} (f : σ → α → Res σ) (s : σ) (a : α) (as : List α) :
    forFold f s (a :: as) = (f s a >>= fun s' => forFold f s' as) := by
  simp only [forFold]
  cases f s a <;> rfl

/-- Same kind of outcome, with related values. -/
def Rel {α : Type u} {β : Type v} (R : α → β → Prop) : Res α → Res β → Prop
  | ok a, ok b => R a b
  | throw e, throw e' => e = e'
  | ub, ub => True
  | _, _ => False

theorem Rel.bind {α β γ δ : Type u} {R : α → β → Prop} {S : γ → δ → Prop} {x : Res α} {y : Res β}
    {f : α → Res γ} {g : β → Res δ} (h : Rel R x y) (hf : ∀ a b, R a b → Rel S (f a) (g b)) :
    Rel S (x >>= f) (y >>= g) := by
  cases x with
  | ok a => cases y with
    | ok b => exact hf a b h
    | throw e => exact h.elim
    | ub => exact h.elim
  | throw e => cases y with
    | ok b => exact h.elim
    | throw e' => exact h
    | ub => exact h.elim
  | ub => cases y with
    | ok b => exact h.elim
    | throw e' => exact h.elim
    | ub => trivial

theorem Rel.refl {α : Type u} {R : α → α → Prop} (h : ∀ a, R a a) (x : Res α) : Rel R x x := by
  cases x with
  | ok a => exact h a
  | throw e => rfl
  | ub => trivial

theorem Rel.mono {α : Type u} {β : Type v} {R S : α → β → Prop} {x : Res α} {y : Res β} (h : Rel R x y)
    (hRS : ∀ a b, x = ok a → y = ok b → R a b → S a b) : Rel S x y := by
  cases x with
  | ok a => cases y with
    | ok b => exact hRS a b rfl rfl h
    | throw e => exact h.elim
    | ub => exact h.elim
  | throw e => cases y with
    | ok b => exact h.elim
    | throw e' => exact h
    | ub => exact h.elim
  | ub => cases y with
    | ok b => exact h.elim
    | throw e' => exact h.elim
    | ub => trivial

theorem Rel.eq {α : Type u} {x y : Res α} (h : Rel Eq x y) : x = y := by
  cases x with
  | ok a => cases y with
    | ok b => exact congrArg ok h
    | throw e => exact h.elim
    | ub => exact h.elim
  | throw e => cases y with
    | ok b => exact h.elim
    | throw e' => exact congrArg throw h
    | ub => exact h.elim
  | ub => cases y with
    | ok b => exact h.elim
    | throw e' => exact h.elim
    | ub => rfl

theorem Rel.of_eq {α : Type u} {x y : Res α} (h : x = y) : Rel Eq x y := h ▸ Rel.refl (fun _ => rfl) x

theorem Rel.ok_left {α : Type u} {β : Type v} {R : α → β → Prop} {x : Res α} {y : Res β} (h : Rel R x y) {a : α}
    (hx : x = ok a) : ∃ b, y = ok b ∧ R a b := by
  subst hx
  cases y with
  | ok b => exact ⟨b, rfl, h⟩
  | throw e => exact h.elim
  | ub => exact h.elim

theorem Rel.mapExc {α : Type u} {β : Type v} {R : α → β → Prop} {x : Res α} {y : Res β} (f : Exc → Exc) (h : Rel R x y) :
    Rel R (x.mapExc f) (y.mapExc f) := by
  cases x with
  | ok a => cases y with
    | ok b => exact h
    | throw e => exact h.elim
    | ub => exact h.elim
  | throw e => cases y with
    | ok b => exact h.elim
    | throw e' => exact congrArg f h
    | ub => exact h.elim
  | ub => cases y with
    | ok b => exact h.elim
    | throw e' => exact h.elim
    | ub => trivial

theorem Rel.forFold_range {σ τ : Type u} {f : σ → Nat → Res σ} {g : τ → Nat → Res τ} (P : Nat → σ → τ → Prop) (n : Nat)
    {s : σ} {t : τ} (h0 : P 0 s t) (h : ∀ i s t, i < n → P i s t → Rel (P (i + 1)) (f s i) (g t i)) :
    Rel (P n) (forFold f s (List.range n)) (forFold g t (List.range n)) := by
  induction n with
  | zero => exact h0
  | succ n ih =>
    have ih' := ih (fun i s t hi => h i s t (by omega))
    rw [List.range_succ, forFold_append, forFold_append]
    cases hx : forFold f s (List.range n) with
    | ok a =>
      obtain ⟨b, hb, hR⟩ := Rel.ok_left ih' hx
      rw [hb]
      simp only [Res.bind]
      have := h n a b (by omega) hR
      simp only [forFold]
      cases hfa : f a n with
      | ok a' =>
        rw [hfa] at this
        obtain ⟨b', hb', hR'⟩ := Rel.ok_left this rfl
        rw [hb']; exact hR'
      | throw e =>
        rw [hfa] at this
        cases hgb : g b n with
        | ok _ => rw [hgb] at this; exact this.elim
        | throw e' => rw [hgb] at this; exact this
        | ub => rw [hgb] at this; exact this.elim
      | ub =>
        rw [hfa] at this
        cases hgb : g b n with
        | ok _ => rw [hgb] at this; exact this.elim
        | throw e' => rw [hgb] at this; exact this.elim
        | ub => trivial
    | throw e =>
      rw [hx] at ih'
      cases hy : forFold g t (List.range n) with
      | ok _ => rw [hy] at ih'; exact ih'.elim
      | throw e' => rw [hy] at ih'; exact ih'
      | ub => rw [hy] at ih'; exact ih'.elim
    | ub =>
      rw [hx] at ih'
      cases hy : forFold g t (List.range n) with
      | ok _ => rw [hy] at ih'; exact ih'.elim
      | throw e' => rw [hy] at ih'; exact ih'.elim
      | ub => trivial

end Res
end Oxsx
