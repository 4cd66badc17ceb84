import Verif.Basic
import Mathlib.Tactic.Linarith
/- Helper lemmas about outcomes, loops, accessors and binary search. -/
set_option linter.unusedSectionVars false
namespace Oxsx
namespace Res
universe u v w

@[simp] theorem throwIf_false_of {c : Prop} [Decidable c] {e : Exc} (h : ¬ c) :
    throwIf c e = ok () := by simp [throwIf, h]
@[simp] theorem throwIf_true_of {c : Prop} [Decidable c] {e : Exc} (h : c) :
    throwIf c e = throw e := by simp [throwIf, h]
theorem throwIf_eq_ok {c : Prop} [Decidable c] {e : Exc} {u : Unit} :
    throwIf c e = ok u ↔ ¬ c := by
  unfold throwIf; split <;> simp_all
theorem throwIf_eq_throw {c : Prop} [Decidable c] {e e' : Exc} :
    throwIf c e = throw e' ↔ c ∧ e = e' := by
  unfold throwIf; split <;> simp_all

@[simp] theorem traverse_nil {α : Type u} {β : Type v} (f : α → Res β) :
    traverse f [] = ok [] := rfl

theorem traverse_ok {α : Type u} {β : Type v} {f : α → Res β} {g : α → β} {l : List α}
    (h : ∀ a ∈ l, f a = ok (g a)) : traverse f l = ok (l.map g) := by
  induction l with
  | nil => rfl
  | cons a as ih =>
    have h1 := h a (by simp)
    have h2 := ih (fun b hb => h b (by simp [hb]))
    simp [traverse, h1, h2]

theorem traverse_cons_eq_ok {α : Type u} {β : Type v} {f : α → Res β} {a : α} {as : List α}
    {bs : List β} : traverse f (a :: as) = ok bs ↔
      ∃ b bs', f a = ok b ∧ traverse f as = ok bs' ∧ bs = b :: bs' := by
  simp only [traverse]
  cases hfa : f a with
  | ok b =>
    cases hr : traverse f as with
    | ok bs' => simp [eq_comm]
    | throw e => simp
    | ub => simp
  | throw e => simp
  | ub => simp

theorem traverse_length {α : Type u} {β : Type v} {f : α → Res β} {l : List α} {bs : List β}
    (h : traverse f l = ok bs) : bs.length = l.length := by
  induction l generalizing bs with
  | nil => simp [traverse] at h; simp [← h]
  | cons a as ih =>
    obtain ⟨b, bs', _, h2, rfl⟩ := traverse_cons_eq_ok.1 h
    simp [ih h2]

theorem traverse_get {α : Type u} {β : Type v} {f : α → Res β} {l : List α} {bs : List β}
    (h : traverse f l = ok bs) (i : Nat) (a : α) (ha : l[i]? = some a) :
    ∃ b, bs[i]? = some b ∧ f a = ok b := by
  induction l generalizing bs i with
  | nil => simp at ha
  | cons a' as ih =>
    obtain ⟨b, bs', h1, h2, rfl⟩ := traverse_cons_eq_ok.1 h
    cases i with
    | zero => simp at ha; subst ha; exact ⟨b, by simp, h1⟩
    | succ i => simpa using ih h2 i (by simpa using ha)

/-- If some element throws `e` and all the earlier ones succeed, the loop throws `e`. -/
theorem traverse_throw {α : Type u} {β : Type v} {f : α → Res β} {l₁ l₂ : List α} {a : α} {e : Exc}
    (h1 : ∀ b ∈ l₁, ∃ c, f b = ok c) (h2 : f a = throw e) :
    traverse f (l₁ ++ a :: l₂) = throw e := by
  induction l₁ with
  | nil => simp [traverse, h2]
  | cons b bs ih =>
    obtain ⟨c, hc⟩ := h1 b (by simp)
    simp [traverse, hc, ih (fun b' hb' => h1 b' (by simp [hb']))]

@[simp] theorem forFold_nil {σ : Type u} {α : Type v} (f : σ → α → Res σ) (s : σ) :
    forFold f s [] = ok s := rfl

theorem forFold_cons_ok {σ : Type u} {α : Type v} {f : σ → α → Res σ} {s s' : σ} {a : α}
    {as : List α} (h : f s a = ok s') : forFold f s (a :: as) = forFold f s' as := by
  simp [forFold, h]

theorem forFold_cons_eq_ok {σ : Type u} {α : Type v} {f : σ → α → Res σ} {s t : σ} {a : α}
    {as : List α} : forFold f s (a :: as) = ok t ↔ ∃ s', f s a = ok s' ∧ forFold f s' as = ok t := by
  simp only [forFold]
  cases f s a <;> simp

theorem forFold_append {σ : Type u} {α : Type v} (f : σ → α → Res σ) (s : σ) (l₁ l₂ : List α) :
    forFold f s (l₁ ++ l₂) = (forFold f s l₁).bind (fun s' => forFold f s' l₂) := by
  induction l₁ generalizing s with
  | nil => rfl
  | cons a as ih =>
    simp only [List.cons_append, forFold]
    cases f s a with
    | ok s' => simp [ih]
    | throw e => rfl
    | ub => rfl

/-- A loop all of whose steps succeed is the pure fold. -/
theorem forFold_ok {σ : Type u} {α : Type v} {f : σ → α → Res σ} {g : σ → α → σ} (P : σ → Prop)
    {l : List α} {s : σ} (hs : P s)
    (h : ∀ s a, P s → a ∈ l → f s a = ok (g s a) ∧ P (g s a)) :
    forFold f s l = ok (l.foldl g s) ∧ P (l.foldl g s) := by
  induction l generalizing s with
  | nil => exact ⟨rfl, hs⟩
  | cons a as ih =>
    have h1 := h s a hs (by simp)
    have h2 := ih h1.2 (fun s b hs hb => h s b hs (by simp [hb]))
    simp [forFold, h1.1, h2]

theorem forFold_pure {σ : Type u} {α : Type v} {f : σ → α → Res σ} {g : σ → α → σ}
    {l : List α} {s : σ} (h : ∀ s a, a ∈ l → f s a = ok (g s a)) :
    forFold f s l = ok (l.foldl g s) :=
  (forFold_ok (fun _ => True) trivial (fun s a _ ha => ⟨h s a ha, trivial⟩)).1

/-- Invariant rule for loops. -/
theorem forFold_inv {σ : Type u} {α : Type v} {f : σ → α → Res σ} (P : σ → Prop)
    {l : List α} {s t : σ} (hs : P s) (hr : forFold f s l = ok t)
    (h : ∀ s a s', P s → a ∈ l → f s a = ok s' → P s') : P t := by
  induction l generalizing s with
  | nil => simp at hr; exact hr ▸ hs
  | cons a as ih =>
    obtain ⟨s', h1, h2⟩ := forFold_cons_eq_ok.1 hr
    exact ih (h s a s' hs (by simp) h1) h2 (fun s b s' hs hb => h s b s' hs (by simp [hb]))

theorem traverse_map {α : Type u} {β : Type v} {γ : Type w} (f : β → Res γ) (g : α → β) (l : List α) :
    traverse f (l.map g) = traverse (fun a => f (g a)) l := by
  induction l with
  | nil => rfl
  | cons a l ih => simp only [List.map_cons, traverse, ih]

theorem forFold_map {σ : Type u} {α : Type v} {β : Type w} (f : σ → β → Res σ) (g : α → β) (l : List α)
    (s : σ) : forFold f s (l.map g) = forFold (fun s a => f s (g a)) s l := by
  induction l generalizing s with
  | nil => rfl
  | cons a l ih => simp only [List.map_cons, forFold, ih]

theorem forFold_congr {σ : Type u} {α : Type v} {f g : σ → α → Res σ} {l : List α}
    (h : ∀ s, ∀ a ∈ l, f s a = g s a) (s : σ) : forFold f s l = forFold g s l := by
  induction l generalizing s with
  | nil => rfl
  | cons a l ih =>
    simp only [forFold, h s a (by simp)]
    cases g s a with
    | ok s' => exact ih (fun s b hb => h s b (by simp [hb])) s'
    | throw e => rfl
    | ub => rfl

theorem traverse_congr {α : Type u} {β : Type v} {f g : α → Res β} {l : List α}
    (h : ∀ a ∈ l, f a = g a) : traverse f l = traverse g l := by
  induction l with
  | nil => rfl
  | cons a l ih =>
    simp only [traverse, h a (by simp), ih (fun b hb => h b (by simp [hb]))]

theorem forFold_range {σ : Type u} {f : σ → Nat → Res σ} (P : Nat → σ → Prop) {n : Nat} {s : σ}
    (h0 : P 0 s) (h : ∀ i s, i < n → P i s → ∃ s', f s i = ok s' ∧ P (i + 1) s') :
    ∃ t, forFold f s (List.range n) = ok t ∧ P n t := by
  induction n with
  | zero => exact ⟨s, rfl, h0⟩
  | succ n ih =>
    obtain ⟨t, h1, h2⟩ := ih (fun i s hi => h i s (by omega))
    obtain ⟨t', h3, h4⟩ := h n t (by omega) h2
    refine ⟨t', ?_, h4⟩
    rw [List.range_succ, forFold_append, h1]
    simp only [Res.bind, forFold, h3]

theorem mapExc_eq_ok {α : Type u} {f : Exc → Exc} {x : Res α} {a : α} :
    x.mapExc f = ok a ↔ x = ok a := by
  cases x <;> simp [mapExc]
end Res

section accessors
universe u
variable {α : Type u}

theorem at_ok {l : List α} {i : Nat} {a : α} : at_ l i = .ok a ↔ l[i]? = some a := by
  unfold at_; cases l[i]? <;> simp
theorem idx_ok {l : List α} {i : Nat} {a : α} : idx l i = .ok a ↔ l[i]? = some a := by
  unfold idx; cases l[i]? <;> simp
theorem at_of_lt {l : List α} {i : Nat} (h : i < l.length) : at_ l i = .ok l[i] := by
  rw [at_ok]; simp [h]
theorem idx_of_lt {l : List α} {i : Nat} (h : i < l.length) : idx l i = .ok l[i] := by
  rw [idx_ok]; simp [h]
theorem at_of_ge {l : List α} {i : Nat} (h : l.length ≤ i) : at_ l i = .throw .outOfRange := by
  unfold at_; simp [List.getElem?_eq_none h]
theorem idx_of_ge {l : List α} {i : Nat} (h : l.length ≤ i) : idx l i = .ub := by
  unfold idx; simp [List.getElem?_eq_none h]
theorem setIdx_of_lt {l : List α} {i : Nat} {a : α} (h : i < l.length) :
    setIdx l i a = .ok (l.set i a) := by simp [setIdx, h]
theorem setIdx_of_ge {l : List α} {i : Nat} {a : α} (h : l.length ≤ i) :
    setIdx l i a = .ub := by simp [setIdx, Nat.not_lt.2 h]

@[simp] theorem resize_length (l : List α) (n : Nat) (a : α) : (resize l n a).length = n := by
  simp [resize]; omega

theorem findPos_some [DecidableEq α] {l : List α} {x : α} {i : Nat} (h : findPos l x = some i) :
    l[i]? = some x := by
  unfold findPos at h
  rw [List.findIdx?_eq_some_iff_getElem] at h
  obtain ⟨h1, h2, _⟩ := h
  simp at h2
  simp [h1, h2]

theorem findPos_none [DecidableEq α] {l : List α} {x : α} : findPos l x = none ↔ x ∉ l := by
  unfold findPos
  rw [List.findIdx?_eq_none_iff]
  simp only [decide_eq_false_iff_not]
  constructor
  · intro h hx; exact h x hx rfl
  · rintro h y hy rfl; exact h hy

theorem findPos_of_mem [DecidableEq α] {l : List α} {x : α} (h : x ∈ l) :
    ∃ i, findPos l x = some i ∧ l[i]? = some x := by
  cases hf : findPos l x with
  | none => exact absurd h (findPos_none.1 hf)
  | some i => exact ⟨i, rfl, findPos_some hf⟩

theorem nodup_getElem?_inj {l : List α} (hn : l.Nodup) {i j : Nat} {x : α}
    (hi : l[i]? = some x) (hj : l[j]? = some x) : i = j := by
  have h1 := (List.getElem?_eq_some_iff.1 hi).1
  exact (List.getElem?_inj h1 hn).1 (hi.trans hj.symm)

theorem findPos_eq_of_nodup [DecidableEq α] {l : List α} (hn : l.Nodup) {i : Nat} {x : α}
    (hi : l[i]? = some x) : findPos l x = some i := by
  obtain ⟨j, hj, hj'⟩ := findPos_of_mem (List.mem_of_getElem? hi)
  rw [hj, nodup_getElem?_inj hn hi hj']
end accessors

section lowerBound
universe u
variable {α : Type u}

/-- `below` holds on a prefix of the list. -/
def Partitioned (l : List α) (below : α → Bool) : Prop :=
  ∀ (i j : Nat) (x y : α), i ≤ j → l[i]? = some x → l[j]? = some y → below y = true → below x = true

theorem lowerBoundFrom_spec (l : List α) (below : α → Bool) (hp : Partitioned l below)
    (fuel : Nat) : ∀ (first len : Nat), len ≤ fuel → first + len ≤ l.length →
    (∀ i x, i < first → l[i]? = some x → below x = true) →
    (∀ i x, first + len ≤ i → l[i]? = some x → below x = false) →
    let r := lowerBoundFrom l below fuel first len
    first ≤ r ∧ r ≤ first + len ∧ (∀ i x, i < r → l[i]? = some x → below x = true) ∧
      (∀ i x, r ≤ i → l[i]? = some x → below x = false) := by
  induction fuel with
  | zero =>
    intro first len hl hb h1 h2
    obtain rfl : len = 0 := by omega
    simp only [lowerBoundFrom]
    exact ⟨le_refl _, by omega, h1, fun i x hi => h2 i x (by omega)⟩
  | succ fuel ih =>
    intro first len hl hb h1 h2
    simp only [lowerBoundFrom]
    by_cases h0 : len = 0
    · subst h0; simp only [if_true]
      exact ⟨le_refl _, by omega, h1, fun i x hi => h2 i x (by omega)⟩
    · rw [if_neg h0]
      have hlt : first + len / 2 < l.length := by omega
      have hg : l[first + len / 2]? = some l[first + len / 2] := by simp [hlt]
      rw [hg]
      simp only
      by_cases hbel : below l[first + len / 2] = true
      · rw [if_pos hbel]
        have := ih (first + len / 2 + 1) (len - len / 2 - 1) (by omega) (by omega)
          (fun i x hi hx => hp i _ x _ (by omega) hx hg hbel)
          (fun i x hi hx => h2 i x (by omega) hx)
        simp only at this
        exact ⟨by omega, by omega, this.2.2⟩
      · rw [if_neg hbel]
        have := ih first (len / 2) (by omega) (by omega) h1
          (fun i x hi hx => by
            by_contra hc
            simp only [Bool.not_eq_false] at hc
            exact hbel (hp _ i _ x hi hg hx hc))
        simp only at this
        exact ⟨by omega, by omega, this.2.2⟩

/-- Correctness of `std::lower_bound` on a partitioned range. -/
theorem lowerBound_spec (l : List α) (below : α → Bool) (hp : Partitioned l below) :
    lowerBound l below ≤ l.length ∧
    (∀ i x, i < lowerBound l below → l[i]? = some x → below x = true) ∧
    (∀ i x, lowerBound l below ≤ i → l[i]? = some x → below x = false) := by
  have := lowerBoundFrom_spec l below hp l.length 0 l.length (le_refl _) (by omega)
    (fun i x hi => by omega)
    (fun i x hi hx => by
      have := (List.getElem?_eq_some_iff.1 hx).1
      omega)
  simp only [Nat.zero_le, Nat.zero_add, true_and] at this
  exact this
end lowerBound
end Oxsx
