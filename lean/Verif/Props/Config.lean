import Verif.Model.Config
import Verif.Spec.Config
import Verif.Lemmas.Basic
import Mathlib.Data.List.DropRight
import Mathlib.Data.List.TakeWhile
import Mathlib.Data.List.Forall2
set_option linter.unusedSectionVars false
set_option linter.unusedSimpArgs false
set_option linter.unusedVariables false
/-
C70: configuration files.
-/
namespace Oxsx
open ConfigSpec

namespace Ini

theorem blank_iff {c : Char} : blank c = true ↔ Blank c := by
  unfold blank Blank
  simp [Bool.or_eq_true, or_assoc]

theorem takeWhile_prefix {β : Type} {p : β → Bool} {a b : List β} (h1 : ∀ c ∈ a, p c = true) (h2 : ∀ c, b.head? = some c → p c = false) :
    (a ++ b).takeWhile p = a := by
  induction a with
  | nil =>
    cases b with
    | nil => rfl
    | cons c r => simp only [List.nil_append, List.takeWhile_cons, h2 c rfl]; rfl
  | cons c r ih =>
    simp only [List.cons_append, List.takeWhile_cons, h1 c (by simp), if_true]
    rw [ih (fun x hx => h1 x (by simp [hx]))]

theorem trim_of_trims {s t : Str} (h : Trims s t) : trim s = t := by
  obtain ⟨pre, post, rfl, h1, h2, h3, h4⟩ := h
  have e1 : ∀ c ∈ pre, blank c = true := fun c hc => blank_iff.2 (h1 c hc)
  have e2 : ∀ c ∈ post, blank c = true := fun c hc => blank_iff.2 (h2 c hc)
  unfold trim
  simp only
  by_cases ht : t = []
  · subst ht
    simp only [List.append_nil] at *
    have a1 : (pre ++ post).takeWhile blank = pre ++ post := by
      rw [List.takeWhile_eq_self_iff]
      intro c hc
      rcases List.mem_append.1 hc with h | h
      · exact e1 c h
      · exact e2 c h
    rw [a1]
    unfold substr
    split <;> simp
  · have a1 : (pre ++ t ++ post).takeWhile blank = pre := by
      rw [List.append_assoc]
      apply takeWhile_prefix e1
      intro c hc
      rw [List.head?_append_of_ne_nil _ ht] at hc
      rw [← Bool.not_eq_true, blank_iff]
      exact h3 c hc
    have a2 : (pre ++ t ++ post).reverse.takeWhile blank = post.reverse := by
      rw [List.reverse_append]
      apply takeWhile_prefix
      · intro c hc; exact e2 c (by simpa using hc)
      · intro c hc
        rw [List.reverse_append, List.head?_append_of_ne_nil _ (by simpa using ht), List.head?_reverse] at hc
        rw [← Bool.not_eq_true, blank_iff]
        exact h4 c hc
    rw [a1, a2]
    unfold substr
    rw [if_neg (by simp; omega)]
    have : (pre ++ t ++ post).length - post.reverse.length - pre.length = t.length := by simp; omega
    rw [this, List.append_assoc, List.drop_left, List.take_left]

theorem trims_trim (s : Str) : Trims s (trim s) := by
  have key : Trims s ((s.dropWhile blank).rdropWhile blank) := by
    refine ⟨s.takeWhile blank, (s.dropWhile blank).rtakeWhile blank, ?_, ?_, ?_, ?_, ?_⟩
    · rw [List.append_assoc, List.rdropWhile_append_rtakeWhile, List.takeWhile_append_dropWhile]
    · intro c hc; exact blank_iff.1 (List.mem_takeWhile_imp hc)
    · intro c hc; exact blank_iff.1 (List.mem_rtakeWhile_imp hc)
    · intro c hc
      rw [← blank_iff]
      have h1 : (s.dropWhile blank).head? = some c := by
        have hp := List.rdropWhile_prefix (p := blank) (l := s.dropWhile blank)
        obtain ⟨r, hr⟩ := hp
        rw [← hr]
        cases hx : (s.dropWhile blank).rdropWhile blank with
        | nil => rw [hx] at hc; cases hc
        | cons a b => rw [hx] at hc; simpa using hc
      have := List.head?_dropWhile_not blank s
      rw [h1] at this
      simpa using this
    · intro c hc
      rw [← blank_iff]
      have hne : (s.dropWhile blank).rdropWhile blank ≠ [] := by intro h; rw [h] at hc; cases hc
      have := List.rdropWhile_last_not blank (s.dropWhile blank) hne
      rw [List.getLast?_eq_some_getLast hne] at hc
      rw [← Option.some.inj hc]
      exact this
  rw [trim_of_trims key]
  exact key

theorem trims_iff {s t : Str} : Trims s t ↔ trim s = t := ⟨trim_of_trims, fun h => h ▸ trims_trim s⟩

/-- How the parser reads a line. -/
def kindOf (s : Str) : Kind :=
  if s.head? = some '#' ∨ s.head? = some ';' then .ignored
  else
    let t := trim s
    if t = [] then .ignored
    else if t.head? = some '[' then .header (parseSLine t).2 (parseSLine t).1
    else
      match findPos t '=' with
      | none => .malformed
      | some n => .assign (trim (t.take n)) (trim (t.drop (n + 1)))

theorem comment_iff {s : Str} : Comment s ↔ (s.head? = some '#' ∨ s.head? = some ';') := by
  unfold Comment
  cases s with
  | nil => simp
  | cons c r =>
    constructor
    · rintro ⟨c', r', h, h'⟩
      injection h with h1 h2
      subst h1
      simpa using h'
    · intro h
      exact ⟨c, r, rfl, by simpa using h⟩

theorem findPos_split {a b : Str} (h : '=' ∉ a) : findPos (a ++ '=' :: b) '=' = some a.length := by
  unfold findPos
  induction a with
  | nil => simp [List.findIdx?_cons]
  | cons c r ih =>
    simp only [List.mem_cons, not_or] at h
    simp only [List.cons_append, List.findIdx?_cons, List.length_cons]
    rw [if_neg (by simpa using Ne.symm h.1), ih h.2]
    rfl

theorem findPos_first' {t : Str} {n : Nat} (h : findPos t '=' = some n) : t = t.take n ++ '=' :: t.drop (n + 1) ∧ '=' ∉ t.take n := by
  unfold findPos at h
  rw [List.findIdx?_eq_some_iff_getElem] at h
  obtain ⟨h1, h2, h3⟩ := h
  constructor
  · have : t[n] = '=' := by simpa using h2
    rw [← this, List.getElem_cons_drop, List.take_append_drop]
  · intro hm
    obtain ⟨j, hj, he⟩ := List.getElem_of_mem hm
    simp only [List.length_take] at hj
    rw [List.getElem_take] at he
    exact h3 j (by omega) (by simpa using he)

theorem parseSLine_replicate {n : Str} {d : Nat} (hn : n.head? ≠ some '[') :
    parseSLine (List.replicate d '[' ++ n) = (if n.length < d then n else n.take (n.length - d), d) := by
  unfold parseSLine
  have h1 : (List.replicate d '[' ++ n).takeWhile (· = '[') = List.replicate d '[' := by
    apply takeWhile_prefix
    · intro c hc; simpa using (List.mem_replicate.1 hc).2
    · intro c hc; simp; intro h; rw [h] at hc; exact hn hc
  simp only [h1, List.length_replicate]
  unfold substr
  congr 1
  simp only [List.length_append, List.length_replicate]
  by_cases hlt : n.length < d
  · rw [if_pos (by omega), if_pos hlt]; simp
  · rw [if_neg (by omega), if_neg hlt]
    simp
    omega

theorem kindOf_of_reads {s : Str} {k : Kind} (h : Reads s k) : kindOf s = k := by
  unfold kindOf
  cases h with
  | comment hc => rw [if_pos (comment_iff.1 hc)]
  | blank hb =>
    split
    · rfl
    · have : trim s = [] := trim_of_trims ⟨s, [], by simp, hb, by simp, by simp, by simp⟩
      simp only [this, if_true]
  | header n pad d hc ht hd hn hp =>
    rw [if_neg (fun h => hc (comment_iff.2 h))]
    have ht := trim_of_trims ht
    simp only [ht]
    obtain ⟨d', rfl⟩ : ∃ d', d = d' + 1 := ⟨d - 1, by omega⟩
    rw [if_neg (by simp [List.replicate_succ]), if_pos (by simp [List.replicate_succ]), parseSLine_replicate hn]
    simp only [List.length_append, hp]
    rw [if_neg (by omega), Nat.add_sub_cancel, List.take_left]
  | headerShort n d hc ht hd hn hp =>
    rw [if_neg (fun h => hc (comment_iff.2 h))]
    have ht := trim_of_trims ht
    simp only [ht]
    obtain ⟨d', rfl⟩ : ∃ d', d = d' + 1 := ⟨d - 1, by omega⟩
    rw [if_neg (by simp [List.replicate_succ]), if_pos (by simp [List.replicate_succ]), parseSLine_replicate hn]
    simp only [if_pos hp]
  | assign k v k' v' hc ht he hb hk hv =>
    rw [if_neg (fun h => hc (comment_iff.2 h))]
    have ht := trim_of_trims ht
    simp only [ht]
    rw [if_neg (by simp), if_neg (by cases k' with
      | nil => simp
      | cons a b => simpa using hb), findPos_split he]
    simp only [List.take_left]
    have : List.drop (k'.length + 1) (k' ++ '=' :: v') = v' := by
      rw [List.drop_append]; simp
    rw [this, trim_of_trims hk, trim_of_trims hv]
  | malformed t hc ht hn hb he =>
    rw [if_neg (fun h => hc (comment_iff.2 h))]
    have ht := trim_of_trims ht
    simp only [ht]
    rw [if_neg hn, if_neg hb, findPos_none.2 he]

theorem reads_kindOf (s : Str) : Reads s (kindOf s) := by
  unfold kindOf
  by_cases hc : s.head? = some '#' ∨ s.head? = some ';'
  · rw [if_pos hc]; exact Reads.comment s (comment_iff.2 hc)
  · rw [if_neg hc]
    have hc' : ¬ Comment s := fun h => hc (comment_iff.1 h)
    have ht := trims_trim s
    simp only
    by_cases h0 : trim s = []
    · rw [if_pos h0]
      apply Reads.blank
      rw [h0] at ht
      obtain ⟨pre, post, h1, h2, h3, _⟩ := ht
      intro c hcm
      rw [h1] at hcm
      simp only [List.append_nil, List.mem_append] at hcm
      rcases hcm with h | h
      · exact h2 c h
      · exact h3 c h
    · rw [if_neg h0]
      by_cases hb : (trim s).head? = some '['
      · rw [if_pos hb]
        have hsplit : trim s = List.replicate ((trim s).takeWhile (· = '[')).length '[' ++ (trim s).dropWhile (· = '[') := by
          have h1 : List.replicate ((trim s).takeWhile (· = '[')).length '[' = (trim s).takeWhile (· = '[') := by
            symm
            rw [List.eq_replicate_iff]
            exact ⟨rfl, fun c hc => by simpa using List.mem_takeWhile_imp hc⟩
          rw [h1, List.takeWhile_append_dropWhile]
        have hn : ((trim s).dropWhile (· = '[')).head? ≠ some '[' := by
          intro h
          have := List.head?_dropWhile_not (fun c : Char => decide (c = '[')) (trim s)
          rw [h] at this
          simp at this
        have hd : 0 < ((trim s).takeWhile (· = '[')).length := by
          cases hx : trim s with
          | nil => exact absurd hx h0
          | cons c r =>
            rw [hx] at hb
            simp only [List.head?_cons, Option.some.injEq] at hb
            subst hb
            simp
        generalize ((trim s).takeWhile (· = '[')).length = d at *
        generalize (trim s).dropWhile (· = '[') = n at *
        rw [hsplit] at ht ⊢
        rw [parseSLine_replicate hn]
        by_cases hlt : n.length < d
        · simp only [if_pos hlt]
          exact Reads.headerShort s n d hc' ht hd hn hlt
        · simp only [if_neg hlt]
          refine Reads.header s _ (n.drop (n.length - d)) d hc' (by rw [List.take_append_drop]; exact ht) hd (by rw [List.take_append_drop]; exact hn) (by simp; omega)
      · rw [if_neg hb]
        cases hf : findPos (trim s) '=' with
        | none => exact Reads.malformed s _ hc' ht h0 hb (findPos_none.1 hf)
        | some n =>
          obtain ⟨h1, h2⟩ := findPos_first' hf
          refine Reads.assign s _ _ ((trim s).take n) ((trim s).drop (n + 1)) hc' (by rw [← h1]; exact ht) h2 ?_ (trims_trim _) (trims_trim _)
          intro h
          apply hb
          rw [h1, List.head?_append_of_ne_nil _ (by intro hx; rw [hx] at h; cases h)]
          exact h

/-- Some line among `ks` opened the section `p`. -/
def Opened (ks : List Kind) (p : List Str) : Prop := ∃ i d n, ks[i]? = some (.header d n) ∧ before ks (i + 1) = p

/-- Some line among `ks` gave `v` for `k` in section `p`. -/
def Given (ks : List Kind) (p : List Str) (k v : Str) : Prop := ∃ i, ks[i]? = some (.assign k v) ∧ before ks i = p

theorem path_append (a b : List Kind) (p : List Str) : path (a ++ b) p = path b (path a p) := by
  induction a generalizing p with
  | nil => rfl
  | cons k r ih => cases k <;> simp only [List.cons_append, path, ih]

theorem before_append {ks : List Kind} {i : Nat} (h : i ≤ ks.length) (k : Kind) : before (ks ++ [k]) i = before ks i := by
  unfold before
  rw [List.take_append_of_le_length h]

theorem before_all (ks : List Kind) : before ks ks.length = path ks [] := by
  unfold before
  rw [List.take_length]

theorem before_succ (ks : List Kind) (k : Kind) : before (ks ++ [k]) (ks.length + 1) = path [k] (path ks []) := by
  unfold before
  rw [← path_append, List.take_of_length_le (by simp)]

theorem getElem?_snoc {β : Type} {l : List β} {x y : β} {i : Nat} (h : (l ++ [x])[i]? = some y) : (i < l.length ∧ l[i]? = some y) ∨ (i = l.length ∧ y = x) := by
  rcases Nat.lt_trichotomy i l.length with hi | hi | hi
  · rw [List.getElem?_append_left hi] at h; exact Or.inl ⟨hi, h⟩
  · subst hi
    rw [List.getElem?_append_right (le_refl _), Nat.sub_self] at h
    exact Or.inr ⟨rfl, (Option.some.inj h).symm⟩
  · rw [List.getElem?_eq_none (by simp; omega)] at h; cases h

theorem getElem?_snoc_left {β : Type} {l : List β} {y : β} {i : Nat} (x : β) (h : l[i]? = some y) : (l ++ [x])[i]? = some y := by
  rw [List.getElem?_append_left (List.getElem?_eq_some_iff.1 h).1, h]

theorem getElem?_snoc_last {β : Type} (l : List β) (x : β) : (l ++ [x])[l.length]? = some x := by simp

theorem opened_snoc {ks : List Kind} {k : Kind} {p : List Str} :
    Opened (ks ++ [k]) p ↔ Opened ks p ∨ ∃ d n, k = .header d n ∧ p = (path ks []).take (d - 1) ++ [n] := by
  constructor
  · rintro ⟨i, d, n, h1, h2⟩
    rcases getElem?_snoc h1 with ⟨hi, h⟩ | ⟨hi, h⟩
    · exact Or.inl ⟨i, d, n, h, by rw [before_append (by omega)] at h2; exact h2⟩
    · subst hi; subst h
      rw [before_succ] at h2
      exact Or.inr ⟨d, n, rfl, h2.symm⟩
  · rintro (⟨i, d, n, h1, h2⟩ | ⟨d, n, rfl, rfl⟩)
    · have := (List.getElem?_eq_some_iff.1 h1).1
      exact ⟨i, d, n, getElem?_snoc_left _ h1, by rw [before_append (by omega)]; exact h2⟩
    · exact ⟨ks.length, d, n, getElem?_snoc_last _ _, by rw [before_succ]; rfl⟩

theorem given_snoc {ks : List Kind} {x : Kind} {p : List Str} {k v : Str} :
    Given (ks ++ [x]) p k v ↔ Given ks p k v ∨ (x = .assign k v ∧ p = path ks []) := by
  constructor
  · rintro ⟨i, h1, h2⟩
    rcases getElem?_snoc h1 with ⟨hi, h⟩ | ⟨hi, h⟩
    · exact Or.inl ⟨i, h, by rw [before_append (by omega)] at h2; exact h2⟩
    · subst hi; subst h
      rw [before_append (le_refl _), before_all] at h2
      exact Or.inr ⟨rfl, h2.symm⟩
  · rintro (⟨i, h1, h2⟩ | ⟨rfl, rfl⟩)
    · have := (List.getElem?_eq_some_iff.1 h1).1
      exact ⟨i, getElem?_snoc_left _ h1, by rw [before_append (by omega)]; exact h2⟩
    · exact ⟨ks.length, getElem?_snoc_last _ _, by rw [before_append (le_refl _), before_all]⟩

theorem prefix_open (ks : List Kind) :
    (∀ p, p ≠ [] → p <+: path ks [] → Opened ks p) ∧ (∀ q p, Opened ks q → p ≠ [] → p <+: q → Opened ks p) := by
  induction ks using List.reverseRecOn with
  | nil =>
    refine ⟨fun p hp h => absurd (List.prefix_nil.1 h) hp, ?_⟩
    rintro q p ⟨i, d, n, h, _⟩
    simp at h
  | append_singleton ks k ih =>
    have hnew : ∀ d n p, k = .header d n → p ≠ [] → p <+: (path ks []).take (d - 1) ++ [n] → Opened (ks ++ [k]) p := by
      intro d n p hk hp hpre
      rw [opened_snoc]
      rcases List.prefix_concat_iff.1 hpre with h | h
      · exact Or.inr ⟨d, n, hk, h⟩
      · exact Or.inl (ih.1 p hp (h.trans (List.take_prefix _ _)))
    constructor
    · intro p hp hpre
      rw [path_append] at hpre
      cases k with
      | header d n => exact hnew d n p rfl hp hpre
      | ignored => exact opened_snoc.2 (Or.inl (ih.1 p hp hpre))
      | malformed => exact opened_snoc.2 (Or.inl (ih.1 p hp hpre))
      | assign _ _ => exact opened_snoc.2 (Or.inl (ih.1 p hp hpre))
    · intro q p hq hp hpre
      rcases opened_snoc.1 hq with h | ⟨d, n, hk, rfl⟩
      · exact opened_snoc.2 (Or.inl (ih.2 q p h hp hpre))
      · exact hnew d n p hk hp hpre

theorem given_open {ks : List Kind} {p : List Str} {k v : Str} (h : Given ks p k v) (hp : p ≠ []) : Opened ks p := by
  induction ks using List.reverseRecOn with
  | nil => obtain ⟨i, h, _⟩ := h; simp at h
  | append_singleton ks x ih =>
    rw [opened_snoc]
    rcases given_snoc.1 h with h1 | ⟨h1, h2⟩
    · exact Or.inl (ih h1)
    · exact Or.inl ((prefix_open ks).1 p hp (by rw [h2]; exact List.prefix_refl _))

/-- What the next line must satisfy. -/
def StepLegal (ks : List Kind) : Kind → Prop
  | .ignored => True
  | .malformed => False
  | .header d n => d ≤ (path ks []).length + 1 ∧ ¬ Opened ks ((path ks []).take (d - 1) ++ [n])
  | .assign k _ => ∀ v', ¬ Given ks (path ks []) k v'

theorem legal_nil : Legal [] := ⟨by simp, by simp, by simp, by simp⟩

theorem legal_snoc {ks : List Kind} {k : Kind} : Legal (ks ++ [k]) ↔ Legal ks ∧ StepLegal ks k := by
  constructor
  · intro h
    refine ⟨⟨fun hm => h.lines (List.mem_append_left _ hm), ?_, ?_, ?_⟩, ?_⟩
    · intro i d n hi
      have hl := (List.getElem?_eq_some_iff.1 hi).1
      have := h.depth i d n (getElem?_snoc_left _ hi)
      rwa [before_append (by omega)] at this
    · intro i j d n d' n' hij hi hj
      have hl := (List.getElem?_eq_some_iff.1 hj).1
      have := h.sections i j d n d' n' hij (getElem?_snoc_left _ hi) (getElem?_snoc_left _ hj)
      rwa [before_append (by omega), before_append (by omega)] at this
    · intro i j k' v v' hij hi hj
      have hl := (List.getElem?_eq_some_iff.1 hj).1
      have := h.keys i j k' v v' hij (getElem?_snoc_left _ hi) (getElem?_snoc_left _ hj)
      rwa [before_append (by omega), before_append (by omega)] at this
    · cases k with
      | ignored => trivial
      | malformed => exact h.lines (by simp)
      | header d n =>
        have h1 := h.depth ks.length d n (getElem?_snoc_last _ _)
        rw [before_append (le_refl _), before_all] at h1
        refine ⟨h1, ?_⟩
        rintro ⟨i, d', n', h2, h3⟩
        have hl := (List.getElem?_eq_some_iff.1 h2).1
        apply h.sections i ks.length d' n' d n hl (getElem?_snoc_left _ h2) (getElem?_snoc_last _ _)
        rw [before_append (by omega), before_succ, h3]
        rfl
      | assign k v =>
        rintro v' ⟨i, h2, h3⟩
        have hl := (List.getElem?_eq_some_iff.1 h2).1
        apply h.keys i ks.length k v' v hl (getElem?_snoc_left _ h2) (getElem?_snoc_last _ _)
        rw [before_append (by omega), before_append (le_refl _), before_all, h3]
  · rintro ⟨h, hs⟩
    refine ⟨?_, ?_, ?_, ?_⟩
    · intro hm
      rcases List.mem_append.1 hm with h1 | h1
      · exact h.lines h1
      · simp only [List.mem_singleton] at h1; subst h1; exact hs
    · intro i d n hi
      rcases getElem?_snoc hi with ⟨hl, h1⟩ | ⟨hl, h1⟩
      · rw [before_append (by omega)]; exact h.depth i d n h1
      · subst hl; subst h1
        rw [before_append (le_refl _), before_all]; exact hs.1
    · intro i j d n d' n' hij hi hj
      rcases getElem?_snoc hj with ⟨hl, h1⟩ | ⟨hl, h1⟩
      · rcases getElem?_snoc hi with ⟨hl2, h2⟩ | ⟨hl2, h2⟩
        · rw [before_append (by omega), before_append (by omega)]; exact h.sections i j d n d' n' hij h2 h1
        · omega
      · subst hl; subst h1
        rcases getElem?_snoc hi with ⟨hl2, h2⟩ | ⟨hl2, h2⟩
        · rw [before_append (by omega), before_succ]
          intro he
          exact hs.2 ⟨i, d, n, h2, he⟩
        · omega
    · intro i j k' v v' hij hi hj
      rcases getElem?_snoc hj with ⟨hl, h1⟩ | ⟨hl, h1⟩
      · rcases getElem?_snoc hi with ⟨hl2, h2⟩ | ⟨hl2, h2⟩
        · rw [before_append (by omega), before_append (by omega)]; exact h.keys i j k' v v' hij h2 h1
        · omega
      · subst hl; subst h1
        rcases getElem?_snoc hi with ⟨hl2, h2⟩ | ⟨hl2, h2⟩
        · rw [before_append (by omega), before_append (le_refl _), before_all]
          intro he
          exact hs v ⟨i, h2, he⟩
        · omega

/-- What the parser knows after the lines `ks`. -/
structure Inv (ks : List Kind) (st : State) : Prop where
  cur : st.cur = path ks []
  curOpen : st.cur ≠ [] → Opened ks st.cur
  nilClosed : ¬ Opened ks []
  opened : ∀ p, Opened ks p → (st.levels p).depth = p.length
  closed : ∀ p, ¬ Opened ks p → (st.levels p).depth = 0
  sections : ∀ p n, n ∈ (st.levels p).sections ↔ Opened ks (p ++ [n])
  values : ∀ p k v, (st.levels p).values.lookup k = some v ↔ Given ks p k v

theorem inv_init : Inv [] State.init := by
  have ho : ∀ p, ¬ Opened [] p := by rintro p ⟨i, d, n, h, _⟩; simp at h
  refine ⟨rfl, fun h => absurd rfl h, ho _, fun p h => absurd h (ho p), fun p _ => rfl, ?_, ?_⟩
  · intro p n; simp [State.init, Level.new, ho]
  · intro p k v
    constructor
    · intro h; simp [State.init, Level.new] at h
    · rintro ⟨i, h, _⟩; simp at h

theorem Inv.depth {ks : List Kind} {st : State} (h : Inv ks st) : (st.levels st.cur).depth = st.cur.length := by
  by_cases hc : st.cur = []
  · rw [hc]; exact h.closed [] h.nilClosed
  · exact h.opened _ (h.curOpen hc)

theorem climb_ok (n : Nat) (p : List Str) (h : n + 1 ≤ p.length) : climb n p = .ok (p.take (p.length - (n + 1))) := by
  induction n generalizing p with
  | zero =>
    unfold climb parentOf
    rw [if_neg (by rintro rfl; simp at h), List.dropLast_eq_take]
  | succ n ih =>
    unfold climb parentOf
    rw [if_neg (by rintro rfl; simp at h)]
    simp only [Res.ok_bind]
    rw [ih _ (by simp; omega), List.dropLast_eq_take, List.length_take, List.take_take]
    congr 2
    omega

/-- Opening a new section below `base`. -/
theorem enter_ok {ks : List Kind} {st : State} (h : Inv ks st) {d : Nat} {n : Str} (hd : 0 < d) (hd2 : d ≤ st.cur.length + 1) :
    (¬ Opened ks (st.cur.take (d - 1) ++ [n]) → ∃ st', enter st (st.cur.take (d - 1)) n d = .ok st' ∧ Inv (ks ++ [.header d n]) st') ∧
    (Opened ks (st.cur.take (d - 1) ++ [n]) → enter st (st.cur.take (d - 1)) n d = .throw .runtime) := by
  have hlen : (st.cur.take (d - 1) ++ [n]).length = d := by simp; omega
  constructor
  · intro hno
    have hns : n ∉ (st.levels (st.cur.take (d - 1))).sections := fun hm => hno ((h.sections _ _).1 hm)
    generalize hbase : st.cur.take (d - 1) = base at *
    have hcur : path ks [] = st.cur := h.cur.symm
    have hopen : ∀ p, Opened (ks ++ [.header d n]) p ↔ Opened ks p ∨ p = base ++ [n] := by
      intro p
      rw [opened_snoc]
      constructor
      · rintro (h1 | ⟨d', n', h1, h2⟩)
        · exact Or.inl h1
        · cases h1
          rw [hcur, hbase] at h2
          exact Or.inr h2
      · rintro (h1 | h1)
        · exact Or.inl h1
        · exact Or.inr ⟨d, n, rfl, by rw [hcur, hbase]; exact h1⟩
    have hgiv : ∀ p k v, Given (ks ++ [.header d n]) p k v ↔ Given ks p k v := by
      intro p k v
      rw [given_snoc]
      simp
    have hnb : base ++ [n] ≠ base := by intro he; have := congrArg List.length he; simp at this
    have hnogiv : ∀ k v, ¬ Given ks (base ++ [n]) k v := fun k v hg => hno (given_open hg (by simp))
    refine ⟨{ ((st.put base { st.levels base with sections := n :: (st.levels base).sections }).put (base ++ [n]) Level.new).put (base ++ [n]) { Level.new with depth := d }
      with cur := base ++ [n] }, ?_, ?_⟩
    · unfold enter State.section
      rw [if_neg hns]
      simp only [State.put, if_true]
      rw [if_neg (by simp [Level.new])]
    · refine ⟨?_, ?_, ?_, ?_, ?_, ?_, ?_⟩
      · show base ++ [n] = _
        rw [path_append, hcur]
        show _ = st.cur.take (d - 1) ++ [n]
        rw [hbase]
      · intro _; rw [hopen]; exact Or.inr rfl
      · rw [hopen]
        rintro (h1 | h1)
        · exact h.nilClosed h1
        · simp at h1
      · intro p hp
        simp only [State.put]
        by_cases h1 : p = base ++ [n]
        · rw [if_pos h1, h1]; exact hlen.symm
        · rw [if_neg h1, if_neg h1]
          have := h.opened p (((hopen p).1 hp).resolve_right h1)
          split <;> simp_all
      · intro p hp
        rw [hopen, not_or] at hp
        simp only [State.put]
        rw [if_neg hp.2, if_neg hp.2]
        have := h.closed p hp.1
        split <;> simp_all
      · intro p m
        simp only [State.put]
        rw [hopen]
        by_cases h1 : p = base ++ [n]
        · rw [if_pos h1]
          subst h1
          simp only [Level.new, List.not_mem_nil, false_iff, not_or]
          refine ⟨?_, by intro he; have := congrArg List.length he; simp at this⟩
          intro ho
          exact hno ((prefix_open ks).2 _ _ ho (by simp) (List.prefix_append _ _))
        · rw [if_neg h1, if_neg h1]
          by_cases h2 : p = base
          · rw [if_pos h2]
            subst h2
            simp only [List.mem_cons, h.sections, List.append_cancel_left_eq, List.cons.injEq, and_true]
            tauto
          · rw [if_neg h2, h.sections]
            constructor
            · intro h3; exact Or.inl h3
            · rintro (h3 | h3)
              · exact h3
              · exact absurd (List.append_inj_left' h3 rfl) h2
      · intro p k v
        simp only [State.put]
        rw [hgiv]
        by_cases h1 : p = base ++ [n]
        · rw [if_pos h1]
          subst h1
          simp [Level.new, hnogiv]
        · rw [if_neg h1, if_neg h1]
          split
          · rename_i h2; subst h2; exact h.values p k v
          · exact h.values p k v
  · intro ho
    unfold enter State.section
    rw [if_pos ((h.sections _ _).2 ho)]
    simp only
    rw [h.opened _ ho, if_pos (by rw [hlen]; omega)]

/-- One line. -/
theorem line_step {ks : List Kind} {st : State} (h : Inv ks st) (s : Str) :
    (StepLegal ks (kindOf s) → ∃ st', line st s = .ok st' ∧ Inv (ks ++ [kindOf s]) st') ∧
    (¬ StepLegal ks (kindOf s) → line st s = .throw .runtime) := by
  have hign : Inv (ks ++ [.ignored]) st := by
    have ho : ∀ p, Opened (ks ++ [.ignored]) p ↔ Opened ks p := by intro p; rw [opened_snoc]; simp
    refine ⟨by rw [path_append]; exact h.cur, ?_, ?_, ?_, ?_, ?_, ?_⟩
    · intro hc; rw [ho]; exact h.curOpen hc
    · rw [ho]; exact h.nilClosed
    · intro p hp; exact h.opened p ((ho p).1 hp)
    · intro p hp; exact h.closed p (fun hh => hp ((ho p).2 hh))
    · intro p n; rw [ho]; exact h.sections p n
    · intro p k v; rw [given_snoc]; simp [h.values p k v]
  unfold line kindOf
  by_cases hc : s.head? = some '#' ∨ s.head? = some ';'
  · simp only [if_pos hc]
    exact ⟨fun _ => ⟨st, rfl, hign⟩, fun hn => absurd trivial hn⟩
  simp only [if_neg hc]
  by_cases h0 : trim s = []
  · simp only [if_pos h0]
    exact ⟨fun _ => ⟨st, rfl, hign⟩, fun hn => absurd trivial hn⟩
  simp only [if_neg h0]
  by_cases hb : (trim s).head? = some '['
  · simp only [if_pos hb]
    have hd : 0 < (parseSLine (trim s)).2 := by
      unfold parseSLine
      cases hx : trim s with
      | nil => exact absurd hx h0
      | cons c r =>
        rw [hx] at hb
        simp only [List.head?_cons, Option.some.injEq] at hb
        subst hb
        simp
    generalize hps : parseSLine (trim s) = r at *
    obtain ⟨n, d⟩ := r
    simp only at hd
    unfold header
    simp only [hps, StepLegal, ← h.cur]
    rw [h.depth]
    by_cases hd2 : d ≤ st.cur.length + 1
    · rw [if_neg (by omega)]
      have hE := enter_ok h (n := n) hd hd2
      have hstep : (if st.cur.length = d - 1 then enter st st.cur n d else climb (st.cur.length - d) st.cur >>= fun base => enter st base n d) =
          enter st (st.cur.take (d - 1)) n d := by
        by_cases he : st.cur.length = d - 1
        · rw [if_pos he, List.take_of_length_le (by omega)]
        · rw [if_neg he, climb_ok _ _ (by omega)]
          simp only [Res.ok_bind]
          congr 2
          omega
      rw [hstep]
      refine ⟨fun hl => hE.1 hl.2, fun hl => hE.2 ?_⟩
      by_contra hno
      exact hl ⟨hd2, hno⟩
    · rw [if_pos (by omega)]
      exact ⟨fun hl => absurd hl.1 hd2, fun _ => rfl⟩
  · simp only [if_neg hb]
    unfold assign
    cases hf : findPos (trim s) '=' with
    | none => exact ⟨fun hl => hl.elim, fun _ => rfl⟩
    | some m =>
      simp only
      generalize trim (List.take m (trim s)) = k
      generalize trim (List.drop (m + 1) (trim s)) = v
      simp only [StepLegal, ← h.cur]
      constructor
      · intro hl
        have hnone : (st.levels st.cur).values.lookup k = none := by
          cases hx : (st.levels st.cur).values.lookup k with
          | none => rfl
          | some v' => exact absurd ((h.values _ _ _).1 hx) (hl v')
        rw [if_neg (by rw [hnone]; simp)]
        refine ⟨_, rfl, ?_⟩
        have ho : ∀ p, Opened (ks ++ [.assign k v]) p ↔ Opened ks p := by intro p; rw [opened_snoc]; simp
        refine ⟨by rw [path_append]; exact h.cur, ?_, ?_, ?_, ?_, ?_, ?_⟩
        · intro hc; rw [ho]; exact h.curOpen hc
        · rw [ho]; exact h.nilClosed
        · intro p hp
          have := h.opened p ((ho p).1 hp)
          simp only [State.put]
          split
          · rename_i he; rw [he] at this ⊢; exact this
          · exact this
        · intro p hp
          have := h.closed p (fun hh => hp ((ho p).2 hh))
          simp only [State.put]
          split
          · rename_i he; rw [he] at this; exact this
          · exact this
        · intro p n
          rw [ho, ← h.sections p n]
          simp only [State.put]
          split
          · rename_i he; rw [he]
          · rfl
        · intro p k' v'
          rw [given_snoc, ← h.values p k' v', ← h.cur]
          simp only [State.put]
          split
          · rename_i he
            subst he
            rw [List.lookup_cons]
            by_cases hk : k' = k
            · subst hk
              simp only [beq_self_eq_true, hnone]
              simp
            · have : (k' == k) = false := by simpa using hk
              simp only [this]
              simp [Ne.symm hk]
          · rename_i he
            simp [he]
      · intro hl
        push Not at hl
        obtain ⟨v', hg⟩ := hl
        rw [if_pos (by rw [(h.values _ _ _).2 hg]; rfl)]

theorem forFold_runtime {lines : List Str} {st : State} (s : Str) : Res.forFold line st (lines ++ [s]) = (Res.forFold line st lines >>= fun st' => line st' s) := by
  rw [Res.forFold_append]
  show Res.bind _ _ = Res.bind _ _
  congr 1
  funext x
  simp only [Res.forFold]
  cases line x s <;> rfl

theorem parse_spec (lines : List Str) :
    (Legal (lines.map kindOf) → ∃ st, parse lines = .ok st ∧ Inv (lines.map kindOf) st) ∧ (¬ Legal (lines.map kindOf) → parse lines = .throw .runtime) := by
  unfold parse
  induction lines using List.reverseRecOn with
  | nil => exact ⟨fun _ => ⟨State.init, rfl, inv_init⟩, fun h => absurd legal_nil h⟩
  | append_singleton ls s ih =>
    rw [forFold_runtime, List.map_append, List.map_singleton, legal_snoc]
    by_cases hl : Legal (ls.map kindOf)
    · obtain ⟨st, h1, h2⟩ := ih.1 hl
      rw [h1]
      simp only [Res.ok_bind]
      have := line_step h2 s
      exact ⟨fun h => this.1 h.2, fun h => this.2 (fun hs => h ⟨hl, hs⟩)⟩
    · rw [ih.2 hl]
      exact ⟨fun h => absurd h.1 hl, fun _ => rfl⟩

theorem kinds_of_reads {lines : List Str} {ks : List Kind} (h : List.Forall₂ Reads lines ks) : ks = lines.map kindOf := by
  induction h with
  | nil => rfl
  | cons h1 _ ih => rw [List.map_cons, ← ih, kindOf_of_reads h1]

end Ini

/-- C70: every line can be read in exactly one way. -/
theorem C70_reads (s : List Char) : ∃! k, Reads s k :=
  ⟨Ini.kindOf s, Ini.reads_kindOf s, fun k h => (Ini.kindOf_of_reads h).symm⟩

/-- C70: exactly the legal texts are accepted; others (a line that is neither blank, comment, header nor `key = value`; a header too deep; a
section opened twice; a key given twice in a section) raise a runtime error. -/
theorem C70_accepts {lines : List (List Char)} {ks : List Kind} (h : List.Forall₂ Reads lines ks) :
    ((∃ st, Ini.parse lines = .ok st) ↔ Legal ks) ∧ (¬ Legal ks → Ini.parse lines = .throw .runtime) := by
  rw [Ini.kinds_of_reads h]
  have := Ini.parse_spec lines
  refine ⟨⟨?_, fun hl => let ⟨st, h1, _⟩ := this.1 hl; ⟨st, h1⟩⟩, this.2⟩
  rintro ⟨st, h1⟩
  by_contra hn
  rw [this.2 hn] at h1
  cases h1

/-- C70, loading: from an accepted text, a value is returned for a section and key exactly if the text gives it there; otherwise the exception
names the section if the text has no such section, and the key and the section if it has. -/
theorem C70_load {lines : List (List Char)} {ks : List Kind} (h : List.Forall₂ Reads lines ks) {st : Ini.State} (hp : Ini.parse lines = .ok st) (s k : List Char) :
    (∀ v, (ConfigLoader.open_ st).load s k = .value v ↔ Gives ks s k v) ∧
    ((ConfigLoader.open_ st).load s k = .sectionMissing s ↔ ¬ HasSection ks s) ∧
    ((ConfigLoader.open_ st).load s k = .fieldMissing k s ↔ HasSection ks s ∧ ∀ v, ¬ Gives ks s k v) := by
  have hk := Ini.kinds_of_reads h
  have hspec := Ini.parse_spec lines
  rw [← hk] at hspec
  have hl : Legal ks := by
    by_contra hn
    rw [hspec.2 hn] at hp
    cases hp
  obtain ⟨st', h1, hI⟩ := hspec.1 hl
  rw [hp] at h1
  cases h1
  have hsec : s ∈ (st.levels []).sections ↔ HasSection ks s := hI.sections [] s
  have hval : ∀ v, (st.levels [s]).values.lookup k = some v ↔ Gives ks s k v := fun v => hI.values [s] k v
  have hgs : ∀ v, Gives ks s k v → HasSection ks s := fun v hg => Ini.given_open hg (by simp)
  unfold ConfigLoader.load
  simp only
  by_cases hs : s ∈ (st.levels []).sections
  · rw [if_pos hs]
    cases hx : (st.levels [s]).values.lookup k with
    | none =>
      refine ⟨fun v => ?_, ?_, ?_⟩
      · rw [← hval v, hx]; simp
      · simp [hsec.1 hs]
      · simp only [true_iff]
        exact ⟨hsec.1 hs, fun v hg => by rw [(hval v).2 hg] at hx; cases hx⟩
    | some v' =>
      refine ⟨fun v => ?_, ?_, ?_⟩
      · rw [← hval v, hx]; simp
      · simp [hsec.1 hs]
      · simp only [reduceCtorEq, false_iff, not_and, not_forall, not_not]
        exact fun _ => ⟨v', (hval v').1 hx⟩
  · rw [if_neg hs]
    have hns : ¬ HasSection ks s := fun hh => hs (hsec.2 hh)
    refine ⟨fun v => ?_, ?_, ?_⟩
    · simp only [reduceCtorEq, false_iff]
      exact fun hg => hns (hgs v hg)
    · simp [hns]
    · simp [hns]

/-- C70: no section and key has two values. -/
theorem C70_unique {ks : List Kind} (h : Legal ks) {s k v v' : List Char} (h1 : Gives ks s k v) (h2 : Gives ks s k v') : v = v' := by
  obtain ⟨i, a1, a2⟩ := h1
  obtain ⟨j, b1, b2⟩ := h2
  rcases Nat.lt_trichotomy i j with hij | hij | hij
  · exact absurd (a2.trans b2.symm) (h.keys i j k v v' hij a1 b1)
  · subst hij
    rw [a1] at b1
    cases b1
    rfl
  · exact absurd (b2.trans a2.symm) (h.keys j i k v' v hij b1 a1)

/-- C70: the sections listed are those of depth one; without an open file none. -/
theorem C70_listSections {lines : List (List Char)} {ks : List Kind} (h : List.Forall₂ Reads lines ks) {st : Ini.State} (hp : Ini.parse lines = .ok st) :
    ∃ l, (ConfigLoader.open_ st).listSections = .ok l ∧ ∀ s, s ∈ l ↔ HasSection ks s := by
  have hk := Ini.kinds_of_reads h
  have hspec := Ini.parse_spec lines
  rw [← hk] at hspec
  have hl : Legal ks := by
    by_contra hn
    rw [hspec.2 hn] at hp
    cases hp
  obtain ⟨st', h1, hI⟩ := hspec.1 hl
  rw [hp] at h1
  cases h1
  exact ⟨_, rfl, fun s => hI.sections [] s⟩

/-- C70, opening: a file that is not there raises an I/O error and leaves the previous one open; a legal one replaces the previous one. -/
theorem C70_open (c : ConfigLoader) (hc : c ≠ .deleted) : c.open' none = (c, .throw .io) ∧
    ∀ lines ks, List.Forall₂ Reads lines ks → Legal ks → ∃ st, Ini.parse lines = .ok st ∧ c.open' (some lines) = (.open_ st, .ok ()) := by
  refine ⟨by cases c <;> rfl, ?_⟩
  intro lines ks h hl
  obtain ⟨st, h1⟩ := (C70_accepts h).1.2 hl
  refine ⟨st, h1, ?_⟩
  cases c with
  | null => unfold ConfigLoader.open'; simp only [h1]
  | open_ _ => unfold ConfigLoader.open'; simp only [h1]
  | deleted => exact absurd rfl hc

/-- C70 is wrong after a failed second opening: an illegal text raises the runtime error, but the static pointer still points to the deleted
parser of the previous file, so that any later call (even closing, or opening a good file) is undefined; and loading without an open file is
undefined instead of an error. -/
theorem C70_failed_open_wrong {lines : List (List Char)} {ks : List Kind} (h : List.Forall₂ Reads lines ks) (hl : ¬ Legal ks) (st : Ini.State) :
    (ConfigLoader.open_ st).open' (some lines) = (.deleted, .throw .runtime) ∧
    (∀ s k, ConfigLoader.deleted.load s k = .ub) ∧ ConfigLoader.deleted.close.2 = .ub ∧ ConfigLoader.deleted.listSections = .ub ∧
    (∀ ls, (ConfigLoader.deleted.open' (some ls)).2 = .ub) ∧ (∀ s k, ConfigLoader.null.load s k = .ub) := by
  refine ⟨?_, fun _ _ => rfl, rfl, rfl, fun _ => rfl, fun _ _ => rfl⟩
  unfold ConfigLoader.open'
  simp only [(C70_accepts h).2 hl]

theorem getLines_line (l r acc : List Char) (h : '\n' ∉ l) : Ini.getLines (l ++ '\n' :: r) acc = (acc.reverse ++ l) :: Ini.getLines r [] := by
  induction l generalizing acc with
  | nil => simp [Ini.getLines]
  | cons c t ih =>
    simp only [List.mem_cons, not_or] at h
    simp only [List.cons_append, Ini.getLines]
    rw [if_neg (Ne.symm h.1), ih _ h.2]
    simp

theorem getLines_last (l acc : List Char) (h : '\n' ∉ l) : Ini.getLines l acc = if acc.reverse ++ l = [] then [] else [acc.reverse ++ l] := by
  induction l generalizing acc with
  | nil => simp [Ini.getLines]
  | cons c t ih =>
    simp only [List.mem_cons, not_or] at h
    simp only [Ini.getLines]
    rw [if_neg (Ne.symm h.1), ih _ h.2]
    simp

/-- C70: the lines of a text are the pieces between the line ends, whether or not the last line ends with one. -/
theorem C70_lines (ls : List (List Char)) (last : List Char) (h : ∀ l ∈ ls, '\n' ∉ l) (hl : '\n' ∉ last) :
    Ini.getLines (ls.flatMap (fun l => l ++ ['\n']) ++ last) [] = ls ++ (if last = [] then [] else [last]) := by
  induction ls with
  | nil =>
    simp only [List.flatMap_nil, List.nil_append]
    have h1 := getLines_last last [] hl
    by_cases hx : last = []
    · subst hx; rfl
    · rw [if_neg (by simpa using hx)] at h1
      rw [if_neg hx]
      simpa using h1
  | cons a r ih =>
    have : (a :: r).flatMap (fun l => l ++ ['\n']) ++ last = a ++ '\n' :: (r.flatMap (fun l => l ++ ['\n']) ++ last) := by simp
    rw [this, getLines_line _ _ _ (h a (by simp)), ih (fun l hl => h l (by simp [hl]))]
    simp

/-- A configuration text. -/
def exConfig : List (List Char) :=
  ["# comment", "[ energy ]", "", " nbins = 10\r", "bounds=0, 10", "[[sub]]", "nbins = 3", "[radius]", "nbins = 20", "name = a=b"].map String.toList

/-- Non-vacuity of the C70 theorems: the text is accepted and read as it should be. Blanks inside brackets belong to the name, only the first
equal sign counts, and the key of a subsection is not confused with that of its parent. -/
example : ∃ st, Ini.parse exConfig = .ok st ∧ (ConfigLoader.open_ st).load " energy ".toList "nbins".toList = .value "10".toList ∧
    (ConfigLoader.open_ st).load "radius".toList "nbins".toList = .value "20".toList ∧
    (ConfigLoader.open_ st).load "radius".toList "name".toList = .value "a=b".toList ∧
    (ConfigLoader.open_ st).load "energy".toList "nbins".toList = .sectionMissing "energy".toList ∧
    (ConfigLoader.open_ st).load "radius".toList "bounds".toList = .fieldMissing "bounds".toList "radius".toList ∧
    (ConfigLoader.open_ st).load "sub".toList "nbins".toList = .sectionMissing "sub".toList ∧
    Legal (exConfig.map Ini.kindOf) := by
  have hp : ∃ st, Ini.parse exConfig = .ok st := by
    cases h : Ini.parse exConfig with
    | ok st => exact ⟨st, rfl⟩
    | throw e => exact absurd (by rw [h]; rfl : (Ini.parse exConfig).isOk = false) (by decide +kernel)
    | ub => exact absurd (by rw [h]; rfl : (Ini.parse exConfig).isOk = false) (by decide +kernel)
  obtain ⟨st, hp⟩ := hp
  have key : ∀ (f : Ini.State → Loaded) (v : Loaded), (Ini.parse exConfig >>= fun st => Res.ok (f st)) = .ok v → f st = v := by
    intro f v h
    rw [hp] at h
    exact Res.ok.inj h
  refine ⟨st, hp, ?_, ?_, ?_, ?_, ?_, ?_, ?_⟩
  · exact key (fun st => (ConfigLoader.open_ st).load " energy ".toList "nbins".toList) _ (by decide +kernel)
  · exact key (fun st => (ConfigLoader.open_ st).load "radius".toList "nbins".toList) _ (by decide +kernel)
  · exact key (fun st => (ConfigLoader.open_ st).load "radius".toList "name".toList) _ (by decide +kernel)
  · exact key (fun st => (ConfigLoader.open_ st).load "energy".toList "nbins".toList) _ (by decide +kernel)
  · exact key (fun st => (ConfigLoader.open_ st).load "radius".toList "bounds".toList) _ (by decide +kernel)
  · exact key (fun st => (ConfigLoader.open_ st).load "sub".toList "nbins".toList) _ (by decide +kernel)
  · have hr : List.Forall₂ Reads exConfig (exConfig.map Ini.kindOf) := by
      rw [List.forall₂_map_right_iff]
      exact List.forall₂_same.2 (fun s _ => Ini.reads_kindOf s)
    exact (C70_accepts hr).1.1 ⟨st, hp⟩

/-- A key given twice is refused, the same key in another section is not. -/
example : (Ini.parse (["[a]", "k=1", "k=2"].map String.toList)).isOk = false ∧ (Ini.parse (["[a]", "k=1", "[b]", "k=2"].map String.toList)).isOk = true ∧
    (Ini.parse (["[a]", "[b]", "[a]"].map String.toList)).isOk = false ∧ (Ini.parse (["[[a]]"].map String.toList)).isOk = false := by decide +kernel

/-- C70, closing: after `Close` no sections are listed and loading is undefined (a null pointer is followed), until another legal file is opened, from which
values are then read as from the first. -/
theorem C70_close (c : ConfigLoader) (hc : c ≠ .deleted) :
    c.close.2 = .ok () ∧ c.close.1.listSections = .ok [] ∧ (∀ s k, c.close.1.load s k = .ub) ∧ c.close.1.close.2 = .ok () ∧
    ∀ lines ks, List.Forall₂ Reads lines ks → Legal ks → ∃ st, c.close.1.open' (some lines) = (.open_ st, .ok ()) ∧
      ∀ s k v, (ConfigLoader.open_ st).load s k = .value v ↔ Gives ks s k v := by
  have h1 : c.close = (.null, .ok ()) := by cases c with
    | deleted => exact absurd rfl hc
    | null => rfl
    | open_ st => rfl
  rw [h1]
  refine ⟨rfl, rfl, fun _ _ => rfl, rfl, fun lines ks h hl => ?_⟩
  obtain ⟨st, g1, g2⟩ := (C70_open .null (by simp)).2 lines ks h hl
  exact ⟨st, g2, fun s k v => (C70_load h g1 s k).1 v⟩

end Oxsx
