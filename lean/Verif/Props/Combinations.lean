import Verif.Model.Combinations
import Verif.Lemmas.Basic
import Mathlib.Data.List.Nodup
import Mathlib.Data.List.TakeWhile
import Mathlib.Algebra.BigOperators.Group.List.Basic
/-
Properties C62 (combinations) and C63 (string splitting).
-/
set_option linter.unusedSectionVars false
set_option linter.unusedSimpArgs false
set_option linter.unusedVariables false
namespace Oxsx
open Combinations ContainerTools

namespace Combinations

/-- The combinations added by the recursion at a given depth. -/
def added (maxes : List Nat) : Nat → List Nat → List (List Nat)
  | 0, vec => [vec]
  | d + 1, vec => (List.range (maxes.getD d 0)).flatMap (fun i => added maxes d (vec.set d i))

theorem recursive_eq (maxes : List Nat) : ∀ (d : Nat) (combs : List (List Nat)) (vec : List Nat), d ≤ vec.length → d ≤ maxes.length →
    recursive d combs vec maxes = .ok (combs ++ added maxes d vec) := by
  intro d
  induction d with
  | zero => intro combs vec _ _; rfl
  | succ d ih =>
    intro combs vec hv hm
    have hi : idx maxes d = .ok (maxes.getD d 0) := by
      rw [idx_of_lt (by omega)]; simp [List.getD, show d < maxes.length by omega]
    simp only [recursive, hi, Res.ok_bind]
    have key := Res.forFold_range (n := maxes.getD d 0) (s := (combs, vec)) (f := fun (s : List (List Nat) × List Nat) i => do
        let v ← setIdx s.2 d i
        let c ← recursive d s.1 v maxes
        pure (c, v))
      (fun i s => s.1 = combs ++ (List.range i).flatMap (fun i => added maxes d (vec.set d i)) ∧
        s.2.length = vec.length ∧ ∀ j, s.2.set d j = vec.set d j)
      ⟨by simp, rfl, fun _ => rfl⟩ (by
        rintro i ⟨c, v⟩ hi ⟨h1, h2, h3⟩
        simp only at h1 h2 h3
        refine ⟨(combs ++ (List.range (i + 1)).flatMap (fun i => added maxes d (vec.set d i)), vec.set d i), ?_, rfl,
          by simp, by simp⟩
        rw [show setIdx v d i = .ok (vec.set d i) by rw [setIdx_of_lt (by omega), h3]]
        simp only [Res.ok_bind]
        rw [ih _ _ (by simp; omega) (by omega), h1]
        simp [List.range_succ])
    obtain ⟨t, h1, h2, _⟩ := key
    rw [h1]; simp only [Res.ok_bind, Res.pure_eq, h2]; rfl

theorem mem_added (maxes : List Nat) : ∀ (d : Nat) (vec v : List Nat), d ≤ vec.length → d ≤ maxes.length →
    (v ∈ added maxes d vec ↔ v.length = vec.length ∧ (∀ i, i < d → v.getD i 0 < maxes.getD i 0) ∧
      ∀ i, d ≤ i → v[i]? = vec[i]?) := by
  intro d
  induction d with
  | zero =>
    intro vec v _ _
    simp only [added, List.mem_singleton]
    constructor
    · rintro rfl; exact ⟨rfl, by omega, fun _ _ => rfl⟩
    · rintro ⟨_, _, h⟩; exact List.ext_getElem? (fun i => h i (by omega))
  | succ d ih =>
    intro vec v hv hm
    simp only [added, List.mem_flatMap, List.mem_range]
    constructor
    · rintro ⟨i, hi, h⟩
      obtain ⟨h1, h2, h3⟩ := (ih (vec.set d i) v (by simp; omega) (by omega)).1 h
      refine ⟨by simpa using h1, ?_, ?_⟩
      · intro j hj
        by_cases hjd : j = d
        · subst hjd
          have := h3 j (by omega)
          rw [List.getElem?_set_self (by omega)] at this
          simpa [List.getD, this] using hi
        · exact h2 j (by omega)
      · intro j hj
        rw [h3 j (by omega), List.getElem?_set_ne (by omega)]
    · rintro ⟨h1, h2, h3⟩
      refine ⟨v.getD d 0, h2 d (by omega), (ih _ v (by simp; omega) (by omega)).2 ⟨by simpa using h1, fun j hj => h2 j (by omega), ?_⟩⟩
      intro j hj
      by_cases hjd : j = d
      · subst hjd
        rw [List.getElem?_set_self (by omega)]
        have : j < v.length := by omega
        simp [List.getD, this]
      · rw [List.getElem?_set_ne (Ne.symm hjd)]; exact h3 j (by omega)

theorem nodup_added (maxes : List Nat) : ∀ (d : Nat) (vec : List Nat), d ≤ vec.length → d ≤ maxes.length →
    (added maxes d vec).Nodup := by
  intro d
  induction d with
  | zero => intro vec _ _; simp [added]
  | succ d ih =>
    intro vec hv hm
    simp only [added]
    rw [List.nodup_flatMap]
    refine ⟨fun i _ => ih _ (by simp; omega) (by omega), ?_⟩
    apply List.Pairwise.imp _ (List.nodup_range (n := maxes.getD d 0))
    intro i j hij
    rw [Function.onFun, List.disjoint_left]
    intro v h1 h2
    have a := ((mem_added maxes d _ v (by simp; omega) (by omega)).1 h1).2.2 d (by omega)
    have b := ((mem_added maxes d _ v (by simp; omega) (by omega)).1 h2).2.2 d (by omega)
    rw [List.getElem?_set_self (by omega)] at a b
    rw [a] at b; exact hij (Option.some.inj b)

theorem length_added (maxes : List Nat) : ∀ (d : Nat) (vec : List Nat), d ≤ maxes.length →
    (added maxes d vec).length = (maxes.take d).prod := by
  intro d
  induction d with
  | zero => intro vec _; simp [added]
  | succ d ih =>
    intro vec hm
    simp only [added, List.length_flatMap]
    have : ∀ i, (added maxes d (vec.set d i)).length = (maxes.take d).prod := fun i => ih _ (by omega)
    simp only [this]
    rw [List.take_add_one, List.prod_append]
    have hd : d < maxes.length := by omega
    simp [List.getElem?_eq_getElem hd, List.getD, Nat.mul_comm]

end Combinations

/-- C62: called with a vector of one maximum per position (and a work vector of the same length), the helper appends
to the output every combination of indices below the maxima, each exactly once; so their number is the product of the
maxima. -/
theorem C62_all_once (maxes vec : List Nat) (combs : List (List Nat)) (hv : vec.length = maxes.length) :
    ∃ new, recursive maxes.length combs vec maxes = .ok (combs ++ new) ∧ new.Nodup ∧
      (∀ v : List Nat, v ∈ new ↔ List.Forall₂ (· < ·) v maxes) ∧ new.length = maxes.prod := by
  refine ⟨added maxes maxes.length vec, recursive_eq maxes _ _ _ (by omega) (by omega),
    nodup_added _ _ _ (by omega) (by omega), ?_, ?_⟩
  · intro v
    rw [mem_added _ _ _ _ (by omega) (by omega), List.forall₂_iff_get]
    constructor
    · rintro ⟨h1, h2, _⟩
      refine ⟨by omega, fun i h3 h4 => ?_⟩
      have := h2 i (by omega)
      simpa [List.getD, h3, h4] using this
    · rintro ⟨h1, h2⟩
      refine ⟨by omega, fun i hi => ?_, fun i hi => ?_⟩
      · have a : i < v.length := by omega
        have := h2 i a hi
        simpa [List.getD, a, hi] using this
      · rw [List.getElem?_eq_none (by omega), List.getElem?_eq_none (by omega)]
  · rw [length_added _ _ _ (by omega), List.take_length]

example : recursive 2 [] [0, 0] [2, 3] = .ok [[0, 0], [1, 0], [0, 1], [1, 1], [0, 2], [1, 2]] := by decide +kernel

/-- C62 (misuse): more positions than maxima reads past the end (undefined behaviour). -/
theorem C62_short_maxes (maxes vec : List Nat) (combs : List (List Nat)) :
    recursive (maxes.length + 1) combs vec maxes = .ub := by
  simp [recursive, idx_of_ge]

/-- C62 (pairs): for a list without repetitions, every unordered pair of different elements is listed in exactly one
orientation (the element that comes later first), exactly once. -/
theorem C62_pairs {β : Type} (l : List β) (hl : l.Nodup) :
    (allCombsNoDiag l).Nodup ∧
    (∀ a b, (a, b) ∈ allCombsNoDiag l ↔ ∃ i j : Nat, j < i ∧ l[i]? = some a ∧ l[j]? = some b) ∧
    (∀ a b, a ∈ l → b ∈ l → a ≠ b → ((a, b) ∈ allCombsNoDiag l ↔ (b, a) ∉ allCombsNoDiag l)) ∧
    (∀ a, (a, a) ∉ allCombsNoDiag l) := by
  have mem : ∀ a b, (a, b) ∈ allCombsNoDiag l ↔ ∃ i j : Nat, j < i ∧ l[i]? = some a ∧ l[j]? = some b := by
    intro a b
    simp only [allCombsNoDiag, List.mem_flatMap, List.mem_range]
    constructor
    · rintro ⟨i, hi, h⟩
      rw [List.getElem?_eq_getElem hi] at h
      simp only [List.mem_map, Prod.mk.injEq] at h
      obtain ⟨b', hb', h1, h2⟩ := h
      subst h2
      obtain ⟨j, hj, hj'⟩ := List.mem_iff_getElem.1 hb'
      have hji : j < i := by simp at hj; omega
      refine ⟨i, j, hji, by rw [List.getElem?_eq_getElem hi, h1], ?_⟩
      rw [← hj', List.getElem_take]
      exact List.getElem?_eq_getElem (by omega)
    · rintro ⟨i, j, hji, h1, h2⟩
      have hi := (List.getElem?_eq_some_iff.1 h1).1
      refine ⟨i, hi, ?_⟩
      rw [h1]
      simp only [List.mem_map, Prod.mk.injEq]
      exact ⟨b, List.mem_iff_getElem?.2 ⟨j, by rw [List.getElem?_take_of_lt hji]; exact h2⟩, trivial, rfl⟩
  have inj : ∀ {i j : Nat} {x : β}, l[i]? = some x → l[j]? = some x → i = j := fun h1 h2 => nodup_getElem?_inj hl h1 h2
  refine ⟨?_, mem, ?_, ?_⟩
  · unfold allCombsNoDiag
    rw [List.nodup_flatMap]
    constructor
    · intro i hi
      rw [List.mem_range] at hi
      rw [List.getElem?_eq_getElem hi]
      exact List.Nodup.map (fun a b h => (Prod.mk.inj h).2) (hl.sublist (List.take_sublist _ _))
    · apply List.Pairwise.imp_of_mem _ (List.nodup_range (n := l.length))
      intro i j hi hj hij
      rw [List.mem_range] at hi hj
      rw [Function.onFun, List.getElem?_eq_getElem hi, List.getElem?_eq_getElem hj, List.disjoint_left]
      rintro ⟨x, y⟩ h1 h2
      simp only [List.mem_map, Prod.mk.injEq] at h1 h2
      obtain ⟨_, _, e1, _⟩ := h1
      obtain ⟨_, _, e2, _⟩ := h2
      exact hij (inj (x := x) (by rw [List.getElem?_eq_getElem hi, e1]) (by rw [List.getElem?_eq_getElem hj, e2]))
  · intro a b ha hb hab
    obtain ⟨i, hi⟩ := List.mem_iff_getElem?.1 ha
    obtain ⟨j, hj⟩ := List.mem_iff_getElem?.1 hb
    have hij : i ≠ j := by rintro rfl; rw [hi] at hj; exact hab (Option.some.inj hj)
    rw [mem, mem]
    constructor
    · rintro ⟨i', j', h1, h2, h3⟩ ⟨i'', j'', k1, k2, k3⟩
      have := inj h2 k3
      have := inj h3 k2
      omega
    · intro h
      refine ⟨i, j, ?_, hi, hj⟩
      by_contra hlt
      exact h ⟨j, i, by omega, hj, hi⟩
  · intro a h
    obtain ⟨i, j, h1, h2, h3⟩ := (mem a a).1 h
    have := inj h2 h3
    omega

example : allCombsNoDiag ["a", "b", "c"] = [("b", "a"), ("c", "a"), ("c", "b")] := by decide +kernel

/-! ### C63 -/

namespace ContainerTools

theorem splitLoop_stable (d : Char) : ∀ (fuel : Nat) (s : List Char), s.length ≤ fuel →
    splitLoop d fuel s = splitLoop d s.length s := by
  suffices h : ∀ (n fuel fuel' : Nat) (s : List Char), s.length ≤ n → s.length ≤ fuel → s.length ≤ fuel' →
      splitLoop d fuel s = splitLoop d fuel' s by
    intro fuel s hs; exact h s.length _ _ s (le_refl _) hs (le_refl _)
  intro n
  induction n with
  | zero =>
    intro fuel fuel' s hs _ _
    have : s = [] := List.length_eq_zero_iff.1 (by omega)
    subst this
    cases fuel <;> cases fuel' <;> simp [splitLoop, getline]
  | succ n ih =>
    intro fuel fuel' s hs h1 h2
    cases s with
    | nil => cases fuel <;> cases fuel' <;> simp [splitLoop, getline]
    | cons c cs =>
      cases fuel with
      | zero => simp at h1
      | succ f =>
        cases fuel' with
        | zero => simp at h2
        | succ f' =>
          simp only [splitLoop, getline]
          have hl : (((c :: cs).dropWhile (· ≠ d)).tail).length ≤ cs.length := by
            rw [List.length_tail]
            have := (List.dropWhile_sublist (fun x => decide (x ≠ d)) (l := c :: cs)).length_le
            simp only [List.length_cons] at this; omega
          simp only [List.length_cons] at hs h1 h2
          rw [ih f f' _ (by omega) (by omega) (by omega)]

theorem splitLoop_word (d : Char) (w : List Char) (hw : d ∉ w) :
    splitLoop d w.length w = if w = [] then [] else [w] := by
  cases w with
  | nil => rfl
  | cons c cs =>
    have h1 : (c :: cs).takeWhile (· ≠ d) = c :: cs := by
      rw [List.takeWhile_eq_self_iff]; intro x hx; simp; rintro rfl; exact hw hx
    have h2 : (c :: cs).dropWhile (· ≠ d) = [] := by
      rw [List.dropWhile_eq_nil_iff]; intro x hx; simp; rintro rfl; exact hw hx
    simp only [List.length_cons, splitLoop, getline, h1, h2]
    cases cs.length <;> simp [splitLoop, getline]

theorem splitLoop_append (d : Char) : ∀ (n : Nat) (a b : List Char), a.length ≤ n →
    splitLoop d (a ++ d :: b).length (a ++ d :: b) = splitLoop d a.length a ++ splitLoop d b.length b := by
  intro n
  induction n with
  | zero =>
    intro a b ha
    have : a = [] := List.length_eq_zero_iff.1 (by omega)
    subst this
    simp [splitLoop, getline]
  | succ n ih =>
    intro a b ha
    by_cases hd : d ∈ a
    · cases a with
      | nil => simp at hd
      | cons c cs =>
        have e1 : ∀ y : List Char, ((c :: cs) ++ y).takeWhile (· ≠ d) = (c :: cs).takeWhile (· ≠ d) := by
          intro y
          rw [List.takeWhile_append]
          have : ((c :: cs).takeWhile (· ≠ d)).length ≠ (c :: cs).length := by
            intro h
            have := List.takeWhile_eq_self_iff.1 ((List.takeWhile_prefix _).eq_of_length h) d hd
            simp at this
          rw [if_neg this]
        have e2 : ∀ y : List Char, ((c :: cs) ++ y).dropWhile (· ≠ d) = (c :: cs).dropWhile (· ≠ d) ++ y := by
          intro y
          rw [List.dropWhile_append]
          have : ((c :: cs).dropWhile (· ≠ d)).isEmpty = false := by
            rw [Bool.eq_false_iff]; intro h
            rw [List.isEmpty_iff, List.dropWhile_eq_nil_iff] at h
            have := h d hd; simp at this
          rw [this]; rfl
        obtain ⟨x, xs, hx⟩ : ∃ x xs, (c :: cs).dropWhile (· ≠ d) = x :: xs := by
          cases h : (c :: cs).dropWhile (· ≠ d) with
          | nil => rw [List.dropWhile_eq_nil_iff] at h; have := h d hd; simp at this
          | cons x xs => exact ⟨x, xs, rfl⟩
        have hlen : xs.length ≤ cs.length := by
          have := (List.dropWhile_sublist (fun x => decide (x ≠ d)) (l := c :: cs)).length_le
          rw [hx] at this; simp only [List.length_cons] at this; omega
        have l1 : splitLoop d ((c :: cs) ++ d :: b).length ((c :: cs) ++ d :: b) =
            if ((c :: cs).takeWhile (· ≠ d)).isEmpty then splitLoop d (xs ++ d :: b).length (xs ++ d :: b)
            else (c :: cs).takeWhile (· ≠ d) :: splitLoop d (xs ++ d :: b).length (xs ++ d :: b) := by
          have : splitLoop d (cs ++ d :: b).length (xs ++ d :: b) = splitLoop d (xs ++ d :: b).length (xs ++ d :: b) :=
            splitLoop_stable d _ _ (by simp; omega)
          rw [← this]
          show splitLoop d ((cs ++ d :: b).length + 1) (c :: (cs ++ d :: b)) = _
          have g : getline d (c :: (cs ++ d :: b)) = some ((c :: cs).takeWhile (· ≠ d), xs ++ d :: b) := by
            show some (((c :: cs) ++ d :: b).takeWhile (· ≠ d), (((c :: cs) ++ d :: b).dropWhile (· ≠ d)).tail) = _
            rw [e1, e2, hx]; rfl
          simp only [splitLoop, g]
        have l2 : splitLoop d (c :: cs).length (c :: cs) =
            if ((c :: cs).takeWhile (· ≠ d)).isEmpty then splitLoop d xs.length xs
            else (c :: cs).takeWhile (· ≠ d) :: splitLoop d xs.length xs := by
          have : splitLoop d cs.length xs = splitLoop d xs.length xs := splitLoop_stable d _ _ hlen
          rw [← this]
          have g : getline d (c :: cs) = some ((c :: cs).takeWhile (· ≠ d), xs) := by
            show some ((c :: cs).takeWhile (· ≠ d), ((c :: cs).dropWhile (· ≠ d)).tail) = _
            rw [hx]; rfl
          show splitLoop d (cs.length + 1) (c :: cs) = _
          simp only [splitLoop, g]
        rw [l1, l2, ih xs b (by simp at ha; omega)]
        split <;> simp
    · rw [splitLoop_word d a hd]
      have e1 : (a ++ d :: b).takeWhile (· ≠ d) = a := by
        rw [List.takeWhile_append_of_pos (by intro x hx; simp; rintro rfl; exact hd hx)]; simp
      have e2 : (a ++ d :: b).dropWhile (· ≠ d) = d :: b := by
        rw [List.dropWhile_append_of_pos (by intro x hx; simp; rintro rfl; exact hd hx)]; simp
      have g : getline d (a ++ d :: b) = some (a, b) := by
        cases h : a ++ d :: b with
        | nil => simp at h
        | cons c cs =>
          rw [h] at e1 e2
          show some ((c :: cs).takeWhile (· ≠ d), ((c :: cs).dropWhile (· ≠ d)).tail) = _
          rw [e1, e2]; rfl
      have hl : (a ++ d :: b).length = (a.length + b.length) + 1 := by simp; omega
      rw [hl]
      simp only [splitLoop, g]
      rw [splitLoop_stable d (a.length + b.length) b (by omega)]
      by_cases ha' : a = []
      · simp [ha']
      · simp [ha', List.isEmpty_iff]

end ContainerTools

/-- C63 (cutting at a delimiter): splitting two texts joined by a delimiter gives the pieces of the first followed by the pieces
of the second. -/
theorem C63_append (a b : String) (d : Char) :
    split (a ++ String.singleton d ++ b) d = split a d ++ split b d := by
  unfold split
  have : (a ++ String.singleton d ++ b).toList = a.toList ++ d :: b.toList := by simp
  rw [this, splitLoop_append d _ _ _ (Nat.le_refl _), List.map_append]

/-- C63 (no delimiter): a text without the delimiter is its own only piece, unless it is empty, which gives none. -/
theorem C63_word (w : String) (d : Char) (hw : d ∉ w.toList) : split w d = if w = "" then [] else [w] := by
  unfold split
  rw [splitLoop_word d _ hw]
  by_cases h : w = ""
  · subst h; simp
  · have : w.toList ≠ [] := by simpa using h
    simp [this, h]

/-- C63 (round trip): joining non-empty delimiter-free pieces with the delimiter and splitting gives the pieces back. -/
theorem C63_round_trip (ps : List String) (d : Char) (h : ∀ p ∈ ps, p ≠ "" ∧ d ∉ p.toList) :
    split (String.intercalate (String.singleton d) ps) d = ps := by
  induction ps with
  | nil => simp [String.intercalate, split, splitLoop]
  | cons p ps ih =>
    have hp := h p List.mem_cons_self
    cases ps with
    | nil =>
      have e : String.intercalate (String.singleton d) [p] = p := by
        apply String.toList_inj.1
        simp [String.toList_intercalate]
      rw [e, C63_word p d hp.2, if_neg hp.1]
    | cons q qs =>
      have e : String.intercalate (String.singleton d) (p :: q :: qs) =
          p ++ String.singleton d ++ String.intercalate (String.singleton d) (q :: qs) := by
        apply String.toList_inj.1
        simp [String.toList_intercalate, List.intercalate, List.intersperse]
      rw [e, C63_append, C63_word p d hp.2, if_neg hp.1, ih (fun p hp => h p (List.mem_cons_of_mem _ hp))]
      rfl

/-- C63 (pieces): the pieces of any text are non-empty and do not contain the delimiter, and joining them and splitting
again changes nothing. -/
theorem C63_pieces (s : String) (d : Char) :
    (∀ p ∈ split s d, p ≠ "" ∧ d ∉ p.toList) ∧ split (String.intercalate (String.singleton d) (split s d)) d = split s d := by
  have key : ∀ (n : Nat) (cs : List Char), cs.length ≤ n → ∀ p ∈ splitLoop d cs.length cs, p ≠ [] ∧ d ∉ p := by
    intro n
    induction n with
    | zero =>
      intro cs hcs p hp
      have : cs = [] := List.length_eq_zero_iff.1 (by omega)
      subst this; simp [splitLoop] at hp
    | succ n ih =>
      intro cs hcs p hp
      by_cases hd : d ∈ cs
      · obtain ⟨a, b, rfl⟩ := List.append_of_mem hd
        rw [splitLoop_append d _ _ _ (Nat.le_refl _)] at hp
        simp only [List.length_append, List.length_cons] at hcs
        rcases List.mem_append.1 hp with hp | hp
        · exact ih a (by omega) p hp
        · exact ih b (by omega) p hp
      · rw [splitLoop_word d cs hd] at hp
        split at hp
        · cases hp
        · rename_i h; rw [List.mem_singleton] at hp; subst hp; exact ⟨h, hd⟩
  have h1 : ∀ p ∈ split s d, p ≠ "" ∧ d ∉ p.toList := by
    intro p hp
    obtain ⟨q, hq, rfl⟩ := List.mem_map.1 hp
    have := key _ _ (Nat.le_refl _) q hq
    refine ⟨?_, by simpa using this.2⟩
    intro h; apply this.1
    have := congrArg String.toList h
    simpa using this
  exact ⟨h1, C63_round_trip _ d h1⟩

example : split "  a b  cd " ' ' = ["a", "b", "cd"] := by decide +kernel

end Oxsx
