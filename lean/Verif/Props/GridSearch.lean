import Verif.Model.GridSearch
import Verif.Props.Minuit
import Mathlib.Algebra.Order.Floor.Semiring
import Mathlib.Data.List.Nodup
set_option linter.unusedSectionVars false
set_option linter.unusedSimpArgs false
set_option linter.unusedVariables false
/-
C52: the grid search.
-/
namespace Oxsx
namespace Odo
variable {α : Type} [Field α] [LinearOrder α] [IsStrictOrderedRing α]

/-- An axis of the grid: minimum, maximum, step. -/
structure Ax (α : Type) where
  lo : α
  hi : α
  st : α

/-- Advance the first coordinate; at its end set it back and advance the next. -/
def inc : List (Ax α) → List α → Bool × List α
  | [], _ => (false, [])
  | _ :: _, [] => (false, [])
  | a :: as, v :: vs => if a.hi < v + a.st then ((inc as vs).1, a.lo :: (inc as vs).2) else (true, (v + a.st) :: vs)

inductive Path {β : Type} (R : β → β → Prop) : β → List β → β → Prop
  | nil (x : β) : Path R x [] x
  | cons {x y z : β} {l : List β} : R x y → Path R y l z → Path R x (y :: l) z

theorem Path.append {β : Type} {R : β → β → Prop} {x y z : β} {l m : List β} (h : Path R x l y) (h' : Path R y m z) : Path R x (l ++ m) z := by
  induction h with
  | nil => exact h'
  | cons a _ ih => exact .cons a (ih h')

variable [FloorRing α]

/-- How many grid values an axis has. -/
def Ax.cnt (a : Ax α) : Nat := ⌊(a.hi - a.lo) / a.st⌋₊ + 1

def Ax.val (a : Ax α) (k : Nat) : α := a.lo + k * a.st

def Ax.vals (a : Ax α) : List α := (List.range a.cnt).map a.val

theorem Ax.lt_cnt {a : Ax α} (h : 0 < a.st) (k : Nat) : k + 1 < a.cnt ↔ ¬ a.hi < a.val k + a.st := by
  unfold Ax.cnt Ax.val
  rw [Nat.add_lt_add_iff_right, ← Nat.succ_le_iff, Nat.le_floor_iff' (by omega), le_div_iff₀ h, not_lt]
  push_cast
  constructor <;> intro h <;> linarith

/-- All the grid points, the first coordinate running fastest. -/
def enum : List (Ax α) → List (List α)
  | [] => [[]]
  | a :: as => (enum as).flatMap (fun w => a.vals.map (· :: w))

theorem enum_cons_shape (as : List (Ax α)) : ∃ t, enum as = as.map (·.lo) :: t := by
  induction as with
  | nil => exact ⟨[], rfl⟩
  | cons a as ih =>
    obtain ⟨t, ht⟩ := ih
    have : (enum (a :: as)).head? = some ((a :: as).map (·.lo)) := by
      unfold enum
      rw [ht, List.flatMap_cons]
      unfold Ax.vals Ax.cnt
      rw [List.range_succ_eq_map, List.map_cons, List.map_cons, List.cons_append]
      simp [Ax.val]
    exact List.head?_eq_some_iff.1 this

theorem path_row {a : Ax α} (h : 0 < a.st) (as : List (Ax α)) (w : List α) : ∀ n k, k + n + 1 = a.cnt →
    Path (fun x y => inc (a :: as) x = (true, y)) (a.val k :: w) ((List.range' (k + 1) n).map (fun j => a.val j :: w)) (a.val (a.cnt - 1) :: w) := by
  intro n
  induction n with
  | zero => intro k hk; rw [show a.cnt - 1 = k by omega]; exact .nil _
  | succ n ih =>
    intro k hk
    rw [List.range'_succ, List.map_cons]
    refine .cons ?_ (ih (k + 1) (by omega))
    have := (Ax.lt_cnt h k).1 (by omega)
    unfold inc
    rw [if_neg this]
    unfold Ax.val
    push_cast
    congr 2
    ring

theorem path_enum : ∀ (as : List (Ax α)), (∀ a ∈ as, 0 < a.st) →
    ∃ z, Path (fun x y => inc as x = (true, y)) (as.map (·.lo)) (enum as).tail z ∧ inc as z = (false, as.map (·.lo)) := by
  intro as
  induction as with
  | nil => intro _; exact ⟨[], .nil _, rfl⟩
  | cons a as ih =>
    intro hst
    have ha := hst a List.mem_cons_self
    obtain ⟨z, hp, hz⟩ := ih (fun b hb => hst b (List.mem_cons_of_mem _ hb))
    have hlast : a.hi < a.val (a.cnt - 1) + a.st := by
      have := (Ax.lt_cnt ha (a.cnt - 1)).not.1 (by unfold Ax.cnt; omega)
      exact not_not.1 this
    have hlo : a.val 0 = a.lo := by simp [Ax.val]
    have row : ∀ w, Path (fun x y => inc (a :: as) x = (true, y)) (a.lo :: w) ((List.range' 1 (a.cnt - 1)).map (fun j => a.val j :: w)) (a.val (a.cnt - 1) :: w) := by
      intro w
      have := path_row ha as w (a.cnt - 1) 0 (by unfold Ax.cnt; omega)
      rwa [hlo] at this
    have vals_eq : ∀ w, a.vals.map (· :: w) = (a.lo :: w) :: (List.range' 1 (a.cnt - 1)).map (fun j => a.val j :: w) := by
      intro w
      unfold Ax.vals
      rw [List.map_map, show a.cnt = (a.cnt - 1) + 1 by unfold Ax.cnt; omega, List.range_eq_range', List.range'_succ, List.map_cons]
      simp [Function.comp, hlo]
    have gen : ∀ w l z, Path (fun x y => inc as x = (true, y)) w l z →
        Path (fun x y => inc (a :: as) x = (true, y)) (a.lo :: w)
          ((List.range' 1 (a.cnt - 1)).map (fun j => a.val j :: w) ++ l.flatMap (fun w => a.vals.map (· :: w))) (a.val (a.cnt - 1) :: z) := by
      intro w l z h
      induction h with
      | nil x => simpa using row x
      | @cons x y z l hxy _ ih =>
        refine (row x).append ?_
        rw [List.flatMap_cons, vals_eq, List.cons_append]
        refine .cons ?_ ih
        unfold inc
        rw [if_pos hlast, hxy]
    refine ⟨a.val (a.cnt - 1) :: z, ?_, ?_⟩
    · obtain ⟨t, ht⟩ := enum_cons_shape as
      rw [ht] at hp
      have := gen _ _ _ hp
      have e : (enum (a :: as)).tail = (List.range' 1 (a.cnt - 1)).map (fun j => a.val j :: as.map (·.lo)) ++ t.flatMap (fun w => a.vals.map (· :: w)) := by
        conv_lhs => unfold enum
        rw [ht, List.flatMap_cons, vals_eq]; rfl
      rw [e]
      exact this
    · unfold inc
      rw [if_pos hlast, hz]; rfl

theorem mem_enum : ∀ (as : List (Ax α)) (x : List α), x ∈ enum as ↔ List.Forall₂ (fun a v => v ∈ a.vals) as x := by
  intro as
  induction as with
  | nil => intro x; simp [enum]
  | cons a as ih =>
    intro x
    unfold enum
    rw [List.mem_flatMap]
    constructor
    · rintro ⟨w, hw, hx⟩
      obtain ⟨v, hv, rfl⟩ := List.mem_map.1 hx
      exact .cons hv ((ih w).1 hw)
    · intro h
      cases h with
      | cons hv hw => exact ⟨_, (ih _).2 hw, List.mem_map.2 ⟨_, hv, rfl⟩⟩

theorem Ax.vals_nodup {a : Ax α} (h : 0 < a.st) : a.vals.Nodup := by
  unfold Ax.vals
  refine List.Nodup.map ?_ List.nodup_range
  intro i j hij
  unfold Ax.val at hij
  have : (i : α) * a.st = j * a.st := by linarith
  exact_mod_cast mul_right_cancel₀ h.ne' this

theorem enum_nodup : ∀ (as : List (Ax α)), (∀ a ∈ as, 0 < a.st) → (enum as).Nodup := by
  intro as
  induction as with
  | nil => intro _; simp [enum]
  | cons a as ih =>
    intro h
    unfold enum
    rw [List.nodup_flatMap]
    refine ⟨fun w _ => (Ax.vals_nodup (h a List.mem_cons_self)).map (fun x y h => by injection h), ?_⟩
    refine (ih fun b hb => h b (List.mem_cons_of_mem _ hb)).imp ?_
    intro w w' hne x hx hx'
    obtain ⟨v, _, rfl⟩ := List.mem_map.1 hx
    obtain ⟨v', _, e⟩ := List.mem_map.1 hx'
    injection e with e1 e2
    exact hne e2.symm

theorem Ax.mem_vals {a : Ax α} (h : 0 < a.st) (hle : a.lo ≤ a.hi) (v : α) : v ∈ a.vals ↔ (∃ k : Nat, v = a.lo + k * a.st) ∧ v ≤ a.hi := by
  unfold Ax.vals
  rw [List.mem_map]
  constructor
  · rintro ⟨k, hk, rfl⟩
    refine ⟨⟨k, rfl⟩, ?_⟩
    cases k with
    | zero => simpa [Ax.val] using hle
    | succ k =>
      have := not_lt.1 ((Ax.lt_cnt h k).1 (List.mem_range.1 hk))
      unfold Ax.val at this ⊢
      push_cast
      linarith
  · rintro ⟨⟨k, rfl⟩, hv⟩
    refine ⟨k, List.mem_range.2 ?_, rfl⟩
    cases k with
    | zero => unfold Ax.cnt; omega
    | succ k =>
      rw [Ax.lt_cnt h, not_lt]
      unfold Ax.val
      push_cast at hv
      linarith

end Odo

namespace GridSearch
open Odo
variable {α : Type} [Field α] [LinearOrder α] [IsStrictOrderedRing α]

theorem pairUp_insert {pre post : List String} {n : String} {vp vq : List α} {v x : α} (hs : (pre ++ n :: post).Pairwise (· < ·))
    (h1 : vp.length = pre.length) (h2 : vq.length = post.length) :
    SMap.insert n x (pairUp (pre ++ n :: post) (vp ++ v :: vq)) = pairUp (pre ++ n :: post) (vp ++ x :: vq) := by
  have hl : ∀ w : α, (vp ++ w :: vq).length = (pre ++ n :: post).length := by intro w; simp [h1, h2]
  apply SMap.ext (SMap.sorted_insert (pairUp_sorted hs (hl v)) _ _) (pairUp_sorted hs (hl x))
  intro k
  rw [SMap.find_insert]
  have hn : (pre ++ n :: post)[pre.length]? = some n := by simp
  by_cases hk : k = n
  · rw [if_pos hk.symm, hk]
    symm
    exact pairUp_find hs (hl x) hn (by rw [← h1]; simp)
  · rw [if_neg (Ne.symm hk)]
    by_cases hm : k ∈ pre ++ n :: post
    · obtain ⟨j, hj⟩ := List.mem_iff_getElem?.1 hm
      have hj' : j < (pre ++ n :: post).length := (List.getElem?_eq_some_iff.1 hj).1
      have hne : j ≠ vp.length := by
        intro e; rw [e, h1, hn] at hj; exact hk (Option.some.inj hj).symm
      have same : (vp ++ v :: vq)[j]? = (vp ++ x :: vq)[j]? := by
        rcases Nat.lt_or_gt_of_ne hne with h | h
        · rw [List.getElem?_append_left h, List.getElem?_append_left h]
        · rw [List.getElem?_append_right h.le, List.getElem?_append_right h.le]
          obtain ⟨d, hd⟩ : ∃ d, j - vp.length = d + 1 := ⟨j - vp.length - 1, by omega⟩
          rw [hd]; rfl
      have hw := List.getElem?_eq_getElem (l := vp ++ v :: vq) (i := j) (by rw [hl]; exact hj')
      rw [pairUp_find hs (hl v) hj hw, pairUp_find hs (hl x) hj (same ▸ hw)]
    · have e1 : (pairUp (pre ++ n :: post) (vp ++ v :: vq)).find k = none := (SMap.find_none_iff _ _).2 (by rw [pairUp_keys (hl v)]; exact hm)
      have e2 : (pairUp (pre ++ n :: post) (vp ++ x :: vq)).find k = none := (SMap.find_none_iff _ _).2 (by rw [pairUp_keys (hl x)]; exact hm)
      rw [e1, e2]

/-- The optimiser's dictionaries, as names and axes. -/
structure Given (g : GridSearch α) (ns : List String) (as : List (Ax α)) : Prop where
  sorted : ns.Pairwise (· < ·)
  len : as.length = ns.length
  mins : g.minima = pairUp ns (as.map (·.lo))
  maxs : g.maxima = pairUp ns (as.map (·.hi))
  sts : g.steps = pairUp ns (as.map (·.st))
  differ : g.minima ≠ g.maxima

theorem dictAt_pairUp {ns : List String} (hs : ns.Pairwise (· < ·)) {vals : List α} (hl : vals.length = ns.length) {i : Nat} {n : String} {v : α}
    (h1 : ns[i]? = some n) (h2 : vals[i]? = some v) : MCMC.dictAt (pairUp ns vals) n = .ok v := by
  unfold MCMC.dictAt; rw [pairUp_find hs hl h1 h2]

theorem increment_step {g : GridSearch α} {pre post : List String} {n : String} {ap aq : List (Ax α)} {a : Ax α}
    (hg : Given g (pre ++ n :: post) (ap ++ a :: aq)) (ha : ap.length = pre.length) {vp vq : List α} {v : α}
    (h1 : vp.length = pre.length) (h2 : vq.length = post.length) (e : Nat) :
    g.increment (n :: post) pre.length e (pairUp (pre ++ n :: post) (vp ++ v :: vq)) =
      if a.hi < v + a.st then
        (if e = 0 then .ub else if pre.length = e then .ok (false, pairUp (pre ++ n :: post) (vp ++ a.lo :: vq))
          else g.increment post (pre.length + 1) (e - 1) (pairUp (pre ++ n :: post) (vp ++ a.lo :: vq)))
      else .ok (true, pairUp (pre ++ n :: post) (vp ++ (v + a.st) :: vq)) := by
  have hn : (pre ++ n :: post)[pre.length]? = some n := by simp
  have hlen : ∀ (f : Ax α → α), ((ap ++ a :: aq).map f).length = (pre ++ n :: post).length := by intro f; rw [List.length_map]; exact hg.len
  have hf : ∀ (f : Ax α → α), ((ap ++ a :: aq).map f)[pre.length]? = some (f a) := by intro f; rw [← ha]; simp
  have hl : ∀ w : α, (vp ++ w :: vq).length = (pre ++ n :: post).length := by intro w; simp [h1, h2]
  have hv : ∀ w : α, (vp ++ w :: vq)[pre.length]? = some w := by intro w; rw [← h1]; simp
  have find_v : ∀ w : α, (SMap.find (pairUp (pre ++ n :: post) (vp ++ w :: vq)) n).getD 0 = w := by
    intro w; rw [pairUp_find hg.sorted (hl w) hn (hv w)]; rfl
  conv_lhs => unfold increment
  rw [if_neg hg.differ, hg.sts, dictAt_pairUp hg.sorted (hlen _) hn (hf _), hg.maxs, dictAt_pairUp hg.sorted (hlen _) hn (hf _), hg.mins,
    dictAt_pairUp hg.sorted (hlen _) hn (hf _)]
  simp only [Res.ok_bind, find_v]
  rw [pairUp_insert hg.sorted h1 h2]
  rw [find_v]
  by_cases hc : a.hi < v + a.st
  · rw [if_pos hc, if_pos hc, pairUp_insert hg.sorted h1 h2]
  · rw [if_neg hc, if_neg hc]

/-- With 2(m-1) positions from `it_` to `end_`, the first m coordinates are an odometer. -/
theorem increment_even {g : GridSearch α} {ns : List String} {as : List (Ax α)} (hg : Given g ns as) :
    ∀ (act : List (Ax α)) (ap aq : List (Ax α)) (pre post : List String) (vp va vq : List α) (e : Nat),
      as = ap ++ (act ++ aq) → ns = pre ++ post → ap.length = pre.length → vp.length = pre.length → va.length = act.length →
      (va ++ vq).length = post.length → 0 < act.length → e = pre.length + 2 * (act.length - 1) → 0 < e →
      g.increment post pre.length e (pairUp ns (vp ++ (va ++ vq))) = .ok ((inc act va).1, pairUp ns (vp ++ ((inc act va).2 ++ vq))) := by
  intro act
  induction act with
  | nil => intro _ _ _ _ _ _ _ _ _ _ _ _ _ _ h; simp at h
  | cons a act ih =>
    intro ap aq pre post vp va vq e h1 h2 h3 h4 h5 h6 _ h7 h8
    cases va with
    | nil => simp at h5
    | cons v va =>
      cases post with
      | nil => simp at h6
      | cons n post =>
        have hg' := hg
        rw [h1, h2, List.cons_append] at hg'
        simp only [List.length_cons, Nat.add_right_cancel_iff, List.cons_append] at h5 h6
        rw [h2, List.cons_append, increment_step hg' h3 h4 h6 e]
        unfold inc
        by_cases hc : a.hi < v + a.st
        · rw [if_pos hc, if_pos hc, if_neg (by omega)]
          cases act with
          | nil =>
            simp only [List.length_cons, List.length_nil] at h7
            rw [if_pos (by omega)]
            simp only [List.length_nil, List.length_eq_zero_iff] at h5
            subst h5
            rfl
          | cons b act =>
            simp only [List.length_cons] at h7
            rw [if_neg (by omega)]
            have := ih (ap ++ [a]) aq (pre ++ [n]) post (vp ++ [a.lo]) va vq (e - 1)
              (by simp [h1]) (by simp [h2]) (by simp [h3]) (by simp [h4]) h5 h6 (by simp) (by simp; omega) (by omega)
            rw [h2] at this
            simp only [List.append_assoc, List.cons_append, List.nil_append, List.length_append, List.length_cons, List.length_nil, Nat.zero_add] at this
            rw [this]
            rfl
        · rw [if_neg hc, if_neg hc]
          rfl

/-- With an odd number of parameters the end is dereferenced when all of them overflow. -/
theorem increment_odd {g : GridSearch α} {ns : List String} {as : List (Ax α)} (hg : Given g ns as) (hodd : ns.length % 2 = 1) :
    ∀ (act : List (Ax α)) (ap : List (Ax α)) (pre post : List String) (vp va : List α) (e : Nat),
      as = ap ++ act → ns = pre ++ post → ap.length = pre.length → vp.length = pre.length → va.length = act.length →
      va.length = post.length → pre.length + e = ns.length →
      g.increment post pre.length e (pairUp ns (vp ++ va)) = if (inc act va).1 then .ok (true, pairUp ns (vp ++ (inc act va).2)) else .ub := by
  intro act
  induction act with
  | nil =>
    intro ap pre post vp va e h1 h2 h3 h4 h5 h6 h7
    have : post = [] := by rw [h5] at h6; exact List.length_eq_zero_iff.1 h6.symm
    subst this
    rfl
  | cons a act ih =>
    intro ap pre post vp va e h1 h2 h3 h4 h5 h6 h7
    cases va with
    | nil => simp at h5
    | cons v va =>
      cases post with
      | nil => simp at h6
      | cons n post =>
        have hg' := hg
        rw [h1, h2] at hg'
        simp only [List.length_cons, Nat.add_right_cancel_iff] at h5 h6
        have h7' := h7
        rw [h2] at h7'
        simp only [List.length_append, List.length_cons] at h7'
        rw [h2, increment_step hg' h3 h4 h6 e]
        unfold inc
        by_cases hc : a.hi < v + a.st
        · rw [if_pos hc, if_pos hc, if_neg (by omega), if_neg (by omega)]
          have := ih (ap ++ [a]) (pre ++ [n]) post (vp ++ [a.lo]) va (e - 1)
              (by simp [h1]) (by simp [h2]) (by simp [h3]) (by simp [h4]) h5 h6 (by simp; omega)
          rw [h2] at this
          simp only [List.append_assoc, List.cons_append, List.nil_append, List.length_append, List.length_cons, List.length_nil, Nat.zero_add] at this
          exact this
        · rw [if_neg hc, if_neg hc]
          rfl

theorem inc_length (as : List (Ax α)) : ∀ (x : List α), x.length = as.length → (inc as x).2.length = as.length := by
  induction as with
  | nil => intro x _; rfl
  | cons a as ih =>
    intro x hx
    cases x with
    | nil => simp at hx
    | cons v vs =>
      simp only [List.length_cons, Nat.add_right_cancel_iff] at hx
      unfold inc
      split
      · simp [ih vs hx]
      · simp [hx]

theorem loop_ok {g : GridSearch α} {t : TestStat α} {act : List (Ax α)} {emb : List α → ParamDict α} {val : ParamDict α → α}
    (hstep : ∀ x, x.length = act.length → (inc act x).1 = true → g.increment g.steps.keys 0 g.steps.keys.length (emb x) = .ok (true, emb (inc act x).2))
    {x z : List α} {l : List (List α)} (hp : Path (fun x y => inc act x = (true, y)) x l z) (hx : x.length = act.length)
    (hev : ∀ y ∈ l, t.eval (emb y) = .ok (val (emb y))) (k : Nat) (s : α × ParamDict α) :
    z.length = act.length ∧
    (∀ q, g.increment g.steps.keys 0 g.steps.keys.length (emb z) = .ok (false, q) →
      g.loop t (l.length + 1 + k) (emb x) s = some (.ok ((l.map emb).foldl (fun s p => g.consider s p (val p)) s, l.map emb))) ∧
    (g.increment g.steps.keys 0 g.steps.keys.length (emb z) = .ub → g.loop t (l.length + 1 + k) (emb x) s = some .ub) := by
  induction hp generalizing s with
  | nil x =>
    refine ⟨hx, ?_, ?_⟩
    · intro q hq
      rw [show [].length + 1 + k = k + 1 by simp; omega]
      unfold loop
      rw [hq]; rfl
    · intro hq
      rw [show [].length + 1 + k = k + 1 by simp; omega]
      unfold loop
      rw [hq]
  | @cons x y z l hxy _ ih =>
    have hy : y.length = act.length := by have := inc_length act x hx; rw [hxy] at this; exact this
    have h1 := hstep x hx (by rw [hxy])
    rw [hxy] at h1
    obtain ⟨a1, a2, a3⟩ := ih hy (fun w hw => hev w (List.mem_cons_of_mem _ hw)) (g.consider s (emb y) (val (emb y)))
    have hv := hev y List.mem_cons_self
    refine ⟨a1, ?_, ?_⟩
    · intro q hq
      rw [show (y :: l).length + 1 + k = (l.length + 1 + k) + 1 by simp; omega]
      unfold loop
      rw [h1]
      simp only [hv, a2 q hq]
      rfl
    · intro hq
      rw [show (y :: l).length + 1 + k = (l.length + 1 + k) + 1 by simp; omega]
      unfold loop
      rw [h1]
      simp only [hv, a3 hq]
      rfl

theorem fold_min {g : GridSearch α} {val : ParamDict α → α} (l : List (ParamDict α)) (hne : l ≠ []) (hz : ∀ p ∈ l, val p ≠ 0) :
    ∃ p ∈ l, l.foldl (fun s p => g.consider s p (val p)) (0, []) = (if g.maximising then -val p else val p, p) ∧
      ∀ q ∈ l, (if g.maximising then -val p else val p) ≤ (if g.maximising then -val q else val q) := by
  set c : ParamDict α → α := fun p => if g.maximising then -val p else val p with hc
  have hc0 : ∀ p, val p ≠ 0 → c p ≠ 0 := by
    intro p hp
    simp only [hc]
    split
    · exact neg_ne_zero.2 hp
    · exact hp
  have gen : ∀ (l : List (ParamDict α)) (p₀ : ParamDict α), c p₀ ≠ 0 → (∀ p ∈ l, val p ≠ 0) →
      ∃ p ∈ p₀ :: l, l.foldl (fun s p => g.consider s p (val p)) (c p₀, p₀) = (c p, p) ∧ ∀ q ∈ p₀ :: l, c p ≤ c q := by
    intro l
    induction l with
    | nil => intro p₀ _ _; exact ⟨p₀, by simp, rfl, by simp⟩
    | cons a l ih =>
      intro p₀ h0 hl
      rw [List.foldl_cons]
      have hca : g.consider (c p₀, p₀) a (val a) = if c a < c p₀ then (c a, a) else (c p₀, p₀) := by
        unfold consider
        simp only [h0, or_false]
        rfl
      rw [hca]
      by_cases h : c a < c p₀
      · rw [if_pos h]
        obtain ⟨p, h1, h2, h3⟩ := ih a (hc0 a (hl a List.mem_cons_self)) (fun p hp => hl p (List.mem_cons_of_mem _ hp))
        refine ⟨p, List.mem_cons_of_mem _ h1, h2, ?_⟩
        intro q hq
        rcases List.mem_cons.1 hq with rfl | hq
        · exact (h3 a List.mem_cons_self).trans h.le
        · exact h3 q hq
      · rw [if_neg h]
        obtain ⟨p, h1, h2, h3⟩ := ih p₀ h0 (fun p hp => hl p (List.mem_cons_of_mem _ hp))
        refine ⟨p, ?_, h2, ?_⟩
        · rcases List.mem_cons.1 h1 with rfl | h1
          · exact List.mem_cons_self
          · exact List.mem_cons_of_mem _ (List.mem_cons_of_mem _ h1)
        · intro q hq
          rcases List.mem_cons.1 hq with rfl | hq
          · exact h3 q List.mem_cons_self
          · rcases List.mem_cons.1 hq with rfl | hq
            · exact (h3 p₀ List.mem_cons_self).trans (not_lt.1 h)
            · exact h3 q (List.mem_cons_of_mem _ hq)
  cases l with
  | nil => exact absurd rfl hne
  | cons a l =>
    rw [List.foldl_cons]
    have : g.consider (0, []) a (val a) = (c a, a) := by unfold consider; simp only [or_true, if_true]; rfl
    rw [this]
    exact gen l a (hc0 a (hz a List.mem_cons_self)) (fun p hp => hz p (List.mem_cons_of_mem _ hp))

/-- Settings that make a grid: for the same parameters, positive steps, minima not above the maxima and not all equal to them, fewer than
2^64 steps along each axis. -/
structure Sensible (g : GridSearch α) : Prop where
  mins : g.minima.Sorted
  maxs : g.maxima.Sorted
  sts : g.steps.Sorted
  same1 : g.minima.keys = g.steps.keys
  same2 : g.maxima.keys = g.steps.keys
  axes : ∀ (n : String) (lo hi st : α), g.minima.find n = some lo → g.maxima.find n = some hi → g.steps.find n = some st →
    0 < st ∧ lo ≤ hi ∧ (hi - lo) / st < 2 ^ 64
  differ : g.minima ≠ g.maxima

/-- A point of the grid: every coordinate is its minimum plus a whole number of steps and not above its maximum. -/
def OnGrid (g : GridSearch α) (p : ParamDict α) : Prop :=
  p.Sorted ∧ p.keys = g.steps.keys ∧ ∀ (n : String) (lo hi st : α), g.minima.find n = some lo → g.maxima.find n = some hi → g.steps.find n = some st →
    ∃ k : Nat, p.find n = some (lo + k * st) ∧ lo + k * st ≤ hi

theorem eq_pairUp {d : ParamDict α} (hd : d.Sorted) {ns : List String} (hk : d.keys = ns) : d = pairUp ns (ns.map fun n => (d.find n).getD 0) := by
  have hs : ns.Pairwise (· < ·) := hk ▸ SMap.sorted_keys hd
  apply SMap.ext hd (pairUp_sorted hs (by simp))
  intro k
  by_cases hm : k ∈ ns
  · obtain ⟨j, hj⟩ := List.mem_iff_getElem?.1 hm
    rw [pairUp_find hs (by simp) hj (v := (d.find k).getD 0) (by rw [List.getElem?_map, hj]; rfl)]
    obtain ⟨x, hx⟩ := Option.isSome_iff_exists.1 ((SMap.find_isSome_iff d k).2 (hk ▸ hm))
    rw [hx]; rfl
  · rw [(SMap.find_none_iff _ _).2 (by rw [hk]; exact hm), (SMap.find_none_iff _ _).2 (by rw [pairUp_keys (by simp)]; exact hm)]

/-- The axis of a parameter. -/
def axOf (g : GridSearch α) (n : String) : Ax α := ⟨(g.minima.find n).getD 0, (g.maxima.find n).getD 0, (g.steps.find n).getD 0⟩

theorem Sensible.given {g : GridSearch α} (h : g.Sensible) : Given g g.steps.keys (g.steps.keys.map g.axOf) where
  sorted := SMap.sorted_keys h.sts
  len := by simp
  mins := by rw [List.map_map]; exact eq_pairUp h.mins h.same1
  maxs := by rw [List.map_map]; exact eq_pairUp h.maxs h.same2
  sts := by rw [List.map_map]; exact eq_pairUp h.sts rfl
  differ := h.differ

theorem Sensible.finds {g : GridSearch α} (h : g.Sensible) {n : String} (hn : n ∈ g.steps.keys) :
    g.minima.find n = some (g.axOf n).lo ∧ g.maxima.find n = some (g.axOf n).hi ∧ g.steps.find n = some (g.axOf n).st := by
  have f : ∀ d : ParamDict α, d.keys = g.steps.keys → d.find n = some ((d.find n).getD 0) := by
    intro d hd
    obtain ⟨x, hx⟩ := Option.isSome_iff_exists.1 ((SMap.find_isSome_iff d n).2 (hd ▸ hn))
    rw [hx]; rfl
  exact ⟨f _ h.same1, f _ h.same2, f _ rfl⟩

theorem Sensible.ax {g : GridSearch α} (h : g.Sensible) {n : String} (hn : n ∈ g.steps.keys) :
    0 < (g.axOf n).st ∧ (g.axOf n).lo ≤ (g.axOf n).hi ∧ ((g.axOf n).hi - (g.axOf n).lo) / (g.axOf n).st < 2 ^ 64 := by
  obtain ⟨a, b, c⟩ := h.finds hn
  exact h.axes n _ _ _ a b c

theorem Sensible.counts {g : GridSearch α} (h : g.Sensible) : Res.forFold (fun _ q => g.countOne q) () g.minima = .ok () := by
  have gen : ∀ l : ParamDict α, (∀ q ∈ l, q ∈ g.minima) → Res.forFold (fun _ q => g.countOne q) () l = .ok () := by
    intro l
    induction l with
    | nil => intro _; rfl
    | cons q l ih =>
      intro hq
      have hqm := hq q List.mem_cons_self
      have hn : q.1 ∈ g.steps.keys := by rw [← h.same1]; exact List.mem_map.2 ⟨q, hqm, rfl⟩
      have hf := SMap.find_of_mem h.mins (k := q.1) (v := q.2) hqm
      obtain ⟨a, b, c⟩ := h.ax hn
      have e : (g.axOf q.1).lo = q.2 := by unfold axOf; rw [hf]; rfl
      have : g.countOne q = .ok () := by
        unfold countOne
        simp only
        rw [if_pos]
        rw [e] at b c
        refine ⟨a.ne', ?_, c⟩
        have : 0 ≤ ((g.axOf q.1).hi - q.2) / (g.axOf q.1).st := div_nonneg (by linarith) a.le
        exact lt_of_lt_of_le (by norm_num) this
      simp only [Res.forFold, this]
      exact ih (fun q hq' => hq q (List.mem_cons_of_mem _ hq'))
  exact gen _ (fun _ h => h)

variable [FloorRing α]

/-- The points of the grid at which the coordinates after the first `m` are at their minima. -/
theorem mem_front {g : GridSearch α} (h : g.Sensible) (m : Nat) (p : ParamDict α) :
    (∃ x ∈ enum ((g.steps.keys.map g.axOf).take m), p = pairUp g.steps.keys (x ++ ((g.steps.keys.map g.axOf).drop m).map (·.lo))) ↔
    g.OnGrid p ∧ ∀ n ∈ g.steps.keys.drop m, p.find n = g.minima.find n := by
  have hs := SMap.sorted_keys h.sts
  set ns := g.steps.keys with hns
  constructor
  · rintro ⟨x, hx, rfl⟩
    rw [mem_enum] at hx
    have hxl := hx.length_eq
    have hl : (x ++ ((ns.map g.axOf).drop m).map (·.lo)).length = ns.length := by
      rw [List.length_append, List.length_map, ← hxl, ← List.length_append, List.take_append_drop, List.length_map]
    refine ⟨⟨pairUp_sorted hs hl, pairUp_keys hl, ?_⟩, ?_⟩
    · intro n lo hi st h1 h2 h3
      have hn : n ∈ ns := (SMap.find_isSome_iff g.steps n).1 (by rw [h3]; rfl)
      obtain ⟨f1, f2, f3⟩ := h.finds hn
      rw [h1] at f1; rw [h2] at f2; rw [h3] at f3
      obtain ⟨a1, a2, a3⟩ := h.ax hn
      have e1 := Option.some.inj f1; have e2 := Option.some.inj f2; have e3 := Option.some.inj f3
      obtain ⟨i, hi'⟩ := List.mem_iff_getElem?.1 hn
      have hax : (ns.map g.axOf)[i]? = some (g.axOf n) := by rw [List.getElem?_map, hi']; rfl
      by_cases him : i < x.length
      · have h4 : ((ns.map g.axOf).take m)[i]? = some (g.axOf n) := by
          rw [List.getElem?_take, if_pos, hax]
          rw [← hxl, List.length_take] at him; omega
        have h5 := List.getElem?_eq_getElem him
        have := hx.get (i := i) (by rw [hxl]; exact him) him
        have e4 : ((ns.map g.axOf).take m).get ⟨i, by rw [hxl]; exact him⟩ = g.axOf n := by
          have := (List.getElem?_eq_some_iff.1 h4).2; exact this
        rw [e4, Ax.mem_vals a1 a2] at this
        obtain ⟨⟨k, hk⟩, hle⟩ := this
        refine ⟨k, ?_, ?_⟩
        · rw [e1, e3, ← hk]
          exact pairUp_find hs hl hi' (by rw [List.getElem?_append_left him]; exact h5)
        · rw [e1, e2, e3, ← hk]; exact hle
      · refine ⟨0, ?_, ?_⟩
        · rw [e1]
          refine pairUp_find hs hl hi' ?_
          rw [List.getElem?_append_right (by omega), List.getElem?_map, List.getElem?_drop]
          have him' : m ≤ i ∨ ns.length ≤ i := by
            rw [← hxl, List.length_take, List.length_map] at him; omega
          have hil := (List.getElem?_eq_some_iff.1 hi').1
          have : m + (i - x.length) = i := by
            rw [← hxl, List.length_take, List.length_map]; omega
          rw [this, hax]; simp
        · rw [e1, e2]; simpa using a2
    · intro n hn
      obtain ⟨j, hj⟩ := List.mem_iff_getElem?.1 hn
      rw [List.getElem?_drop] at hj
      have hjl := (List.getElem?_eq_some_iff.1 hj).1
      have hax : (ns.map g.axOf)[m + j]? = some (g.axOf n) := by rw [List.getElem?_map, hj]; rfl
      have hxlen : x.length = m := by rw [← hxl, List.length_take, List.length_map]; omega
      rw [pairUp_find hs hl hj (v := (g.axOf n).lo), (h.finds (List.mem_of_mem_drop hn)).1]
      rw [List.getElem?_append_right (by omega), List.getElem?_map, List.getElem?_drop, hxlen, show m + (m + j - m) = m + j by omega, hax]; rfl
  · rintro ⟨⟨p1, p2, p3⟩, p4⟩
    refine ⟨(ns.take m).map (fun n => (p.find n).getD 0), ?_, ?_⟩
    · rw [mem_enum, ← List.map_take, List.forall₂_map_left_iff, List.forall₂_map_right_iff, List.forall₂_same]
      intro n hn
      have hn' := List.mem_of_mem_take hn
      obtain ⟨f1, f2, f3⟩ := h.finds hn'
      obtain ⟨a1, a2, a3⟩ := h.ax hn'
      obtain ⟨k, hk, hle⟩ := p3 n _ _ _ f1 f2 f3
      rw [Ax.mem_vals a1 a2, hk]
      exact ⟨⟨k, rfl⟩, hle⟩
    · refine (eq_pairUp p1 p2).trans ?_
      congr 1
      have e : List.map (fun n => (p.find n).getD 0) ns = (ns.take m ++ ns.drop m).map (fun n => (p.find n).getD 0) := by rw [List.take_append_drop]
      refine e.trans ?_
      rw [List.map_append]
      congr 1
      rw [← List.map_drop, List.map_map]
      apply List.map_congr_left
      intro n hn
      rw [p4 n hn]; rfl

/-- The optimiser, once the loop is known. -/
theorem optimise_of_loop {g : GridSearch α} (h : g.Sensible) (t : TestStat α) (fuel : Nat) :
    g.optimise t fuel = (g.loop t fuel g.minima (0, [])).map (fun r => r >>= fun x => Res.ok (⟨x.1.2, x.1.1⟩, x.2)) := by
  unfold optimise
  rw [if_neg (by rw [h.same1, h.same2]; simp), h.counts]

theorem pairUp_inj {ns : List String} : ∀ {x y : List α}, x.length = ns.length → y.length = ns.length → pairUp ns x = pairUp ns y → x = y := by
  intro x y hx hy h
  have := congrArg (List.map Prod.snd) h
  unfold pairUp at this
  rwa [List.map_snd_zip (by omega), List.map_snd_zip (by omega)] at this

end GridSearch
open GridSearch Odo
variable {α : Type} [Field α] [LinearOrder α] [IsStrictOrderedRing α] [FloorRing α]

/-- C52, an even number N of parameters: the search terminates; no point is evaluated twice; the points evaluated are the grid points other than
the starting point (all minima) whose parameters after the first N/2 + 1 are at their minima; and if no value of the statistic is zero, the
best fit is one of them with the smallest value (the largest when maximising, and then the extreme value reported is its negative). -/
theorem C52_partial {g : GridSearch α} (h : g.Sensible) {t : TestStat α} (hev : ∀ p, g.OnGrid p → ∃ y, t.eval p = .ok y)
    (hN : 0 < g.steps.keys.length) (heven : g.steps.keys.length % 2 = 0) :
    ∃ n₀ r visited, (∀ fuel, n₀ ≤ fuel → g.optimise t fuel = some (.ok (r, visited))) ∧ visited.Nodup ∧
      (∀ p, p ∈ visited ↔ g.OnGrid p ∧ p ≠ g.minima ∧ ∀ n ∈ g.steps.keys.drop (g.steps.keys.length / 2 + 1), p.find n = g.minima.find n) ∧
      (visited ≠ [] → (∀ p ∈ visited, t.eval p ≠ .ok 0) →
        r.bestFit ∈ visited ∧ t.eval r.bestFit = .ok (if g.maximising then -r.extremeVal else r.extremeVal) ∧
        ∀ p ∈ visited, ∀ y, t.eval p = .ok y → if g.maximising then y ≤ -r.extremeVal else r.extremeVal ≤ y) := by
  set ns := g.steps.keys with hns
  set m := ns.length / 2 + 1 with hm
  set as := ns.map g.axOf with has
  have hg : Given g ns as := h.given
  have hml : m ≤ ns.length := by omega
  have halen : as.length = ns.length := hg.len
  set act := as.take m with hact
  have hactl : act.length = m := by rw [hact, List.length_take]; omega
  set emb : List α → ParamDict α := fun x => pairUp ns (x ++ (as.drop m).map (·.lo)) with hemb
  have hdrop : ((as.drop m).map (·.lo)).length = ns.length - m := by rw [List.length_map, List.length_drop, halen]
  have hinc : ∀ x, x.length = act.length → g.increment ns 0 ns.length (emb x) = .ok ((inc act x).1, emb (inc act x).2) := by
    intro x hx
    have := increment_even hg act [] (as.drop m) [] ns [] x ((as.drop m).map (·.lo)) ns.length
      (by rw [List.nil_append, hact, List.take_append_drop]) rfl rfl rfl hx (by rw [List.length_append, hdrop, hx, hactl]; omega) (by omega)
      (by rw [hactl]; simp; omega) hN
    exact this
  have hst : ∀ a ∈ act, 0 < a.st := by
    intro a ha
    obtain ⟨n, hn, rfl⟩ := List.mem_map.1 (List.mem_of_mem_take ha)
    exact (h.ax hn).1
  obtain ⟨z, hp, hz⟩ := path_enum act hst
  have hstart : emb (act.map (·.lo)) = g.minima := by
    rw [hg.mins, hemb]
    simp only
    rw [← List.map_append, hact, List.take_append_drop]
  have hfront := mem_front h m
  have hsub : ∀ y ∈ (enum act).tail, g.OnGrid (emb y) := by
    intro y hy
    exact ((hfront (emb y)).1 ⟨y, List.mem_of_mem_tail hy, rfl⟩).1
  set val : ParamDict α → α := fun p => match t.eval p with | .ok y => y | _ => 0 with hval
  have hvok : ∀ p, g.OnGrid p → t.eval p = .ok (val p) := by
    intro p hp
    obtain ⟨y, hy⟩ := hev p hp
    simp only [hval, hy]
  have hloop := fun k => loop_ok (g := g) (t := t) (act := act) (emb := emb) (val := val)
    (fun x hx hb => by rw [hinc x hx, hb]) hp (by simp) (fun y hy => hvok _ (hsub y hy)) k (0, [])
  set vis := (enum act).tail.map emb with hvis
  set fin := vis.foldl (fun s p => g.consider s p (val p)) (0, []) with hfin
  have hzl : z.length = act.length := (hloop 0).1
  have hfinal : g.increment ns 0 ns.length (emb z) = .ok (false, emb (act.map (·.lo))) := by rw [hinc z hzl, hz]
  refine ⟨(enum act).tail.length + 1, ⟨fin.2, fin.1⟩, vis, ?_, ?_, ?_, ?_⟩
  · intro fuel hfuel
    obtain ⟨k, rfl⟩ := Nat.exists_eq_add_of_le hfuel
    rw [optimise_of_loop h, ← hstart, (hloop k).2.1 _ hfinal]
    rfl
  · rw [hvis]
    have hnd := (enum_nodup act hst)
    refine List.Nodup.map_on ?_ (List.Nodup.sublist (List.tail_sublist _) hnd)
    intro x hx y hy hxy
    have lx := (mem_enum act x).1 (List.mem_of_mem_tail hx)
    have ly := (mem_enum act y).1 (List.mem_of_mem_tail hy)
    have := pairUp_inj (by rw [List.length_append, hdrop, ← lx.length_eq, hactl]; omega) (by rw [List.length_append, hdrop, ← ly.length_eq, hactl]; omega) hxy
    exact List.append_cancel_right this
  · intro p
    obtain ⟨tl, htl⟩ := enum_cons_shape act
    have hnd := (enum_nodup act hst)
    rw [htl] at hnd
    rw [hvis, htl, List.tail_cons, List.mem_map]
    constructor
    · rintro ⟨x, hx, rfl⟩
      obtain ⟨b1, b2⟩ := (hfront (emb x)).1 ⟨x, by rw [← hact, htl]; exact List.mem_cons_of_mem _ hx, rfl⟩
      refine ⟨b1, ?_, b2⟩
      intro e
      rw [← hstart] at e
      have lx := (mem_enum act x).1 (by rw [htl]; exact List.mem_cons_of_mem _ hx)
      have := pairUp_inj (by rw [List.length_append, hdrop, ← lx.length_eq, hactl]; omega) (by rw [List.length_append, hdrop, List.length_map, hactl]; omega) e
      have := List.append_cancel_right this
      rw [this] at hx
      exact (List.nodup_cons.1 hnd).1 hx
    · rintro ⟨b1, b2, b3⟩
      obtain ⟨x, hx, rfl⟩ := (hfront p).2 ⟨b1, b3⟩
      refine ⟨x, ?_, rfl⟩
      rw [← has, ← hact, htl] at hx
      rcases List.mem_cons.1 hx with rfl | hx
      · exact absurd hstart b2
      · exact hx
  · intro hne hnz
    have hgrid : ∀ p ∈ vis, g.OnGrid p := by
      intro p hp
      obtain ⟨y, hy, rfl⟩ := List.mem_map.1 hp
      exact hsub y hy
    obtain ⟨p, hp1, hp2, hp3⟩ := fold_min (g := g) (val := val) vis hne (fun p hp h0 => hnz p hp (by rw [hvok p (hgrid p hp), h0]))
    rw [← hfin] at hp2
    rw [hp2]
    refine ⟨hp1, ?_, ?_⟩
    · simp only
      rw [hvok p (hgrid p hp1)]
      congr 1
      split <;> simp
    · intro q hq y hy
      rw [hvok q (hgrid q hq)] at hy
      cases hy
      have := hp3 q hq
      simp only
      split
      · rename_i hmx; rw [if_pos hmx, if_pos hmx] at this; linarith
      · rename_i hmx; rw [if_neg hmx, if_neg hmx] at this; exact this

/-- C52, two parameters: exactly the grid points other than the starting point are evaluated. -/
theorem C52_two_partial {g : GridSearch α} (h : g.Sensible) {t : TestStat α} (hev : ∀ p, g.OnGrid p → ∃ y, t.eval p = .ok y)
    (hN : g.steps.keys.length = 2) :
    ∃ n₀ r visited, (∀ fuel, n₀ ≤ fuel → g.optimise t fuel = some (.ok (r, visited))) ∧ visited.Nodup ∧
      (∀ p, p ∈ visited ↔ g.OnGrid p ∧ p ≠ g.minima) ∧
      (visited ≠ [] → (∀ p ∈ visited, t.eval p ≠ .ok 0) →
        r.bestFit ∈ visited ∧ t.eval r.bestFit = .ok (if g.maximising then -r.extremeVal else r.extremeVal) ∧
        ∀ p, g.OnGrid p → p ≠ g.minima → ∀ y, t.eval p = .ok y → if g.maximising then y ≤ -r.extremeVal else r.extremeVal ≤ y) := by
  obtain ⟨n₀, r, vis, h1, h2, h3, h4⟩ := C52_partial h hev (by omega) (by omega)
  have hd : g.steps.keys.drop (g.steps.keys.length / 2 + 1) = [] := List.drop_eq_nil_of_le (by omega)
  have h3' : ∀ p, p ∈ vis ↔ g.OnGrid p ∧ p ≠ g.minima := by
    intro p; rw [h3 p, hd]; simp
  refine ⟨n₀, r, vis, h1, h2, h3', fun a b => ?_⟩
  obtain ⟨c1, c2, c3⟩ := h4 a b
  exact ⟨c1, c2, fun p hp hp' => c3 p ((h3' p).2 ⟨hp, hp'⟩)⟩

/-- C52, why `_partial`: with an odd number of parameters every search, whatever the settings and the statistic, ends in undefined behaviour
(the end of the parameter list is dereferenced). -/
theorem C52_odd_wrong {g : GridSearch α} (h : g.Sensible) {t : TestStat α} (hev : ∀ p, g.OnGrid p → ∃ y, t.eval p = .ok y)
    (hodd : g.steps.keys.length % 2 = 1) : ∃ n₀, ∀ fuel, n₀ ≤ fuel → g.optimise t fuel = some .ub := by
  set ns := g.steps.keys with hns
  set as := ns.map g.axOf with has
  have hg : Given g ns as := h.given
  have hinc : ∀ x, x.length = as.length → g.increment ns 0 ns.length (pairUp ns x) =
      if (inc as x).1 then .ok (true, pairUp ns (inc as x).2) else .ub := by
    intro x hx
    exact increment_odd hg hodd as [] [] ns [] x ns.length rfl rfl rfl rfl hx (by rw [hx, hg.len]) (by simp)
  have hst : ∀ a ∈ as, 0 < a.st := by
    intro a ha
    obtain ⟨n, hn, rfl⟩ := List.mem_map.1 ha
    exact (h.ax hn).1
  obtain ⟨z, hp, hz⟩ := path_enum as hst
  have hsub : ∀ y ∈ (enum as).tail, g.OnGrid (pairUp ns y) := by
    intro y hy
    refine ((mem_front h ns.length (pairUp ns y)).1 ⟨y, ?_, ?_⟩).1
    · rw [← hns, ← has, List.take_of_length_le (by rw [hg.len])]; exact List.mem_of_mem_tail hy
    · rw [← hns, ← has, List.drop_eq_nil_of_le (by rw [hg.len])]; simp
  set val : ParamDict α → α := fun p => match t.eval p with | .ok y => y | _ => 0 with hval
  have hvok : ∀ p, g.OnGrid p → t.eval p = .ok (val p) := by
    intro p hp
    obtain ⟨y, hy⟩ := hev p hp
    simp only [hval, hy]
  have hloop := fun k => loop_ok (g := g) (t := t) (act := as) (emb := pairUp ns) (val := val)
    (fun x hx hb => by rw [hinc x hx, hb]; rfl) hp (by simp) (fun y hy => hvok _ (hsub y hy)) k (0, [])
  refine ⟨(enum as).tail.length + 1, fun fuel hfuel => ?_⟩
  obtain ⟨k, rfl⟩ := Nat.exists_eq_add_of_le hfuel
  have hzl : z.length = as.length := (hloop 0).1
  have hub : g.increment ns 0 ns.length (pairUp ns z) = .ub := by rw [hinc z hzl, hz]; rfl
  rw [optimise_of_loop h, hg.mins, (hloop k).2.2 hub]
  rfl

/-- C52: dictionaries for different parameters are a logic error, before anything is evaluated. -/
theorem C52_mismatch (g : GridSearch α) (t : TestStat α) (h : g.steps.keys ≠ g.maxima.keys ∨ g.steps.keys ≠ g.minima.keys) (fuel : Nat) :
    g.optimise t fuel = some (.throw .logic) := by
  unfold optimise; rw [if_pos h]

/-! Concrete cases. -/

/-- 3 by 3 points: a in {0, 1, 2}, b in {0, 2, 4}. -/
def twoGrid : GridSearch ℚ := ⟨[("a", 0), ("b", 0)], [("a", 2), ("b", 5)], [("a", 1), ("b", 2)], false⟩

/-- A statistic of the first two parameters. -/
def quad (x y c : ℚ) : TestStat ℚ := ⟨["a", "b"], fun d => .ok (((d.find "a").getD 0 - x) ^ 2 + ((d.find "b").getD 0 - y) ^ 2 + c)⟩

theorem twoGrid_sensible : twoGrid.Sensible where
  mins := by decide +kernel
  maxs := by decide +kernel
  sts := by decide +kernel
  same1 := by decide +kernel
  same2 := by decide +kernel
  axes := by
    intro n lo hi st h1 h2 h3
    have hn : n ∈ twoGrid.steps.keys := (SMap.find_isSome_iff twoGrid.steps n).1 (by rw [h3]; rfl)
    have : twoGrid.steps.keys = ["a", "b"] := by decide +kernel
    rw [this] at hn
    simp only [List.mem_cons, List.not_mem_nil, or_false] at hn
    rcases hn with rfl | rfl
    · have e1 : twoGrid.minima.find "a" = some 0 := by decide +kernel
      have e2 : twoGrid.maxima.find "a" = some 2 := by decide +kernel
      have e3 : twoGrid.steps.find "a" = some 1 := by decide +kernel
      rw [e1] at h1; rw [e2] at h2; rw [e3] at h3
      cases h1; cases h2; cases h3
      norm_num
    · have e1 : twoGrid.minima.find "b" = some 0 := by decide +kernel
      have e2 : twoGrid.maxima.find "b" = some 5 := by decide +kernel
      have e3 : twoGrid.steps.find "b" = some 2 := by decide +kernel
      rw [e1] at h1; rw [e2] at h2; rw [e3] at h3
      cases h1; cases h2; cases h3
      norm_num
  differ := by decide +kernel

example : twoGrid.Sensible ∧ (∀ p, twoGrid.OnGrid p → ∃ y, (quad 1 3 1).eval p = .ok y) ∧ twoGrid.steps.keys.length = 2 :=
  ⟨twoGrid_sensible, fun p _ => ⟨_, rfl⟩, by decide +kernel⟩

/-- What a finished search reports. -/
def report (g : GridSearch ℚ) (t : TestStat ℚ) (fuel : Nat) : Option (Res (ParamDict ℚ × ℚ × Nat)) :=
  (g.optimise t fuel).map (fun r => r >>= fun x => Res.ok (x.1.bestFit, x.1.extremeVal, x.2.length))

set_option synthInstance.maxSize 4000 in
set_option synthInstance.maxHeartbeats 400000 in
example : report twoGrid (quad 1 3 1) 10 = some (.ok ([("a", 1), ("b", 2)], 2, 8)) ∧ report twoGrid (quad 1 3 1) 8 = none := by decide +kernel

/-- C52, why `_partial`: (1) the smallest value being at the starting point, it is not found; (2) a smallest value of zero is replaced by the
next value evaluated; (3) when maximising, the extreme value has the wrong sign; (4) with four parameters of two values each, only half of
the grid is searched (7 of the 15 points beside the starting point); (5) with minima equal to the maxima nothing is evaluated and the best
fit is empty; (6) without parameters the behaviour is undefined. -/
theorem C52_search_wrong :
    report twoGrid (quad 0 0 1) 10 = some (.ok ([("a", 1), ("b", 0)], 2, 8)) ∧
    report twoGrid (quad 1 2 0) 10 = some (.ok ([("a", 2), ("b", 2)], 1, 8)) ∧
    report { twoGrid with maximising := true } (quad 0 0 1) 10 = some (.ok ([("a", 2), ("b", 4)], -21, 8)) ∧
    report ⟨[("a", 0), ("b", 0), ("c", 0), ("d", 0)], [("a", 1), ("b", 1), ("c", 1), ("d", 1)], [("a", 1), ("b", 1), ("c", 1), ("d", 1)], false⟩
      ⟨["a", "b", "c", "d"], fun d => .ok (2 - (d.find "d").getD 0)⟩ 10 = some (.ok ([("a", 1), ("b", 0), ("c", 0), ("d", 0)], 2, 7)) ∧
    report { twoGrid with maxima := twoGrid.minima } (quad 0 0 1) 10 = some (.ok ([], 0, 0)) ∧
    report ⟨[], [], [], false⟩ (quad 0 0 1) 10 = some .ub := by
  set_option synthInstance.maxSize 4000 in
  set_option synthInstance.maxHeartbeats 400000 in
  refine ⟨?_, ?_, ?_, ?_, ?_, ?_⟩ <;> decide +kernel

end Oxsx
