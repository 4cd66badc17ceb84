import Verif.Spec.SystematicManager
import Verif.Lemmas.Basic
import Verif.Props.Matrix
import Mathlib.Data.Rat.Floor
import Mathlib.Data.List.Perm.Basic
import Mathlib.Algebra.Order.BigOperators.Group.List
set_option linter.unusedSectionVars false
set_option linter.unusedSimpArgs false
set_option linter.unusedVariables false
/-
C25, C26: registration of systematics in groups and what acts on a distribution.
-/
namespace Oxsx
variable {α : Type} [Field α] [LinearOrder α] {σ : Type}

namespace SysManager
open SysLog
open scoped List

/-! ### The name-set loops -/

theorem insertUnique_spec (e : Exc) (seen l : List String) (hs : seen.Nodup) :
    ((l ++ seen).Nodup ∧ insertUnique e seen l = .ok (l.reverse ++ seen)) ∨
    (¬ (l ++ seen).Nodup ∧ insertUnique e seen l = .throw e) := by
  induction l generalizing seen with
  | nil => left; exact ⟨by simpa using hs, rfl⟩
  | cons n l ih =>
    unfold insertUnique
    by_cases h : n ∈ seen
    · right
      rw [if_pos h]
      refine ⟨?_, rfl⟩
      intro hn
      have := (List.nodup_cons.1 hn).1
      exact this (List.mem_append_right _ h)
    · rw [if_neg h]
      have e1 : (l ++ n :: seen).Nodup ↔ (n :: l ++ seen).Nodup := by
        apply List.Perm.nodup_iff
        simpa using List.perm_middle
      rcases ih (n :: seen) (List.nodup_cons.2 ⟨h, hs⟩) with ⟨h1, h2⟩ | ⟨h1, h2⟩
      · left; exact ⟨e1.1 h1, by rw [h2]; simp⟩
      · right; exact ⟨fun hh => h1 (e1.2 hh), h2⟩

theorem insertGroup_spec (size i : Nat) (seen l : List String) (hs : seen.Nodup) :
    ((l ++ seen).Nodup ∧ insertGroup size i seen l = .ok (l.reverse ++ seen)) ∨
    (¬ (l ++ seen).Nodup ∧ insertGroup size i seen l = .throw (if i < size then .notFound else .outOfRange)) := by
  induction l generalizing seen with
  | nil => left; exact ⟨by simpa using hs, rfl⟩
  | cons n l ih =>
    unfold insertGroup
    by_cases h : n ∈ seen
    · right
      rw [if_pos h]
      refine ⟨?_, by split <;> rfl⟩
      intro hn
      have := (List.nodup_cons.1 hn).1
      exact this (List.mem_append_right _ h)
    · rw [if_neg h]
      have e1 : (l ++ n :: seen).Nodup ↔ (n :: l ++ seen).Nodup := by
        apply List.Perm.nodup_iff
        simpa using List.perm_middle
      rcases ih (n :: seen) (List.nodup_cons.2 ⟨h, hs⟩) with ⟨h1, h2⟩ | ⟨h1, h2⟩
      · left; exact ⟨e1.1 h1, by rw [h2]; simp⟩
      · right; exact ⟨fun hh => h1 (e1.2 hh), h2⟩

/-- A loop over blocks of names, each added to the set with some exception. -/
theorem blocks_spec {β : Type} (f : List String → β → Res (List String)) (blk : β → List String)
    (hf : ∀ seen b, seen.Nodup → ((blk b ++ seen).Nodup ∧ f seen b = .ok ((blk b).reverse ++ seen)) ∨
      (¬ (blk b ++ seen).Nodup ∧ (f seen b = .throw .notFound ∨ f seen b = .throw .outOfRange)))
    (bs : List β) (seen : List String) (hs : seen.Nodup) :
    ((bs.flatMap blk ++ seen).Nodup ∧ Res.forFold f seen bs = .ok ((bs.flatMap blk).reverse ++ seen)) ∨
    (¬ (bs.flatMap blk ++ seen).Nodup ∧
      (Res.forFold f seen bs = .throw .notFound ∨ Res.forFold f seen bs = .throw .outOfRange)) := by
  induction bs generalizing seen with
  | nil => left; exact ⟨by simpa using hs, rfl⟩
  | cons b bs ih =>
    have key : ∀ l : List String, (blk b ++ seen).Nodup →
        ((l ++ ((blk b).reverse ++ seen)).Nodup ↔ (blk b ++ l ++ seen).Nodup) := by
      intro l _
      apply List.Perm.nodup_iff
      calc l ++ ((blk b).reverse ++ seen) = (l ++ (blk b).reverse) ++ seen := by simp
        _ ~ ((blk b).reverse ++ l) ++ seen := List.Perm.append_right _ List.perm_append_comm
        _ ~ (blk b ++ l) ++ seen :=
          List.Perm.append_right _ (List.Perm.append_right _ (List.reverse_perm _))
    rcases hf seen b hs with ⟨h1, h2⟩ | ⟨h1, h2⟩
    · have hnd : ((blk b).reverse ++ seen).Nodup :=
        (List.Perm.nodup_iff (List.Perm.append_right _ (List.reverse_perm _))).2 h1
      have h3 : Res.forFold f seen (b :: bs) = Res.forFold f ((blk b).reverse ++ seen) bs := by
        simp only [Res.forFold, h2]
      rw [h3, List.flatMap_cons]
      rcases ih ((blk b).reverse ++ seen) hnd with ⟨g1, g2⟩ | ⟨g1, g2⟩
      · left
        exact ⟨(key _ h1).1 g1, by rw [g2]; simp⟩
      · right
        exact ⟨fun hh => g1 ((key _ h1).2 hh), g2⟩
    · right
      rw [List.flatMap_cons]
      refine ⟨?_, ?_⟩
      · intro hh
        apply h1
        refine hh.sublist ?_
        simp
      · rcases h2 with h2 | h2
        · left; simp only [Res.forFold, h2]
        · right; simp only [Res.forFold, h2]

/-! ### State and log -/

/-- The manager's maps hold what the log says. -/
structure Rel (m : SysManager α) (log : List ManagerCall) : Prop where
  sorted : SMap.Sorted m.groups
  groups : ∀ g, SMap.find m.groups g = if Known log g then some (members log g) else none
  perm : (m.groups.flatMap (·.2)).Perm (added log)
  dists : ∀ d, SMap.find m.edGroups d = assigned log d
  sortedD : SMap.Sorted m.edGroups

theorem rel_new : Rel (.new : SysManager α) [] := by
  refine ⟨by simp [new, SMap.Sorted], ?_, ?_, ?_, by simp [new, SMap.Sorted]⟩
  · intro g
    by_cases h : g = ""
    · subst h; simp [new, SMap.find, Known, members]
    · simp [new, SMap.find, Known, members, h, Ne.symm h]
  · simp [new, added]
  · intro d; simp [new, SMap.find, assigned]

theorem find_none_of_lt {β : Type} {m : SMap β} {k : String} (h : ∀ q ∈ m, k < q.1) : SMap.find m k = none := by
  rw [SMap.find_none_iff]
  intro hk
  obtain ⟨q, hq, rfl⟩ := List.mem_map.1 hk
  exact lt_irrefl _ (h q hq)

theorem push_perm (m : SMap (List Nat)) (hs : SMap.Sorted m) (k : String) (p : Nat) :
    ((SMap.insert k (((SMap.find m k).getD []) ++ [p]) m).flatMap (·.2)).Perm (m.flatMap (·.2) ++ [p]) := by
  induction m with
  | nil => simp [SMap.insert, SMap.find]
  | cons q r ih =>
    obtain ⟨k', v'⟩ := q
    have h1 := List.pairwise_cons.1 hs
    unfold SMap.insert
    by_cases hlt : k < k'
    · rw [if_pos hlt, SMap.find_cons, if_neg (ne_of_gt hlt)]
      rw [find_none_of_lt (fun q hq => lt_trans hlt (h1.1 q hq))]
      simpa using List.perm_append_comm (l₁ := [p]) (l₂ := v' ++ r.flatMap (·.2))
    · rw [if_neg hlt]
      by_cases heq : k = k'
      · rw [if_pos heq, SMap.find_cons, if_pos heq.symm]
        simp only [Option.getD_some, List.flatMap_cons, List.append_assoc]
        exact List.Perm.append_left _ List.perm_append_comm
      · rw [if_neg heq, SMap.find_cons, if_neg (Ne.symm heq)]
        simp only [List.flatMap_cons, List.append_assoc]
        exact List.Perm.append_left _ (ih h1.2)

theorem members_append (log : List ManagerCall) (c : ManagerCall) (g : String) :
    members (log ++ [c]) g = members log g ++
      (c.added?.bind (fun x => if x.2 = g then some x.1 else none)).toList := by
  unfold members
  rw [List.filterMap_append]
  congr 1

theorem added_append (log : List ManagerCall) (c : ManagerCall) :
    added (log ++ [c]) = added log ++ (c.added?.map (·.1)).toList := by
  unfold added
  rw [List.filterMap_append]
  congr 1

theorem assigned_append (log : List ManagerCall) (c : ManagerCall) (d : String) :
    assigned (log ++ [c]) d = match c with
      | .addDist d' gs => if d' = d then some gs else assigned log d
      | _ => assigned log d := by
  induction log with
  | nil =>
    cases c <;> simp [assigned]
  | cons a log ih =>
    rw [List.cons_append]
    unfold assigned
    rw [ih]
    cases c with
    | add p => rfl
    | addTo p g => rfl
    | addDist d' gs =>
      simp only
      by_cases h : d' = d
      · simp [h]
      · simp only [if_neg h]

theorem rel_push {m : SysManager α} {log : List ManagerCall} (h : Rel m log) (p : Nat) (g : String) (c : ManagerCall)
    (hc : c.added? = some (p, g)) : Rel (m.push p g) (log ++ [c]) := by
  have hmem : (SMap.find m.groups g).getD [] = members log g := by
    rw [h.groups]
    by_cases hk : Known log g
    · rw [if_pos hk]; rfl
    · rw [if_neg hk]
      simp only [Option.getD_none]
      unfold Known at hk
      push Not at hk
      exact hk.2.symm
  refine ⟨SMap.sorted_insert h.sorted _ _, ?_, ?_, ?_, h.sortedD⟩
  · intro g'
    simp only [push]
    rw [SMap.find_insert, hmem, h.groups]
    have hm' := members_append log c g'
    rw [hc] at hm'
    simp only [Option.bind_some] at hm'
    by_cases hg : g = g'
    · subst hg
      rw [if_pos rfl]
      rw [if_pos (show Known (log ++ [c]) g from Or.inr (by rw [hm']; simp))]
      rw [hm']; simp
    · rw [if_neg hg] at hm' ⊢
      simp only [Option.toList_none, List.append_nil] at hm'
      have hk : Known (log ++ [c]) g' ↔ Known log g' := by unfold Known; rw [hm']
      rw [hm']
      by_cases hk' : Known log g'
      · rw [if_pos hk', if_pos (hk.2 hk')]
      · rw [if_neg hk', if_neg (fun hh => hk' (hk.1 hh))]
  · simp only [push]
    refine (push_perm m.groups h.sorted g p).trans ?_
    rw [added_append, hc]
    exact List.Perm.append_right _ h.perm
  · intro d
    simp only [push]
    rw [h.dists, assigned_append]
    cases c with
    | addDist d gs => cases hc
    | add p => rfl
    | addTo p g => rfl

theorem others_nodup (m : SMap (List Nat)) (name : Nat → String) (hs : SMap.Sorted m) (gl : List Nat)
    (hg : SMap.find m "" = some gl) :
    (gl ++ (m.filter (fun g => g.1 ≠ "")).flatMap (·.2)).Perm (m.flatMap (·.2)) := by
  induction m with
  | nil => simp [SMap.find] at hg
  | cons q r ih =>
    obtain ⟨k, v⟩ := q
    have h1 := List.pairwise_cons.1 hs
    rw [SMap.find_cons] at hg
    by_cases hk : k = ""
    · subst hk
      rw [if_pos rfl] at hg
      cases hg
      rw [List.filter_cons_of_neg (by simp), List.flatMap_cons]
      rw [List.filter_eq_self.2]
      intro q hq
      have := h1.1 q hq
      simpa using (ne_of_gt this)
    · rw [if_neg hk] at hg
      rw [List.filter_cons_of_pos (by simpa using hk), List.flatMap_cons, List.flatMap_cons]
      refine List.Perm.trans ?_ (List.Perm.append_left v (ih h1.2 hg))
      rw [← List.append_assoc, ← List.append_assoc]
      exact List.Perm.append_right _ List.perm_append_comm

theorem check_spec (name : Nat → String) {m : SysManager α} {log : List ManagerCall} (h : Rel m log) (p : Nat) :
    (((p :: added log).map name).Nodup ∧ m.checkAllOtherGroups name p = .ok ()) ∨
    (¬ ((p :: added log).map name).Nodup ∧ m.checkAllOtherGroups name p = .throw .notFound) := by
  have hg : SMap.find m.groups "" = some (members log "") := by
    rw [h.groups, if_pos (show Known log "" from Or.inl rfl)]
  unfold checkAllOtherGroups groupAt
  rw [hg]
  simp only [Res.ok_bind]
  have hperm : (((members log "") ++ (m.groups.filter (fun g => g.1 ≠ "")).flatMap (·.2)).map name).Perm
      ((added log).map name) :=
    List.Perm.map _ ((others_nodup m.groups name h.sorted _ hg).trans h.perm)
  -- the second loop only sees the named groups
  have hloop : ∀ (gs : SMap (List Nat)) (seen : List String), seen.Nodup →
      ((((gs.filter (fun g => g.1 ≠ "")).flatMap (fun g => g.2.map name)) ++ seen).Nodup ∧
        ∃ s, Res.forFold (fun (seen : List String) (g : String × List Nat) =>
          if g.1 = "" then pure seen else insertUnique .notFound seen (g.2.map name)) seen gs = .ok s) ∨
      (¬ (((gs.filter (fun g => g.1 ≠ "")).flatMap (fun g => g.2.map name)) ++ seen).Nodup ∧
        Res.forFold (fun (seen : List String) (g : String × List Nat) =>
          if g.1 = "" then pure seen else insertUnique .notFound seen (g.2.map name)) seen gs = .throw .notFound) := by
    intro gs
    induction gs with
    | nil => intro seen hs; left; exact ⟨by simpa using hs, _, rfl⟩
    | cons q r ih =>
      intro seen hs
      by_cases hk : q.1 = ""
      · rw [List.filter_cons_of_neg (by simpa using hk)]
        simp only [Res.forFold, hk, if_true, Res.pure_eq]
        exact ih seen hs
      · rw [List.filter_cons_of_pos (by simpa using hk), List.flatMap_cons]
        simp only [Res.forFold, hk, if_false]
        have key : ∀ l : List String, ((l ++ ((q.2.map name).reverse ++ seen)).Nodup ↔ (q.2.map name ++ l ++ seen).Nodup) := by
          intro l
          apply List.Perm.nodup_iff
          calc l ++ ((q.2.map name).reverse ++ seen) = (l ++ (q.2.map name).reverse) ++ seen := by simp
            _ ~ ((q.2.map name).reverse ++ l) ++ seen := List.Perm.append_right _ List.perm_append_comm
            _ ~ (q.2.map name ++ l) ++ seen :=
              List.Perm.append_right _ (List.Perm.append_right _ (List.reverse_perm _))
        rcases insertUnique_spec .notFound seen (q.2.map name) hs with ⟨h1, h2⟩ | ⟨h1, h2⟩
        · rw [h2]
          simp only
          rcases ih _ ((List.Perm.nodup_iff (List.Perm.append_right _ (List.reverse_perm _))).2 h1) with ⟨g1, g2⟩ | ⟨g1, g2⟩
          · left; exact ⟨(key _).1 g1, g2⟩
          · right; exact ⟨fun hh => g1 ((key _).2 hh), g2⟩
        · right
          rw [h2]
          refine ⟨fun hh => h1 (hh.sublist (by simp)), rfl⟩
  have key2 : ((((m.groups.filter (fun g => g.1 ≠ "")).flatMap (fun g => g.2.map name)) ++
      (((members log "").map name).reverse ++ [name p])).Nodup ↔ ((p :: added log).map name).Nodup) := by
    apply List.Perm.nodup_iff
    have e1 : ((m.groups.filter (fun g => g.1 ≠ "")).flatMap (fun g => g.2.map name)) =
        ((m.groups.filter (fun g => g.1 ≠ "")).flatMap (·.2)).map name := by
      rw [List.map_flatMap]
    rw [e1, List.map_cons]
    rw [List.map_append] at hperm
    generalize ((m.groups.filter (fun g => g.1 ≠ "")).flatMap (·.2)).map name = B at *
    generalize (members log "").map name = A at *
    calc B ++ (A.reverse ++ [name p]) = (B ++ A.reverse) ++ [name p] := by simp
      _ ~ [name p] ++ (B ++ A.reverse) := List.perm_append_comm
      _ ~ name p :: (A ++ B) := by
        refine List.Perm.cons _ ?_
        show (B ++ A.reverse).Perm (A ++ B)
        exact (List.perm_append_comm).trans (List.Perm.append_right _ (List.reverse_perm _))
      _ ~ _ := List.Perm.cons _ hperm
  rcases insertUnique_spec .notFound [name p] ((members log "").map name) (by simp) with ⟨h1, h2⟩ | ⟨h1, h2⟩
  · rw [h2]
    simp only [Res.ok_bind]
    rcases hloop m.groups _ ((List.Perm.nodup_iff (List.Perm.append_right _ (List.reverse_perm _))).2 h1) with
      ⟨g1, s, g2⟩ | ⟨g1, g2⟩
    · left; refine ⟨key2.1 g1, ?_⟩; rw [g2]; rfl
    · right; refine ⟨fun hh => g1 (key2.2 hh), ?_⟩; rw [g2]; rfl
  · right
    rw [h2]
    refine ⟨fun hh => h1 ?_, rfl⟩
    have := key2.2 hh
    have h3 := this.sublist (List.sublist_append_right _ _)
    exact (List.Perm.nodup_iff (List.Perm.append_right _ (List.reverse_perm _))).1 h3

theorem unique_spec (name : Nat → String) {m : SysManager α} {log : List ManagerCall} (h : Rel m log) (gs : List String) :
    (((∀ g ∈ gs, Known log g) ∧
      ((gs.flatMap (members log) ++ if gs = [""] then [] else members log "").map name).Nodup) ∧
      m.uniqueSystematics name gs = .ok ()) ∨
    (¬ ((∀ g ∈ gs, Known log g) ∧
      ((gs.flatMap (members log) ++ if gs = [""] then [] else members log "").map name).Nodup) ∧
      (m.uniqueSystematics name gs = .throw .notFound ∨ m.uniqueSystematics name gs = .throw .outOfRange)) := by
  have hg : SMap.find m.groups "" = some (members log "") := by
    rw [h.groups, if_pos (show Known log "" from Or.inl rfl)]
  have hloop : ∀ (l : List (String × Nat)) (seen : List String), seen.Nodup →
      (((∀ g ∈ l, Known log g.1) ∧ ((l.flatMap (fun g => (members log g.1).map name)) ++ seen).Nodup) ∧
        Res.forFold (m.uniqueStep name) seen l =
            .ok ((l.flatMap (fun g => (members log g.1).map name)).reverse ++ seen)) ∨
      (¬ ((∀ g ∈ l, Known log g.1) ∧ ((l.flatMap (fun g => (members log g.1).map name)) ++ seen).Nodup) ∧
        (Res.forFold (m.uniqueStep name) seen l = .throw .notFound ∨
        Res.forFold (m.uniqueStep name) seen l = .throw .outOfRange)) := by
    intro l
    induction l with
    | nil => intro seen hs; left; exact ⟨⟨by simp, by simpa using hs⟩, rfl⟩
    | cons q r ih =>
      intro seen hs
      have hfind := h.groups q.1
      by_cases hk : Known log q.1
      · rw [if_pos hk] at hfind
        simp only [Res.forFold, uniqueStep, hfind, List.flatMap_cons]
        have key : ∀ l : List String, ((l ++ (((members log q.1).map name).reverse ++ seen)).Nodup ↔
            ((members log q.1).map name ++ l ++ seen).Nodup) := by
          intro l
          apply List.Perm.nodup_iff
          calc l ++ (((members log q.1).map name).reverse ++ seen)
              = (l ++ ((members log q.1).map name).reverse) ++ seen := by simp
            _ ~ (((members log q.1).map name).reverse ++ l) ++ seen := List.Perm.append_right _ List.perm_append_comm
            _ ~ ((members log q.1).map name ++ l) ++ seen :=
              List.Perm.append_right _ (List.Perm.append_right _ (List.reverse_perm _))
        rcases insertGroup_spec (members log q.1).length q.2 seen ((members log q.1).map name) hs with
          ⟨h1, h2⟩ | ⟨h1, h2⟩
        · rw [h2]
          simp only
          rcases ih _ ((List.Perm.nodup_iff (List.Perm.append_right _ (List.reverse_perm _))).2 h1) with
            ⟨⟨g1, g2⟩, g3⟩ | ⟨g1, g2⟩
          · left
            refine ⟨⟨?_, (key _).1 g2⟩, by rw [g3]; simp⟩
            intro g hg
            rcases List.mem_cons.1 hg with rfl | hg
            · exact hk
            · exact g1 g hg
          · right
            refine ⟨?_, g2⟩
            rintro ⟨e1, e2⟩
            exact g1 ⟨fun g hg => e1 g (List.mem_cons_of_mem _ hg), (key _).2 e2⟩
        · right
          rw [h2]
          refine ⟨?_, ?_⟩
          · rintro ⟨_, e2⟩
            exact h1 (e2.sublist (by simp))
          · simp only
            split <;> simp
      · right
        rw [if_neg hk] at hfind
        refine ⟨fun hh => hk (hh.1 q (by simp)), ?_⟩
        left
        simp only [Res.forFold, uniqueStep, hfind]
  have hz : ∀ (l : List String) (k : Nat), (l.zipIdx k).flatMap (fun g => (members log g.1).map name) =
      (l.flatMap (members log)).map name := by
    intro l
    induction l with
    | nil => intro k; rfl
    | cons a l ih => intro k; simp [List.zipIdx_cons, List.flatMap_cons, ih]
  have hz2 : (∀ g ∈ gs.zipIdx, Known log g.1) ↔ ∀ g ∈ gs, Known log g := by
    constructor
    · intro hh g hg
      obtain ⟨i, hi, rfl⟩ := List.mem_iff_getElem.1 hg
      exact hh (gs[i], i) (by simpa using List.mk_mem_zipIdx_iff_getElem?.2 (by simp [hi]))
    · intro hh g hg
      obtain ⟨x, i⟩ := g
      exact hh x (List.mem_of_getElem? (List.mk_mem_zipIdx_iff_getElem?.1 hg))
  unfold uniqueSystematics
  rw [hg]
  simp only [Option.getD_some]
  rcases hloop gs.zipIdx [] List.nodup_nil with ⟨⟨g1, g2⟩, g3⟩ | ⟨g1, g2⟩
  · rw [g3]
    rw [hz] at g2 g3 ⊢
    simp only [Res.ok_bind, List.append_nil] at g2 ⊢
    by_cases he : gs = [""]
    · left
      rw [if_pos he]
      refine ⟨⟨hz2.1 g1, ?_⟩, ?_⟩
      · simpa using g2
      · rw [if_pos he]; rfl
    · rw [if_neg he]
      rcases insertUnique_spec .notFound ((gs.flatMap (members log)).map name).reverse ((members log "").map name)
        (List.nodup_reverse.2 g2) with ⟨h1, h2⟩ | ⟨h1, h2⟩
      · left
        rw [if_neg he, h2]
        refine ⟨⟨hz2.1 g1, ?_⟩, rfl⟩
        rw [List.map_append]
        refine (List.Perm.nodup_iff ?_).1 h1
        exact (List.perm_append_comm).trans (List.Perm.append_right _ (List.reverse_perm _))
      · right
        rw [if_neg he, h2]
        refine ⟨?_, Or.inl rfl⟩
        rintro ⟨_, e2⟩
        apply h1
        rw [List.map_append] at e2
        refine (List.Perm.nodup_iff ?_).1 e2
        exact (List.Perm.append_right _ (List.reverse_perm _).symm).trans List.perm_append_comm
  · right
    refine ⟨?_, ?_⟩
    · rintro ⟨e1, e2⟩
      apply g1
      refine ⟨hz2.2 e1, ?_⟩
      rw [hz, List.append_nil]
      rw [List.map_append] at e2
      exact e2.sublist (List.sublist_append_left _ _)
    · rcases g2 with g2 | g2
      · left; rw [g2]; rfl
      · right; rw [g2]; rfl

theorem rel_exec (name : Nat → String) {m : SysManager α} {log : List ManagerCall} (h : Rel m log) (c : ManagerCall) :
    (Accepts name log c ∧ ∃ m', m.exec name c = .ok m' ∧ Rel m' (log ++ [c])) ∨
    (¬ Accepts name log c ∧ (m.exec name c = .throw .notFound ∨ m.exec name c = .throw .outOfRange)) := by
  have hadd : ∀ p c, c.added? = some (p, "") →
      (((p :: added log).map name).Nodup ∧ ∃ m', m.add name p = .ok m' ∧ Rel m' (log ++ [c])) ∨
      (¬ ((p :: added log).map name).Nodup ∧ m.add name p = .throw .notFound) := by
    intro p c hc
    rcases check_spec name h p with ⟨h1, h2⟩ | ⟨h1, h2⟩
    · left
      refine ⟨h1, m.push p "", ?_, rel_push h p "" c hc⟩
      unfold add; rw [h2]; rfl
    · right
      refine ⟨h1, ?_⟩
      unfold add; rw [h2]; rfl
  cases c with
  | add p =>
    rcases hadd p (.add p) rfl with h1 | ⟨h1, h2⟩
    · left; exact h1
    · right; exact ⟨h1, Or.inl h2⟩
  | addTo p g =>
    by_cases hg : g = ""
    · subst hg
      rcases hadd p (.addTo p "") rfl with ⟨h1, m', h2, h3⟩ | ⟨h1, h2⟩
      · left; exact ⟨fun _ => h1, m', by simpa [exec, addTo] using h2, h3⟩
      · right; exact ⟨fun hh => h1 (hh rfl), Or.inl (by simpa [exec, addTo] using h2)⟩
    · left
      refine ⟨fun hh => absurd hh hg, m.push p g, ?_, rel_push h p g _ rfl⟩
      simp [exec, addTo, hg]
  | addDist d gs =>
    rcases unique_spec name h gs with ⟨h1, h2⟩ | ⟨h1, h2⟩
    · left
      refine ⟨h1, { m with edGroups := m.edGroups.insert d gs }, ?_, ?_⟩
      · simp only [exec, addDist, h2, Res.ok_bind, Res.pure_eq]
      · refine ⟨h.sorted, ?_, ?_, ?_, SMap.sorted_insert h.sortedD _ _⟩
        · intro g
          have e := members_append log (.addDist d gs) g
          simp only [ManagerCall.added?, Option.bind_none, Option.toList_none, List.append_nil] at e
          simp only [Known, e]
          exact h.groups g
        · rw [added_append]
          simpa [ManagerCall.added?] using h.perm
        · intro d'
          simp only [SMap.find_insert, assigned_append, h.dists]
    · right
      refine ⟨h1, ?_⟩
      rcases h2 with h2 | h2
      · left; simp only [exec, addDist, h2]; rfl
      · right; simp only [exec, addDist, h2]; rfl

theorem rel_run (name : Nat → String) (calls : List ManagerCall) :
    Rel (run name calls : SysManager α) (ofCalls name calls) := by
  have key : ∀ (calls : List ManagerCall) (m : SysManager α) (log : List ManagerCall), Rel m log →
      Rel (calls.foldl (fun m c => match m.exec name c with
        | .ok m' => m'
        | _ => m) m) (calls.foldl (fun log c => if Accepts name log c then log ++ [c] else log) log) := by
    intro calls
    induction calls with
    | nil => intro m log h; exact h
    | cons c calls ih =>
      intro m log h
      simp only [List.foldl_cons]
      apply ih
      rcases rel_exec name h c with ⟨h1, m', h2, h3⟩ | ⟨h1, h2⟩
      · rw [if_pos h1, h2]; exact h3
      · rw [if_neg h1]
        rcases h2 with h2 | h2 <;> rw [h2] <;> exact h
  exact key calls _ _ rel_new

end SysManager

/-! ### C26 -/

open SysLog in
/-- **C26 (what is accepted).** After any sequence of registration calls, a further call is accepted exactly when `Accepts`
says so of the calls accepted before, and throws otherwise. -/
theorem C26_accepts (name : Nat → String) (calls : List ManagerCall) (c : ManagerCall) :
    ((∃ m', (SysManager.run name calls : SysManager α).exec name c = .ok m') ↔ Accepts name (ofCalls name calls) c) ∧
    ((SysManager.run name calls : SysManager α).exec name c = .throw .notFound ∨
      (SysManager.run name calls : SysManager α).exec name c = .throw .outOfRange ↔
      ¬ Accepts name (ofCalls name calls) c) := by
  rcases SysManager.rel_exec name (SysManager.rel_run (α := α) name calls) c with ⟨h1, m', h2, h3⟩ | ⟨h1, h2⟩
  · refine ⟨⟨fun _ => h1, fun _ => ⟨m', h2⟩⟩, ⟨?_, fun hh => absurd h1 hh⟩⟩
    rintro (hh | hh) <;> rw [h2] at hh <;> cases hh
  · refine ⟨⟨?_, fun hh => absurd hh h1⟩, ⟨fun _ => h1, fun _ => h2⟩⟩
    rintro ⟨m', hh⟩
    rcases h2 with h2 | h2 <;> rw [h2] at hh <;> cases hh

open SysLog in
/-- **C26 (rejections).** Adding a systematic to the global group when one of the same name is already in any group throws
NotFoundError, and an assignment of a distribution to groups among which (with the global group) a name occurs
twice throws an exception. -/
theorem C26_rejects (name : Nat → String) (calls : List ManagerCall) :
    (∀ p q, q ∈ added (ofCalls name calls) → name q = name p →
      (SysManager.run name calls : SysManager α).add name p = .throw .notFound) ∧
    (∀ d gs g g' p q, g ∈ gs → g' ∈ "" :: gs → g ≠ g' → p ∈ members (ofCalls name calls) g →
      q ∈ members (ofCalls name calls) g' → name p = name q →
      ∃ e, (SysManager.run name calls : SysManager α).addDist name d gs = .throw e) := by
  have hrel := SysManager.rel_run (α := α) name calls
  constructor
  · intro p q hq hn
    rcases SysManager.check_spec name hrel p with ⟨h1, h2⟩ | ⟨h1, h2⟩
    · exfalso
      rw [List.map_cons, List.nodup_cons] at h1
      exact h1.1 (List.mem_map.2 ⟨q, hq, hn⟩)
    · unfold SysManager.add; rw [h2]; rfl
  · intro d gs g g' p q hg hg' hne hp hq hn
    rcases SysManager.unique_spec name hrel gs with ⟨⟨_, h1⟩, h2⟩ | ⟨h1, h2⟩
    · exfalso
      have hgs : gs ≠ [""] := by
        rintro rfl
        simp at hg hg'
        exact hne (hg.trans hg'.symm)
      rw [if_neg hgs, List.map_append, List.nodup_append] at h1
      obtain ⟨n1, n2, n3⟩ := h1
      rcases List.mem_cons.1 hg' with rfl | hg'
      · exact n3 (name p) (List.mem_map_of_mem (List.mem_flatMap.2 ⟨g, hg, hp⟩)) (name q)
          (List.mem_map_of_mem hq) hn
      · rw [List.map_flatMap, List.nodup_flatMap] at n1
        have hpw := n1.2
        have hh := List.pairwise_iff_getElem.1 hpw
        obtain ⟨i, hi, rfl⟩ := List.mem_iff_getElem.1 hg
        obtain ⟨j, hj, rfl⟩ := List.mem_iff_getElem.1 hg'
        have hij : i ≠ j := by rintro rfl; exact hne rfl
        rcases Nat.lt_or_gt_of_ne hij with hlt | hlt
        · exact hh i j hi hj hlt (List.mem_map_of_mem hp) (hn ▸ List.mem_map_of_mem hq)
        · exact hh j i hj hi hlt (List.mem_map_of_mem hq) (hn ▸ List.mem_map_of_mem hp)
    · rcases h2 with h2 | h2
      · exact ⟨_, by unfold SysManager.addDist; rw [h2]; rfl⟩
      · exact ⟨_, by unfold SysManager.addDist; rw [h2]; rfl⟩

open SysLog in
/-- **C26 (never applied twice; partial).** If every `AddDist` comes after every `Add`, no two systematics of the same name
act on a distribution, and in particular none acts twice. Missing: `Add` after `AddDist`, see `C26_late_add_wrong`. -/
theorem C26_never_twice_partial (name : Nat → String) (adds dists : List ManagerCall)
    (hd : ∀ c ∈ dists, c.added? = none) (d : String) (gs : List String)
    (hgs : assigned (ofCalls name (adds ++ dists)) d = some gs) (ha : ∀ c ∈ adds, c.added? ≠ none) :
    ((acting (ofCalls name (adds ++ dists)) gs).map name).Nodup := by
  have hmem : ∀ (l : List ManagerCall) (log : List ManagerCall), (∀ c ∈ l, c.added? = none) → ∀ g,
      members (l.foldl (fun log c => if Accepts name log c then log ++ [c] else log) log) g = members log g := by
    intro l
    induction l with
    | nil => intro log _ g; rfl
    | cons c l ih =>
      intro log hc g
      rw [List.foldl_cons, ih _ (fun x hx => hc x (List.mem_cons_of_mem _ hx))]
      split
      · rw [SysManager.members_append, hc c (by simp)]; simp
      · rfl
  have hasg : ∀ (l : List ManagerCall) (log : List ManagerCall), (∀ c ∈ l, c.added? = none) →
      assigned (l.foldl (fun log c => if Accepts name log c then log ++ [c] else log) log) d = some gs →
      assigned log d = some gs ∨ ((gs.flatMap (members log) ++ if gs = [""] then [] else members log "").map name).Nodup := by
    intro l
    induction l with
    | nil => intro log _ h; left; exact h
    | cons c l ih =>
      intro log hc h
      rw [List.foldl_cons] at h
      have hc' := hc c (by simp)
      have hm : ∀ g, members (if Accepts name log c then log ++ [c] else log) g = members log g := by
        intro g; split
        · rw [SysManager.members_append, hc']; simp
        · rfl
      rcases ih _ (fun x hx => hc x (List.mem_cons_of_mem _ hx)) h with h1 | h1
      · split at h1
        · rename_i hacc
          rw [SysManager.assigned_append] at h1
          cases c with
          | add p => cases hc'
          | addTo p g => cases hc'
          | addDist d' gs' =>
            simp only at h1
            split at h1
            · cases h1; right; exact hacc.2
            · left; exact h1
        · left; exact h1
      · right
        have : gs.flatMap (members (if Accepts name log c then log ++ [c] else log)) = gs.flatMap (members log) := by
          congr 1; funext g; exact hm g
        rw [this, hm] at h1
        exact h1
  have hbase : ∀ (l : List ManagerCall) (log : List ManagerCall), (∀ c ∈ l, c.added? ≠ none) → assigned log d = none →
      assigned (l.foldl (fun log c => if Accepts name log c then log ++ [c] else log) log) d = none := by
    intro l
    induction l with
    | nil => intro log _ h; exact h
    | cons c l ih =>
      intro log hc h
      rw [List.foldl_cons]
      apply ih _ (fun x hx => hc x (List.mem_cons_of_mem _ hx))
      split
      · rw [SysManager.assigned_append]
        cases c with
        | add p => exact h
        | addTo p g => exact h
        | addDist d' gs' => exact absurd rfl (hc (.addDist d' gs') List.mem_cons_self)
      · exact h
  unfold ofCalls at *
  rw [List.foldl_append] at hgs ⊢
  have h0 := hbase adds [] ha rfl
  have hnd := (hasg dists _ hd hgs).resolve_left (by rw [h0]; simp)
  have hm := hmem dists (adds.foldl (fun log c => if Accepts name log c then log ++ [c] else log) []) hd
  unfold acting
  have e1 : gs.flatMap (members (dists.foldl (fun log c => if Accepts name log c then log ++ [c] else log)
      (adds.foldl (fun log c => if Accepts name log c then log ++ [c] else log) []))) =
      gs.flatMap (members (adds.foldl (fun log c => if Accepts name log c then log ++ [c] else log) [])) := by
    congr 1; funext g; exact hm g
  rw [e1, hm]
  by_cases hem : "" ∈ gs
  · rw [if_pos hem, List.nil_append]
    rw [List.map_append] at hnd
    exact hnd.sublist (List.sublist_append_left _ _)
  · rw [if_neg hem]
    rw [if_neg (by rintro rfl; simp at hem)] at hnd
    refine (List.Perm.nodup_iff ?_).1 hnd
    exact List.Perm.map _ List.perm_append_comm

/-- Names of the example systematics. -/
def exSysName : Nat → String
  | 0 => "scale"
  | 1 => "shift"
  | _ => "conv"

open SysLog in
/-- Non-vacuity: two groups and a global systematic; three systematics act on the distribution, in order. -/
example : assigned (ofCalls exSysName [.add 0, .addTo 1 "g", .addTo 2 "h", .addDist "bg" ["g", "h"]]) "bg" = some ["g", "h"] ∧
    acting (ofCalls exSysName [.add 0, .addTo 1 "g", .addTo 2 "h", .addDist "bg" ["g", "h"]]) ["g", "h"] = [0, 1, 2] := by
  decide +kernel

open SysLog in
/-- **C26 is false when a systematic is added after the distribution.** The calls below are all accepted and the systematic
`0` then acts twice on the distribution. -/
theorem C26_late_add_wrong :
    ofCalls exSysName [.add 0, .addTo 1 "g", .addDist "bg" ["g"], .addTo 0 "g"] =
      [.add 0, .addTo 1 "g", .addDist "bg" ["g"], .addTo 0 "g"] ∧
    assigned (ofCalls exSysName [.add 0, .addTo 1 "g", .addDist "bg" ["g"], .addTo 0 "g"]) "bg" = some ["g"] ∧
    acting (ofCalls exSysName [.add 0, .addTo 1 "g", .addDist "bg" ["g"], .addTo 0 "g"]) ["g"] = [0, 1, 0] := by
  decide +kernel

/-- **C26: legal registrations can be refused, depending on the order.** Systematic 0 is shared by two groups and 1 is global:
accepted if 1 is added first, refused if it is added last. -/
theorem C26_order_wrong :
    (∃ m', (SysManager.run exSysName [.add 1, .addTo 0 "g"] : SysManager ℚ).exec exSysName (.addTo 0 "h") = .ok m') ∧
    (SysManager.run exSysName [.addTo 0 "g", .addTo 0 "h"] : SysManager ℚ).exec exSysName (.add 1) = .throw .notFound :=
  ⟨⟨_, rfl⟩, by rfl⟩

/-- **C26: the wrong exception.** The message of the exception reads past the end of the group: `std::out_of_range` is thrown
instead of NotFoundError. -/
theorem C26_wrong_exception :
    (SysManager.run exSysName [.addTo 0 "g", .addTo 0 "h"] : SysManager ℚ).exec exSysName (.addDist "bg" ["g", "h"]) =
      .throw .outOfRange := by rfl

/-! ### C25 -/

namespace SysManager
open SysLog

theorem mulAssign_apply {a b p : Matrix' α} (h : a.mulAssign b = .ok p) (v x : List α) :
    p.apply v = .ok x ↔ ∃ w, b.apply v = .ok w ∧ a.apply w = .ok x := by
  have hc : a.arma.cols = b.arma.rows := by
    by_contra hne
    unfold Matrix'.mulAssign ArmaMat.mul at h
    rw [if_pos hne] at h
    cases h
  have key := (C18_compose (⟨a.arma.rows, a.arma.cols, a.arma⟩ : Matrix' α) (⟨b.arma.rows, b.arma.cols, b.arma⟩ : Matrix' α)
    ⟨rfl, rfl⟩ ⟨rfl, rfl⟩).2 hc
  obtain ⟨p', h1, h2⟩ := key
  have hp : p.arma = p'.arma := by
    unfold Matrix'.mulAssign at h h1
    obtain ⟨q, q1, q2⟩ := Res.bind_eq_ok.1 h
    obtain ⟨q', q1', q2'⟩ := Res.bind_eq_ok.1 h1
    simp only at q1'
    rw [q1] at q1'
    cases q1'
    cases q2; cases q2'; rfl
  have ha : ∀ (m m' : Matrix' α) (v : List α), m.arma = m'.arma → m.apply v = m'.apply v := by
    intro m m' v e; unfold Matrix'.apply; rw [e]
  have hcols : p.arma.cols = b.arma.cols := by
    unfold Matrix'.mulAssign ArmaMat.mul at h
    rw [if_neg (by simpa using hc)] at h
    cases h; rfl
  by_cases hv : v.length = b.arma.cols
  · obtain ⟨w, w1, w2⟩ := h2 v hv
    rw [ha p p' v hp, w2]
    have w1' : b.apply v = .ok w := by rw [← w1]; exact ha _ _ _ rfl
    rw [w1']
    constructor
    · intro hx; exact ⟨w, rfl, by rw [← hx]; exact ha _ _ _ rfl⟩
    · rintro ⟨w', e1, e2⟩; cases e1; rw [← e2]; exact ha _ _ _ rfl
  · have n1 : p.apply v = .throw .dimension := by
      unfold Matrix'.apply ArmaMat.mulVec; rw [if_pos (by rw [hcols]; exact hv)]; rfl
    have n2 : b.apply v = .throw .dimension := by
      unfold Matrix'.apply ArmaMat.mulVec; rw [if_pos hv]; rfl
    rw [n1, n2]
    constructor
    · intro hx; cases hx
    · rintro ⟨w, e, _⟩; cases e

theorem groupResponse_apply (C : SysClass σ α) (h : Nat → σ) (ps : List Nat) (r : Matrix' α)
    (hr : groupResponse C h ps = .ok r) (v x : List α) :
    r.apply v = .ok x ↔ applyInOrder (ps.map (fun p => C.response (h p))) v = .ok x := by
  unfold groupResponse at hr
  cases ps with
  | nil => simp [at_] at hr
  | cons p ps =>
    simp only [at_, List.getElem?_cons_zero, Res.ok_bind, List.drop_one, List.tail_cons] at hr
    have key : ∀ (ps : List Nat) (m : Matrix' α) (l : List (Matrix' α)),
        (∀ v x, m.apply v = .ok x ↔ applyInOrder l v = .ok x) →
        Res.forFold (fun (resp : Matrix' α) q => (C.response (h q)).mulAssign resp) m ps = .ok r →
        ∀ v x, r.apply v = .ok x ↔ applyInOrder (l ++ ps.map (fun p => C.response (h p))) v = .ok x := by
      intro ps
      induction ps with
      | nil => intro m l hm hr v x; cases hr; simpa using hm v x
      | cons q ps ih =>
        intro m l hm hr v x
        obtain ⟨m1, e1, e2⟩ := Res.forFold_cons_eq_ok.1 hr
        have := ih m1 (l ++ [C.response (h q)]) (by
          intro v x
          rw [mulAssign_apply e1]
          unfold applyInOrder at *
          rw [Res.forFold_append]
          constructor
          · rintro ⟨w, w1, w2⟩
            rw [(hm v w).1 w1]
            simp only [Res.bind, Res.forFold, w2]
          · intro hh
            cases hl : Res.forFold (fun (v : List α) (m : Matrix' α) => m.apply v) v l with
            | ok w =>
              rw [hl] at hh
              refine ⟨w, (hm v w).2 hl, ?_⟩
              simp only [Res.bind, Res.forFold] at hh
              cases hq : (C.response (h q)).apply w with
              | ok y => rw [hq] at hh; simpa using hh
              | throw e => rw [hq] at hh; cases hh
              | ub => rw [hq] at hh; cases hh
            | throw e => rw [hl] at hh; cases hh
            | ub => rw [hl] at hh; cases hh) e2 v x
        simpa using this
    have := key ps _ [C.response (h p)] (by
      intro v x
      unfold applyInOrder
      simp only [Res.forFold]
      cases (C.response (h p)).apply v <;> simp) hr v x
    simpa using this

theorem applyInOrder_append (l₁ l₂ : List (Matrix' α)) (v w : List α) :
    applyInOrder (l₁ ++ l₂) v = .ok w ↔ ∃ u, applyInOrder l₁ v = .ok u ∧ applyInOrder l₂ u = .ok w := by
  unfold applyInOrder
  rw [Res.forFold_append]
  cases h : Res.forFold (fun (v : List α) (m : Matrix' α) => m.apply v) v l₁ with
  | ok u => simp [Res.bind]
  | throw e => simp [Res.bind]
  | ub => simp [Res.bind]

/-- After a construction, the response stored for a group is the product of its members' responses. -/
theorem construct_responses (C : SysClass σ α) (m m' : SysManager α) (h h' : Nat → σ) (hs : SMap.Sorted m.groups)
    (hc : m.construct C h = .ok (m', h')) :
    m'.groups = m.groups ∧ m'.edGroups = m.edGroups ∧
    ∀ g ps, SMap.find m.groups g = some ps → ps ≠ [] →
      ∃ r, SMap.find m'.responses g = some r ∧ groupResponse C h' ps = .ok r := by
  unfold construct at hc
  by_cases h0 : m.countSystematics = 0
  · rw [if_pos h0] at hc
    cases hc
    refine ⟨rfl, rfl, ?_⟩
    intro g ps hg hne
    exfalso
    unfold countSystematics at h0
    have h1 := List.le_sum_of_mem (List.mem_map.2 ⟨(g, ps), SMap.find_mem hg, rfl⟩ :
      ps.length ∈ m.groups.map (fun g => g.2.length))
    rw [h0] at h1
    exact hne (List.length_eq_zero_iff.1 (Nat.le_zero.1 h1))
  · rw [if_neg h0] at hc
    obtain ⟨h1, e1, hc⟩ := Res.bind_eq_ok.1 hc
    obtain ⟨rs, e2, hc⟩ := Res.bind_eq_ok.1 hc
    cases hc
    refine ⟨rfl, rfl, ?_⟩
    -- the loop over the groups
    have key : ∀ (gs : SMap (List Nat)) (rs0 rs : SMap (Matrix' α)), SMap.Sorted gs →
        Res.forFold (fun (rs : SMap (Matrix' α)) (g : String × List Nat) =>
          if g.1 = "" ∧ g.2.length = 0 then pure rs
          else do
            let r ← groupResponse C h' g.2
            pure (rs.insert g.1 r)) rs0 gs = .ok rs →
        (∀ g, g ∉ SMap.keys gs → SMap.find rs g = SMap.find rs0 g) ∧
        ∀ g ps, SMap.find gs g = some ps → ps ≠ [] → ∃ r, SMap.find rs g = some r ∧ groupResponse C h' ps = .ok r := by
      intro gs
      induction gs with
      | nil => intro rs0 rs _ hh; cases hh; exact ⟨fun _ _ => rfl, fun g ps hg => by cases hg⟩
      | cons q gs ih =>
        intro rs0 rs hs hh
        obtain ⟨k, v⟩ := q
        have hs' := List.pairwise_cons.1 hs
        obtain ⟨rs1, f1, f2⟩ := Res.forFold_cons_eq_ok.1 hh
        obtain ⟨i1, i2⟩ := ih rs1 rs hs'.2 f2
        have hkn : k ∉ SMap.keys gs := by
          intro hk
          obtain ⟨q, hq, hqk⟩ := List.mem_map.1 hk
          have := hs'.1 q hq
          rw [hqk] at this
          exact lt_irrefl _ this
        simp only at f1
        by_cases hskip : k = "" ∧ v.length = 0
        · rw [if_pos hskip] at f1
          cases f1
          refine ⟨fun g hg => i1 g (fun hh => hg (by simp only [SMap.keys, List.map_cons, List.mem_cons]; exact Or.inr hh)), ?_⟩
          intro g ps hg hne
          rw [SMap.find_cons] at hg
          split at hg
          · cases hg; exact absurd (List.length_eq_zero_iff.1 hskip.2) hne
          · exact i2 g ps hg hne
        · rw [if_neg hskip] at f1
          obtain ⟨r, r1, r2⟩ := Res.bind_eq_ok.1 f1
          cases r2
          refine ⟨?_, ?_⟩
          · intro g hg
            have hg' : g ≠ k ∧ g ∉ SMap.keys gs := by
              simpa [SMap.keys] using hg
            rw [i1 g hg'.2, SMap.find_insert, if_neg (Ne.symm hg'.1)]
          · intro g ps hg hne
            rw [SMap.find_cons] at hg
            split at hg
            · rename_i hk
              cases hg
              subst hk
              rw [i1 k hkn, SMap.find_insert, if_pos rfl]
              exact ⟨r, rfl, r1⟩
            · exact i2 g ps hg hne
    exact (key m.groups m.responses rs hs e2).2

theorem applyGroup_ok (m : SysManager α) (w w' : BinnedED α) (g : String) (r : Matrix' α)
    (hr : SMap.find m.responses g = some r) (ha : m.applyGroup w g = .ok w') :
    r.apply w.hist.contents = .ok w'.hist.contents ∧
      w' = { w with hist := { w.hist with contents := w'.hist.contents } } ∧ w'.hist.contents.length = w.hist.nBins := by
  unfold applyGroup getTotalResponse at ha
  rw [hr] at ha
  simp only [Res.ok_bind] at ha
  obtain ⟨v, v1, ha⟩ := Res.bind_eq_ok.1 ha
  obtain ⟨hh, h1, ha⟩ := Res.bind_eq_ok.1 ha
  cases ha
  unfold Histogram.setBinContents at h1
  split at h1
  · cases h1
  · rename_i hl
    cases h1
    push Not at hl
    refine ⟨v1, ?_, hl⟩
    simp only
    rw [hl]

end SysManager

open SysLog SysManager in
/-- `C25_applied` for any manager in which the registrations are those of `log`, whatever responses it holds. -/
theorem SysManager.applied_of_rel (C : SysClass σ α) {log : List ManagerCall} {m : SysManager α} (hrel : Rel m log)
    (h h' : Nat → σ) (m' : SysManager α)
    (hc : m.construct C h = .ok (m', h')) (orig work work' : List (BinnedED α)) (norms norms' : Option (List α))
    (hd : m'.distortEDs orig work norms = .ok (work', norms')) :
    work'.length = work.length ∧ ∀ (j : Nat) (d : BinnedED α), orig[j]? = some d → j < work.length →
      (assigned log d.name = none → work'[j]? = work[j]?) ∧
      (∀ gs, assigned log d.name = some gs → ∃ v,
        applyInOrder ((acting log gs).map (fun p => C.response (h' p))) d.hist.contents = .ok v ∧
        work'[j]? = some { d with hist := { d.hist with contents := v } } ∧
        (d.hist.contents.length = d.hist.nBins → v.length = d.hist.nBins) ∧
        ∀ ns, norms' = some ns → ns[j]? = some ({ d.hist with contents := v } : Histogram α).integral) := by
  obtain ⟨hg, he, hresp⟩ := construct_responses C m m' h h' hrel.sorted hc
  have hgl : m'.groupAt "" = .ok (members log "") := by
    unfold groupAt; rw [hg, hrel.groups, if_pos (show Known log "" from Or.inl rfl)]
  -- one distribution
  have hone : ∀ (o w : BinnedED α) (gs : List String), m'.distort o gs = .ok w →
      applyInOrder ((acting log gs).map (fun p => C.response (h' p))) o.hist.contents = .ok w.hist.contents ∧
      w = { o with hist := { o.hist with contents := w.hist.contents } } ∧
      (o.hist.contents.length = o.hist.nBins → w.hist.contents.length = o.hist.nBins) := by
    intro o w gs hw
    unfold distort at hw
    rw [hgl] at hw
    simp only [Res.ok_bind] at hw
    obtain ⟨w0, h0, hw⟩ := Res.bind_eq_ok.1 hw
    have happ : ∀ (x y : BinnedED α) (g : String), members log g ≠ [] → m'.applyGroup x g = .ok y →
        applyInOrder ((members log g).map (fun p => C.response (h' p))) x.hist.contents = .ok y.hist.contents ∧
        y = { x with hist := { x.hist with contents := y.hist.contents } } ∧ y.hist.contents.length = x.hist.nBins := by
      intro x y g hne ha
      obtain ⟨r, r1, r2⟩ := hresp g (members log g) (by rw [hrel.groups, if_pos (show Known log g from Or.inr hne)]) hne
      obtain ⟨a1, a2, a3⟩ := applyGroup_ok m' x y g r r1 ha
      exact ⟨(groupResponse_apply C h' _ r r2 _ _).1 a1, a2, a3⟩
    have hfirst : applyInOrder ((if "" ∈ gs then [] else members log "").map (fun p => C.response (h' p)))
        o.hist.contents = .ok w0.hist.contents ∧
        w0 = { o with hist := { o.hist with contents := w0.hist.contents } } ∧
        (o.hist.contents.length = o.hist.nBins → w0.hist.contents.length = o.hist.nBins) := by
      split at h0
      · rename_i hcond
        rw [if_neg hcond.1]
        obtain ⟨q1, q2, q3⟩ := happ o w0 "" (fun e => hcond.2 (by rw [e]; rfl)) h0
        exact ⟨q1, q2, fun _ => q3⟩
      · rename_i hcond
        cases h0
        refine ⟨?_, rfl, fun h => h⟩
        by_cases hem : "" ∈ gs
        · rw [if_pos hem]; rfl
        · rw [if_neg hem]
          have : members log "" = [] := by
            by_contra hne
            exact hcond ⟨hem, fun e => hne (List.length_eq_zero_iff.1 e)⟩
          rw [this]; rfl
    have hrest : ∀ (gs : List String) (w0 w : BinnedED α), Res.forFold (fun (w : BinnedED α) g =>
        if g = "" ∧ (members log "").length = 0 then pure w
        else do
          let l ← m'.groupAt g
          Res.throwIf (l.length = 0) .logic
          m'.applyGroup w g) w0 gs = .ok w →
        applyInOrder ((gs.flatMap (members log)).map (fun p => C.response (h' p))) w0.hist.contents = .ok w.hist.contents ∧
        w = { w0 with hist := { w0.hist with contents := w.hist.contents } } ∧
        (w0.hist.contents.length = w0.hist.nBins → w.hist.contents.length = w0.hist.nBins) := by
      intro gs
      induction gs with
      | nil => intro w0 w hh; cases hh; exact ⟨rfl, rfl, fun h => h⟩
      | cons g gs ih =>
        intro w0 w hh
        obtain ⟨w1, f1, f2⟩ := Res.forFold_cons_eq_ok.1 hh
        obtain ⟨i1, i2, i3⟩ := ih w1 w f2
        have hstep : applyInOrder ((members log g).map (fun p => C.response (h' p))) w0.hist.contents = .ok w1.hist.contents ∧
            w1 = { w0 with hist := { w0.hist with contents := w1.hist.contents } } ∧
            (w0.hist.contents.length = w0.hist.nBins → w1.hist.contents.length = w0.hist.nBins) := by
          split at f1
          · rename_i hcond
            cases f1
            rw [hcond.1, List.length_eq_zero_iff.1 hcond.2]
            exact ⟨rfl, rfl, fun h => h⟩
          · obtain ⟨l, l1, f1⟩ := Res.bind_eq_ok.1 f1
            obtain ⟨u, u1, f1⟩ := Res.bind_eq_ok.1 f1
            have hl : l = members log g := by
              unfold groupAt at l1
              rw [hg, hrel.groups] at l1
              by_cases hk : Known log g
              · rw [if_pos hk] at l1; cases l1; rfl
              · rw [if_neg hk] at l1; cases l1
            have hne : members log g ≠ [] := by
              have := Res.throwIf_eq_ok.1 u1
              intro e
              exact this (by rw [hl, e]; rfl)
            obtain ⟨q1, q2, q3⟩ := happ w0 w1 g hne f1
            exact ⟨q1, q2, fun _ => q3⟩
        have hnb : w1.hist.nBins = w0.hist.nBins := by rw [hstep.2.1]
        refine ⟨?_, ?_, fun h => by rw [← hnb]; exact i3 (by rw [hnb]; exact hstep.2.2 h)⟩
        · rw [List.flatMap_cons, List.map_append, applyInOrder_append]
          exact ⟨_, hstep.1, i1⟩
        · rw [i2, hstep.2.1]
    obtain ⟨r1, r2, r3⟩ := hrest gs w0 w hw
    have hnb : w0.hist.nBins = o.hist.nBins := by rw [hfirst.2.1]
    refine ⟨?_, ?_, fun h => by rw [← hnb]; exact r3 (by rw [hnb]; exact hfirst.2.2 h)⟩
    · unfold acting
      rw [List.map_append, applyInOrder_append]
      exact ⟨_, hfirst.1, r1⟩
    · rw [r2, hfirst.2.1]
  -- the loop
  unfold distortEDs at hd
  have inv : ∀ (n : Nat) (s : List (BinnedED α) × Option (List α)), n ≤ work.length →
      Res.forFold (fun (s : List (BinnedED α) × Option (List α)) j => do
        let o ← at_ orig j
        match SMap.find m'.edGroups o.name with
        | none => pure s
        | some gs => do
          let w ← m'.distort o gs
          let work ← setIdx s.1 j w
          match s.2 with
          | none => pure (work, none)
          | some ns => do
            let ns ← setIdx ns j w.hist.integral
            pure (work, some ns)) (work, norms) (List.range n) = .ok s →
      s.1.length = work.length ∧ (∀ j, n ≤ j → s.1[j]? = work[j]?) ∧
      ∀ (j : Nat) (d : BinnedED α), orig[j]? = some d → j < n →
      (assigned log d.name = none → s.1[j]? = work[j]?) ∧
      (∀ gs, assigned log d.name = some gs → ∃ v,
        applyInOrder ((acting log gs).map (fun p => C.response (h' p))) d.hist.contents = .ok v ∧
        s.1[j]? = some { d with hist := { d.hist with contents := v } } ∧
        (d.hist.contents.length = d.hist.nBins → v.length = d.hist.nBins) ∧
        ∀ ns, s.2 = some ns → ns[j]? = some ({ d.hist with contents := v } : Histogram α).integral) := by
    intro n
    induction n with
    | zero => intro s _ hs; cases hs; exact ⟨rfl, fun _ _ => rfl, fun j d _ hj => absurd hj (Nat.not_lt_zero j)⟩
    | succ n ih =>
      intro s hn hs
      rw [List.range_succ, Res.forFold_append] at hs
      generalize hfold : Res.forFold _ (work, norms) (List.range n) = R at hs
      cases R with
      | throw e => cases hs
      | ub => cases hs
      | ok s0 =>
        obtain ⟨i1, i2, i3⟩ := ih s0 (by omega) hfold
        simp only [Res.bind, Res.forFold] at hs
        cases ho : orig[n]? with
        | none =>
          simp [at_, ho] at hs
        | some o =>
          have hso : s = s0 ∧ assigned log o.name = none ∨ ∃ gs w, assigned log o.name = some gs ∧ m'.distort o gs = .ok w ∧
              s.1 = s0.1.set n w ∧ (∀ ns, s.2 = some ns → ∃ ns0, s0.2 = some ns0 ∧ n < ns0.length ∧
                ns = ns0.set n w.hist.integral) := by
            simp only [at_, ho, Res.ok_bind] at hs
            rw [he, hrel.dists] at hs
            cases ha : assigned log o.name with
            | none => rw [ha] at hs; left; simp only [Res.pure_eq] at hs; exact ⟨(Res.ok.inj hs).symm, rfl⟩
            | some gs =>
              right
              rw [ha] at hs
              simp only at hs
              cases hw : m'.distort o gs with
              | throw e => rw [hw] at hs; cases hs
              | ub => rw [hw] at hs; cases hs
              | ok w =>
                rw [hw] at hs
                simp only [Res.ok_bind] at hs
                rw [setIdx_of_lt (by omega)] at hs
                simp only [Res.ok_bind] at hs
                refine ⟨gs, w, rfl, hw, ?_⟩
                obtain ⟨sa, sb⟩ := s0
                cases sb with
                | none =>
                  simp only [Res.pure_eq] at hs
                  have := Res.ok.inj hs
                  subst this
                  exact ⟨rfl, fun ns hns => by cases hns⟩
                | some ns0 =>
                  simp only at hs
                  by_cases hln : n < ns0.length
                  · rw [setIdx_of_lt hln] at hs
                    simp only [Res.ok_bind, Res.pure_eq] at hs
                    have := Res.ok.inj hs
                    subst this
                    exact ⟨rfl, fun ns hns => by cases hns; exact ⟨ns0, rfl, hln, rfl⟩⟩
                  · rw [setIdx_of_ge (by omega)] at hs; cases hs
          rcases hso with ⟨rfl, hna⟩ | ⟨gs, w, hga, hw, hs1, hs2⟩
          · refine ⟨i1, fun j hj => i2 j (by omega), ?_⟩
            intro j d hjd hj
            rcases Nat.lt_succ_iff_lt_or_eq.1 hj with hj | rfl
            · exact i3 j d hjd hj
            · rw [ho] at hjd; cases hjd
              exact ⟨fun _ => i2 j (le_refl _), fun gs hgs => by rw [hna] at hgs; cases hgs⟩
          · obtain ⟨o1, o2, o3⟩ := hone o w gs hw
            refine ⟨by rw [hs1]; simpa using i1, ?_, ?_⟩
            · intro j hj
              rw [hs1, List.getElem?_set_ne (by omega)]
              exact i2 j (by omega)
            · intro j d hjd hj
              rcases Nat.lt_succ_iff_lt_or_eq.1 hj with hj | rfl
              · obtain ⟨k1, k2⟩ := i3 j d hjd hj
                rw [hs1, List.getElem?_set_ne (by omega)]
                refine ⟨k1, fun gs' hgs' => ?_⟩
                obtain ⟨v, v1, v2, v4, v3⟩ := k2 gs' hgs'
                refine ⟨v, v1, v2, v4, fun ns hns => ?_⟩
                obtain ⟨ns0, n1, n2, n3⟩ := hs2 ns hns
                rw [n3, List.getElem?_set_ne (by omega)]
                exact v3 ns0 n1
              · rw [ho] at hjd; cases hjd
                refine ⟨fun hn' => absurd hn' (by rw [hga]; simp), fun gs' hgs' => ?_⟩
                rw [hga] at hgs'; cases hgs'
                refine ⟨w.hist.contents, o1, ?_, o3, fun ns hns => ?_⟩
                · rw [hs1, List.getElem?_set_self (by omega), ← o2]
                · obtain ⟨ns0, n1, n2, n3⟩ := hs2 ns hns
                  rw [n3, List.getElem?_set_self n2]
                  conv_lhs => rw [o2]
  obtain ⟨k1, _, k3⟩ := inv work.length (work', norms') (le_refl _) hd
  exact ⟨k1, k3⟩

open SysLog SysManager in
/-- **C25.** After any registration history and a `Construct`, `DistortEDs` leaves the number of distributions alone, replaces
each registered distribution by its original with the responses of `acting` applied one after the other - the global group
first, then its own groups in the order given, within a group in the order added - and leaves unregistered ones alone. -/
theorem C25_applied (C : SysClass σ α) (name : Nat → String) (calls : List ManagerCall) (h h' : Nat → σ) (m' : SysManager α)
    (hc : (run name calls).construct C h = .ok (m', h')) (orig work work' : List (BinnedED α)) (norms norms' : Option (List α))
    (hd : m'.distortEDs orig work norms = .ok (work', norms')) :
    work'.length = work.length ∧ ∀ (j : Nat) (d : BinnedED α), orig[j]? = some d → j < work.length →
      (assigned (ofCalls name calls) d.name = none → work'[j]? = work[j]?) ∧
      (∀ gs, assigned (ofCalls name calls) d.name = some gs → ∃ v,
        applyInOrder ((acting (ofCalls name calls) gs).map (fun p => C.response (h' p))) d.hist.contents = .ok v ∧
        work'[j]? = some { d with hist := { d.hist with contents := v } } ∧
        ∀ ns, norms' = some ns → ns[j]? = some ({ d.hist with contents := v } : Histogram α).integral) := by
  obtain ⟨h1, h2⟩ := applied_of_rel C (rel_run (α := α) name calls) h h' m' hc orig work work' norms norms' hd
  refine ⟨h1, fun j d hj hl => ⟨(h2 j d hj hl).1, fun gs hgs => ?_⟩⟩
  obtain ⟨v, v1, v2, _, v3⟩ := (h2 j d hj hl).2 gs hgs
  exact ⟨v, v1, v2, v3⟩


namespace SysManager
open SysLog

/-- An n by n Armadillo matrix. -/
def Square (n : Nat) (m : Matrix' α) : Prop := m.arma.rows = n ∧ m.arma.cols = n

theorem square_mul {n : Nat} {a b : Matrix' α} (ha : Square n a) (hb : Square n b) :
    ∃ p, a.mulAssign b = .ok p ∧ Square n p := by
  unfold Matrix'.mulAssign ArmaMat.mul
  rw [if_neg (by rw [ha.2, hb.1]; simp)]
  exact ⟨_, rfl, ha.1, hb.2⟩

theorem square_apply {n : Nat} {m : Matrix' α} (hm : Square n m) {v : List α} (hv : v.length = n) :
    ∃ w, m.apply v = .ok w ∧ w.length = n := by
  unfold Matrix'.apply ArmaMat.mulVec
  rw [if_neg (by rw [hm.2, hv]; simp)]
  exact ⟨_, rfl, by simp [hm.1]⟩

theorem constructAll_ok (C : SysClass σ α) (P Q : σ → Prop) (hP : ∀ s, P s → ∃ s', C.construct s = .ok s' ∧ P s' ∧ Q s')
    (m : SysManager α) (h : Nat → σ) (hh : ∀ g ∈ m.groups, ∀ p ∈ g.2, P (h p)) :
    ∃ h', m.constructAll C h = .ok h' ∧ (∀ p, P (h p) → P (h' p)) ∧ ∀ g ∈ m.groups, ∀ p ∈ g.2, Q (h' p) := by
  unfold constructAll
  have inner : ∀ (ps : List Nat) (h : Nat → σ), (∀ p ∈ ps, P (h p)) → ∃ h', Res.forFold (fun (h : Nat → σ) p => do
      let s ← C.construct (h p)
      pure (Function.update h p s)) h ps = .ok h' ∧ (∀ p, P (h p) → P (h' p)) ∧ (∀ p, Q (h p) → P (h p) → Q (h' p)) ∧ ∀ p ∈ ps, Q (h' p) := by
    intro ps
    induction ps with
    | nil => intro h hh; exact ⟨h, rfl, fun _ h => h, fun _ h _ => h, by simp⟩
    | cons p ps ih =>
      intro h hh
      obtain ⟨s, s1, s2, s3⟩ := hP _ (hh p List.mem_cons_self)
      have hupd : ∀ q, P (h q) → P (Function.update h p s q) := by
        intro q hq
        by_cases hqp : q = p
        · subst hqp; simpa using s2
        · rw [Function.update_of_ne hqp]; exact hq
      have hupd' : ∀ q, Q (h q) → Q (Function.update h p s q) := by
        intro q hq
        by_cases hqp : q = p
        · subst hqp; simpa using s3
        · rw [Function.update_of_ne hqp]; exact hq
      obtain ⟨h', e1, e2, e3, e4⟩ := ih (Function.update h p s) (fun q hq => hupd q (hh q (List.mem_cons_of_mem _ hq)))
      refine ⟨h', by rw [Res.forFold_cons_ok (s' := Function.update h p s) (by rw [s1]; rfl)]; exact e1,
        fun q hq => e2 q (hupd q hq), fun q hq hq' => e3 q (hupd' q hq) (hupd q hq'), ?_⟩
      intro q hq
      rcases List.mem_cons.1 hq with rfl | hq
      · exact e3 q (by simpa using s3) (by simpa using s2)
      · exact e4 q hq
  generalize m.groups = gs at hh ⊢
  have outer : ∀ (gs : SMap (List Nat)) (h : Nat → σ), (∀ g ∈ gs, ∀ p ∈ g.2, P (h p)) → ∃ h',
      Res.forFold (fun (h : Nat → σ) (g : String × List Nat) =>
        Res.forFold (fun (h : Nat → σ) p => do
          let s ← C.construct (h p)
          pure (Function.update h p s)) h g.2) h gs = .ok h' ∧ (∀ p, P (h p) → P (h' p)) ∧ (∀ p, Q (h p) → P (h p) → Q (h' p)) ∧
        ∀ g ∈ gs, ∀ p ∈ g.2, Q (h' p) := by
    intro gs
    induction gs with
    | nil => intro h hh; exact ⟨h, rfl, fun _ h => h, fun _ h _ => h, by simp⟩
    | cons g gs ih =>
      intro h hh
      obtain ⟨h1, e1, e2, e3, e4⟩ := inner g.2 h (hh g List.mem_cons_self)
      obtain ⟨h', f1, f2, f3, f4⟩ := ih h1 (fun g' hg' p hp => e2 p (hh g' (List.mem_cons_of_mem _ hg') p hp))
      refine ⟨h', Res.forFold_cons_eq_ok.2 ⟨h1, e1, f1⟩, fun p hp => f2 p (e2 p hp), fun p hp hp' => f3 p (e3 p hp hp') (e2 p hp'), ?_⟩
      intro g' hg' p hp
      rcases List.mem_cons.1 hg' with rfl | hg'
      · exact f3 p (e4 p hp) (e2 p (hh g' List.mem_cons_self p hp))
      · exact f4 g' hg' p hp
  obtain ⟨h', e1, e2, _, e4⟩ := outer gs h hh
  exact ⟨h', e1, e2, e4⟩

theorem groupResponse_ok (C : SysClass σ α) (n : Nat) (h : Nat → σ) (ps : List Nat)
    (hh : ∀ p ∈ ps, Square n (C.response (h p))) (hne : ps ≠ []) : ∃ r, groupResponse C h ps = .ok r ∧ Square n r := by
  cases ps with
  | nil => exact absurd rfl hne
  | cons p ps =>
    unfold groupResponse
    simp only [at_, List.getElem?_cons_zero, Res.ok_bind, List.drop_one, List.tail_cons]
    have : ∀ (ps : List Nat) (m : Matrix' α), (∀ p ∈ ps, Square n (C.response (h p))) → Square n m → ∃ r, Res.forFold (fun (resp : Matrix' α) q =>
        (C.response (h q)).mulAssign resp) m ps = .ok r ∧ Square n r := by
      intro ps
      induction ps with
      | nil => intro m _ hm; exact ⟨m, rfl, hm⟩
      | cons q ps ih =>
        intro m hq hm
        obtain ⟨m1, e1, e2⟩ := square_mul (hq q List.mem_cons_self) hm
        obtain ⟨r, r1, r2⟩ := ih m1 (fun p hp => hq p (List.mem_cons_of_mem _ hp)) e2
        exact ⟨r, Res.forFold_cons_eq_ok.2 ⟨m1, e1, r1⟩, r2⟩
    exact this ps _ (fun q hq => hh q (List.mem_cons_of_mem _ hq)) (hh p List.mem_cons_self)

theorem members_added {log : List ManagerCall} {g : String} {p : Nat} (hp : p ∈ members log g) : p ∈ added log := by
  unfold members at hp
  unfold added
  obtain ⟨c, hc, h⟩ := List.mem_filterMap.1 hp
  refine List.mem_filterMap.2 ⟨c, hc, ?_⟩
  cases hx : c.added? with
  | none => rw [hx] at h; cases h
  | some x =>
    rw [hx] at h
    simp only [Option.bind_some] at h
    split at h
    · cases h; rfl
    · cases h

theorem groups_added {m : SysManager α} {log : List ManagerCall} (h : Rel m log) : ∀ g ∈ m.groups, ∀ p ∈ g.2, p ∈ added log := by
  rintro ⟨g, ps⟩ hg p hp
  have := SMap.find_of_mem h.sorted hg
  rw [h.groups] at this
  by_cases hk : Known log g
  · rw [if_pos hk] at this
    cases this
    exact members_added hp
  · rw [if_neg hk] at this; cases this

theorem groups_nonempty {m : SysManager α} {log : List ManagerCall} (h : Rel m log) :
    ∀ g ∈ m.groups, g.1 = "" ∨ g.2 ≠ [] := by
  rintro ⟨g, ps⟩ hg
  have := SMap.find_of_mem h.sorted hg
  rw [h.groups] at this
  by_cases hk : Known log g
  · rw [if_pos hk] at this
    cases this
    exact hk
  · rw [if_neg hk] at this; cases this

end SysManager

open SysLog SysManager in
/-- A construction and a distortion succeed in any manager whose registrations are those of `log`. -/
theorem SysManager.succeeds_of_rel (C : SysClass σ α) (n : Nat) (P : σ → Prop)
    (hP : ∀ s, P s → ∃ s', C.construct s = .ok s' ∧ P s' ∧ Square n (C.response s')) {log : List ManagerCall} {m0 : SysManager α} (hrel : Rel m0 log)
    (hknown : ∀ d gs, assigned log d = some gs → ∀ g ∈ gs, Known log g) (h : Nat → σ) (hh : ∀ p ∈ added log, P (h p)) :
    ∃ m' h', m0.construct C h = .ok (m', h') ∧ (∀ p ∈ added log, P (h' p)) ∧
      ∀ (orig work : List (BinnedED α)) (norms : Option (List α)), work.length ≤ orig.length →
        (∀ ns, norms = some ns → work.length ≤ ns.length) →
        (∀ d ∈ orig, d.hist.contents.length = n ∧ d.hist.nBins = n) →
        ∃ r, m'.distortEDs orig work norms = .ok r := by
  have hcons : ∃ m' h', m0.construct C h = .ok (m', h') ∧ (∀ p ∈ added log, P (h' p)) ∧ ∀ g ∈ m0.groups, ∀ p ∈ g.2, Square n (C.response (h' p)) := by
    unfold construct
    by_cases h0 : m0.countSystematics = 0
    · rw [if_pos h0]
      refine ⟨_, _, rfl, hh, ?_⟩
      intro g hg p hp
      unfold countSystematics at h0
      have h1 := List.le_sum_of_mem (List.mem_map.2 ⟨g, hg, rfl⟩ : g.2.length ∈ m0.groups.map (fun g => g.2.length))
      rw [h0] at h1
      rw [List.length_eq_zero_iff.1 (Nat.le_zero.1 h1)] at hp
      cases hp
    · rw [if_neg h0]
      obtain ⟨h1, e1, e2, e3⟩ := constructAll_ok C P (fun s => Square n (C.response s)) hP m0 h (fun g hg p hp => hh p (groups_added hrel g hg p hp))
      rw [e1]
      simp only [Res.ok_bind]
      have hne := groups_nonempty hrel
      have : ∀ (gs : SMap (List Nat)) (rs : SMap (Matrix' α)), (∀ g ∈ gs, (g.1 = "" ∨ g.2 ≠ []) ∧ ∀ p ∈ g.2, Square n (C.response (h1 p))) → ∃ rs',
          Res.forFold (fun (rs : SMap (Matrix' α)) (g : String × List Nat) =>
          if g.1 = "" ∧ g.2.length = 0 then pure rs
          else do
            let r ← groupResponse C h1 g.2
            pure (rs.insert g.1 r)) rs gs = .ok rs' := by
        intro gs
        induction gs with
        | nil => intro rs _; exact ⟨rs, rfl⟩
        | cons g gs ih =>
          intro rs hg
          by_cases hs : g.1 = "" ∧ g.2.length = 0
          · obtain ⟨rs', h'⟩ := ih rs (fun x hx => hg x (List.mem_cons_of_mem _ hx))
            exact ⟨rs', by rw [Res.forFold_cons_ok (s' := rs) (by rw [if_pos hs]; rfl)]; exact h'⟩
          · have hn : g.2 ≠ [] := by
              rcases (hg g List.mem_cons_self).1 with h | h
              · intro e; exact hs ⟨h, by rw [e]; rfl⟩
              · exact h
            obtain ⟨r, r1, r2⟩ := groupResponse_ok C n h1 g.2 (hg g List.mem_cons_self).2 hn
            obtain ⟨rs', h'⟩ := ih (rs.insert g.1 r) (fun x hx => hg x (List.mem_cons_of_mem _ hx))
            exact ⟨rs', by rw [Res.forFold_cons_ok (s' := rs.insert g.1 r) (by rw [if_neg hs, r1]; rfl)]; exact h'⟩
      obtain ⟨rs, hrs⟩ := this m0.groups m0.responses (fun g hg => ⟨hne g hg, e3 g hg⟩)
      rw [hrs]
      exact ⟨_, _, rfl, fun p hp => e2 p (hh p hp), e3⟩
  obtain ⟨m', h', hc, hP', hQ'⟩ := hcons
  refine ⟨m', h', hc, hP', ?_⟩
  intro orig work norms hl hn hd
  obtain ⟨hg, he, hresp⟩ := construct_responses C _ m' h h' hrel.sorted hc
  have hgl : m'.groupAt "" = .ok (members log "") := by
    unfold groupAt; rw [hg, hrel.groups, if_pos (show Known log "" from Or.inl rfl)]
  -- one group
  have happ : ∀ (w : BinnedED α) g, members log g ≠ [] → w.hist.contents.length = n ∧ w.hist.nBins = n →
      ∃ w', m'.applyGroup w g = .ok w' ∧ w'.hist.contents.length = n ∧ w'.hist.nBins = n := by
    intro w g hne hw
    have hfind : SMap.find m0.groups g = some (members log g) := by rw [hrel.groups, if_pos (show Known log g from Or.inr hne)]
    obtain ⟨r, r1, r2⟩ := hresp g _ hfind hne
    obtain ⟨r', q1, q2⟩ := groupResponse_ok C n h' _ (hQ' _ (SMap.find_mem hfind)) hne
    rw [r2] at q1; cases q1
    obtain ⟨v, v1, v2⟩ := square_apply q2 hw.1
    unfold applyGroup getTotalResponse
    rw [r1]
    simp only [Res.ok_bind, v1]
    unfold Histogram.setBinContents
    rw [if_neg (by rw [v2, hw.2]; simp)]
    exact ⟨_, rfl, v2, v2⟩
  have hone : ∀ (o : BinnedED α) gs, (∀ g ∈ gs, Known log g) → o.hist.contents.length = n ∧ o.hist.nBins = n →
      ∃ w, m'.distort o gs = .ok w := by
    intro o gs hgs ho
    unfold distort
    rw [hgl]
    simp only [Res.ok_bind]
    have h1 : ∃ w0, (if "" ∉ gs ∧ (members log "").length ≠ 0 then m'.applyGroup o "" else pure o) = .ok w0 ∧
        w0.hist.contents.length = n ∧ w0.hist.nBins = n := by
      split
      · rename_i hc
        exact happ o "" (fun e => hc.2 (by rw [e]; rfl)) ho
      · exact ⟨o, rfl, ho⟩
    obtain ⟨w0, e0, hw0⟩ := h1
    rw [e0]
    simp only [Res.ok_bind]
    clear e0
    induction gs generalizing w0 with
    | nil => exact ⟨w0, rfl⟩
    | cons g gs ih =>
      by_cases hs : g = "" ∧ (members log "").length = 0
      · obtain ⟨w, hw⟩ := ih (fun x hx => hgs x (List.mem_cons_of_mem _ hx)) w0 hw0
        exact ⟨w, by rw [Res.forFold_cons_ok (s' := w0) (by rw [if_pos hs]; rfl)]; exact hw⟩
      · have hk := hgs g List.mem_cons_self
        have hne : members log g ≠ [] := by
          rcases hk with hk | hk
          · intro e; exact hs ⟨hk, by rw [← hk, e]; rfl⟩
          · exact hk
        obtain ⟨w1, f1, f2⟩ := happ w0 g hne hw0
        obtain ⟨w, hw⟩ := ih (fun x hx => hgs x (List.mem_cons_of_mem _ hx)) w1 f2
        refine ⟨w, ?_⟩
        rw [Res.forFold_cons_ok (s' := w1) (by
          rw [if_neg hs]
          unfold groupAt
          rw [hg, hrel.groups, if_pos hk]
          simp only [Res.ok_bind]
          rw [Res.throwIf_false_of (fun e => hne (List.length_eq_zero_iff.1 e))]
          exact f1)]
        exact hw
  -- the loop
  have inv : ∀ k, k ≤ work.length → ∃ s : List (BinnedED α) × Option (List α),
      Res.forFold (fun (s : List (BinnedED α) × Option (List α)) j => do
        let o ← at_ orig j
        match SMap.find m'.edGroups o.name with
        | none => pure s
        | some gs => do
          let w ← m'.distort o gs
          let work ← setIdx s.1 j w
          match s.2 with
          | none => pure (work, none)
          | some ns => do
            let ns ← setIdx ns j w.hist.integral
            pure (work, some ns)) (work, norms) (List.range k) = .ok s ∧ s.1.length = work.length ∧
        ∀ ns, s.2 = some ns → work.length ≤ ns.length := by
    intro k
    induction k with
    | zero => intro _; exact ⟨(work, norms), rfl, rfl, hn⟩
    | succ k ih =>
      intro hk
      obtain ⟨s, e1, e2, e3⟩ := ih (by omega)
      rw [List.range_succ, Res.forFold_append, e1]
      simp only [Res.bind, Res.forFold]
      have hko : k < orig.length := by omega
      rw [at_of_lt hko]
      simp only [Res.ok_bind]
      rw [he, hrel.dists]
      cases ha : assigned log orig[k].name with
      | none => exact ⟨s, rfl, e2, e3⟩
      | some gs =>
        obtain ⟨w, hw⟩ := hone orig[k] gs (hknown _ _ ha) (hd _ (List.getElem_mem hko))
        obtain ⟨sa, sb⟩ := s
        simp only [hw, Res.ok_bind]
        rw [setIdx_of_lt (by simp only at e2; omega)]
        cases sb with
        | none => exact ⟨(sa.set k w, none), rfl, by simpa using e2, fun ns h => by cases h⟩
        | some ns =>
          have hln := e3 ns rfl
          simp only [Res.ok_bind]
          rw [setIdx_of_lt (by omega)]
          refine ⟨(sa.set k w, some (ns.set k w.hist.integral)), rfl, by simpa using e2, ?_⟩
          intro ns' h'
          cases h'
          simpa using hln
  obtain ⟨s, hs, _⟩ := inv work.length (le_refl _)
  exact ⟨s, hs⟩

open SysLog SysManager in
/-- **C25 (no spurious failure).** If the systematics added can be constructed and their constructed responses are all n by n, construction
succeeds after every registration history, and so does the distortion of distributions with n bins. -/
theorem C25_succeeds (C : SysClass σ α) (n : Nat) (P : σ → Prop)
    (hP : ∀ s, P s → ∃ s', C.construct s = .ok s' ∧ P s' ∧ Square n (C.response s')) (name : Nat → String) (calls : List ManagerCall) (h : Nat → σ)
    (hh : ∀ p ∈ added (ofCalls name calls), P (h p)) :
    ∃ m' h', (run name calls : SysManager α).construct C h = .ok (m', h') ∧ (∀ p ∈ added (ofCalls name calls), P (h' p)) ∧
      ∀ (orig work : List (BinnedED α)) (norms : Option (List α)), work.length ≤ orig.length →
        (∀ ns, norms = some ns → work.length ≤ ns.length) →
        (∀ d ∈ orig, d.hist.contents.length = n ∧ d.hist.nBins = n) →
        ∃ r, m'.distortEDs orig work norms = .ok r := by
  have hknown : ∀ d gs, assigned (ofCalls name calls) d = some gs → ∀ g ∈ gs, Known (ofCalls name calls) g := by
    have key : ∀ (calls : List ManagerCall) (log : List ManagerCall),
        (∀ d gs, assigned log d = some gs → ∀ g ∈ gs, Known log g) →
        ∀ d gs, assigned (calls.foldl (fun log c => if Accepts name log c then log ++ [c] else log) log) d = some gs →
          ∀ g ∈ gs, Known (calls.foldl (fun log c => if Accepts name log c then log ++ [c] else log) log) g := by
      intro calls
      induction calls with
      | nil => intro log h; exact h
      | cons c calls ih =>
        intro log hlog
        rw [List.foldl_cons]
        apply ih
        by_cases hacc : Accepts name log c
        · rw [if_pos hacc]
          have mono : ∀ g, Known log g → Known (log ++ [c]) g := by
            intro g hk
            rcases hk with hk | hk
            · exact Or.inl hk
            · right
              rw [members_append]
              intro e
              exact hk (List.append_eq_nil_iff.1 e).1
          intro d gs hgs g hg
          rw [assigned_append] at hgs
          cases c with
          | add p => exact mono g (hlog d gs hgs g hg)
          | addTo p g' => exact mono g (hlog d gs hgs g hg)
          | addDist d' gs' =>
            simp only at hgs
            split at hgs
            · cases hgs; exact mono g (hacc.1 g hg)
            · exact mono g (hlog d gs hgs g hg)
        · rw [if_neg hacc]; exact hlog
    exact key calls [] (fun d gs h => by cases h)
  exact succeeds_of_rel C n P hP (rel_run (α := α) name calls) hknown h hh

/-- Non-vacuity of C25: systematics whose response is a fixed 2 by 2 matrix and whose construction always succeeds. -/
def exSysClass : SysClass (Matrix' ℚ) ℚ := ⟨id, .ok⟩

/-- The three example systematics: two matrices which do not commute and the identity. -/
def exSysHeap : Nat → Matrix' ℚ
  | 0 => ⟨2, 2, ⟨2, 2, fun i j => if i = 0 then (if j = 0 then 1 else 1) else (if j = 0 then 0 else 1)⟩⟩
  | 1 => ⟨2, 2, ⟨2, 2, fun i j => if i = 0 then (if j = 0 then 2 else 0) else (if j = 0 then 0 else 1)⟩⟩
  | _ => ⟨2, 2, ⟨2, 2, fun i j => if i = j then 1 else 0⟩⟩

example : ∃ m' h' r, (SysManager.run exSysName [.add 0, .addTo 1 "g", .addDist "bg" ["g"]] : SysManager ℚ).construct
      exSysClass exSysHeap = .ok (m', h') ∧
    m'.distortEDs [⟨"bg", ⟨.empty, [1, 1], 2, 1⟩, .ofNames []⟩] [⟨"bg", ⟨.empty, [0, 0], 2, 1⟩, .ofNames []⟩] none = .ok r ∧
    r.1.map (fun d => d.hist.contents) = [[4, 1]] := by
  obtain ⟨m', h', h1, _, h2⟩ := C25_succeeds (α := ℚ) exSysClass 2 (fun m => SysManager.Square 2 m)
    (fun s hs => ⟨s, rfl, hs, hs⟩) exSysName [.add 0, .addTo 1 "g", .addDist "bg" ["g"]] exSysHeap
    (fun p _ => by match p with
      | 0 => exact ⟨rfl, rfl⟩
      | 1 => exact ⟨rfl, rfl⟩
      | (n + 2) => exact ⟨rfl, rfl⟩)
  obtain ⟨⟨work', norms'⟩, hr⟩ := h2 [⟨"bg", ⟨.empty, [1, 1], 2, 1⟩, .ofNames []⟩] [⟨"bg", ⟨.empty, [0, 0], 2, 1⟩, .ofNames []⟩] none
    (by simp) (fun ns h => by cases h) (by simp)
  refine ⟨m', h', (work', norms'), h1, hr, ?_⟩
  have := C25_applied exSysClass exSysName _ _ _ _ h1 _ _ _ _ _ hr
  obtain ⟨hl, hj⟩ := this
  obtain ⟨v, v1, v2, _⟩ := (hj 0 _ rfl (by simp)).2 ["g"] (by decide +kernel)
  have hh : h' = exSysHeap := by
    unfold SysManager.construct at h1
    rw [if_neg (by decide +kernel)] at h1
    obtain ⟨h3, e1, h1⟩ := Res.bind_eq_ok.1 h1
    obtain ⟨rs, e2, h1⟩ := Res.bind_eq_ok.1 h1
    have : h3 = h' := by cases h1; rfl
    subst this
    have e3 : (SysManager.run exSysName [.add 0, .addTo 1 "g", .addDist "bg" ["g"]] : SysManager ℚ).constructAll
        exSysClass exSysHeap = .ok (Function.update (Function.update exSysHeap 0 (exSysHeap 0)) 1
          (Function.update exSysHeap 0 (exSysHeap 0) 1)) := by rfl
    rw [e3] at e1
    have := Res.ok.inj e1
    rw [← this]; simp
  subst hh
  have hv : applyInOrder ((SysLog.acting (SysLog.ofCalls exSysName [.add 0, .addTo 1 "g", .addDist "bg" ["g"]]) ["g"]).map
      (fun p => exSysClass.response (exSysHeap p))) [(1 : ℚ), 1] = .ok [4, 1] := by
    decide +kernel
  rw [hv] at v1
  have := Res.ok.inj v1
  subst this
  match work', hl with
  | [w], _ => simp at v2; simp [v2]

end Oxsx
