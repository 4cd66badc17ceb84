import Verif.Model.IO
import Verif.Lemmas.Basic
import Mathlib.Data.List.Basic
/-
Property C48: packing a list of names into one delimited string and unpacking it.
-/
set_option linter.unusedSectionVars false
set_option linter.unusedSimpArgs false
set_option linter.unusedVariables false
namespace Oxsx
namespace IO

/-- The pieces of `cur` followed by `cs`, cut at the delimiter. -/
def pieces (cur : List Char) : List Char → List (List Char)
  | [] => [cur]
  | c :: cs => if c = delimiter then cur :: pieces [] cs else pieces (cur ++ [c]) cs

theorem pieces_word (cur w cs : List Char) (hw : delimiter ∉ w) : pieces cur (w ++ cs) = pieces (cur ++ w) cs := by
  induction w generalizing cur with
  | nil => simp
  | cons c w ih =>
    have hc : c ≠ delimiter := fun h => hw (h ▸ List.mem_cons_self)
    simp only [List.cons_append, pieces, if_neg hc]
    rw [ih _ (fun h => hw (List.mem_cons_of_mem _ h))]
    simp

theorem pieces_joined (cur : List Char) (vs : List (List Char)) (hv : ∀ v ∈ vs, delimiter ∉ v) :
    pieces cur (vs.flatMap (fun v => delimiter :: v)) = cur :: vs := by
  induction vs generalizing cur with
  | nil => rfl
  | cons v vs ih =>
    simp only [List.flatMap_cons, List.cons_append, pieces, if_true]
    rw [pieces_word _ _ _ (hv v List.mem_cons_self), List.nil_append, ih _ (fun v h => hv v (List.mem_cons_of_mem _ h))]

theorem pieces_length (cur cs : List Char) :
    (pieces cur cs).length = cs.countP (fun c => decide (c = delimiter)) + 1 := by
  induction cs generalizing cur with
  | nil => rfl
  | cons c cs ih =>
    unfold pieces
    by_cases h : c = delimiter
    · rw [if_pos h, List.countP_cons_of_pos (by simpa using h)]; simp [ih]
    · rw [if_neg h, List.countP_cons_of_neg (by simpa using h), ih]

theorem pieces_join (cur cs : List Char) : ∃ p ps, pieces cur cs = p :: ps ∧
    cur ++ cs = p ++ ps.flatMap (fun v => delimiter :: v) := by
  induction cs generalizing cur with
  | nil => exact ⟨cur, [], rfl, by simp⟩
  | cons c cs ih =>
    unfold pieces
    by_cases h : c = delimiter
    · obtain ⟨p, ps, h1, h2⟩ := ih []
      refine ⟨cur, pieces [] cs, by rw [if_pos h], ?_⟩
      rw [h1, h]; simp at h2; simp [h2]
    · obtain ⟨p, ps, h1, h2⟩ := ih (cur ++ [c])
      exact ⟨p, ps, by rw [if_neg h, h1], by rw [← h2]; simp⟩

theorem pieces_free (cur cs : List Char) (hcur : delimiter ∉ cur) : ∀ p ∈ pieces cur cs, delimiter ∉ p := by
  induction cs generalizing cur with
  | nil => intro p hp; simp [pieces] at hp; rw [hp]; exact hcur
  | cons c cs ih =>
    unfold pieces
    by_cases h : c = delimiter
    · rw [if_pos h]
      intro p hp
      rcases List.mem_cons.1 hp with rfl | hp
      · exact hcur
      · exact ih [] (by simp) p hp
    · rw [if_neg h]
      exact ih _ (by simp [hcur, Ne.symm h])

/-- The loop: finished strings, the current one, and as many empty ones as delimiters are left. -/
theorem unpack_loop (done : List (List Char)) (cur cs : List Char) :
    Res.forFold unpackStep (done ++ cur :: List.replicate (cs.countP (fun c => decide (c = delimiter))) [], done.length) cs =
      .ok (done ++ pieces cur cs, done.length + cs.countP (fun c => decide (c = delimiter))) := by
  induction cs generalizing done cur with
  | nil => rfl
  | cons c cs ih =>
    by_cases h : c = delimiter
    · rw [List.countP_cons_of_pos (by simpa using h)]
      have hs : unpackStep (done ++ cur :: List.replicate (cs.countP (fun c => decide (c = delimiter)) + 1) [],
          done.length) c = .ok ((done ++ [cur]) ++ [] :: List.replicate (cs.countP (fun c => decide (c = delimiter))) [],
            (done ++ [cur]).length) := by
        unfold unpackStep; rw [if_pos h]; simp [List.replicate_succ]
      rw [Res.forFold_cons_ok hs, ih]
      have hp : pieces cur (c :: cs) = cur :: pieces [] cs := by
        show (if c = delimiter then _ else _) = _; rw [if_pos h]
      rw [hp]
      simp only [List.append_assoc, List.singleton_append, List.length_append, List.length_singleton]
      rw [show done.length + 1 + List.countP (fun c => decide (c = delimiter)) cs =
        done.length + (List.countP (fun c => decide (c = delimiter)) cs + 1) by omega]
    · rw [List.countP_cons_of_neg (by simpa using h)]
      have hs : unpackStep (done ++ cur :: List.replicate (cs.countP (fun c => decide (c = delimiter))) [],
          done.length) c = .ok (done ++ (cur ++ [c]) :: List.replicate (cs.countP (fun c => decide (c = delimiter))) [],
            done.length) := by
        unfold unpackStep
        rw [if_neg h]
        rw [idx_of_lt (by simp), Res.ok_bind, setIdx_of_lt (by simp)]
        simp
      rw [Res.forFold_cons_ok hs, ih]
      conv_rhs => unfold pieces
      rw [if_neg h]

theorem unpack_eq (s : String) : unpack s = .ok ((pieces [] s.toList).map String.ofList) := by
  unfold unpack
  have := unpack_loop [] [] s.toList
  simp only [List.nil_append, List.length_nil] at this
  simp only [List.replicate_succ, this, Res.ok_bind, Res.pure_eq]

theorem flatten_toList (v : String) (vs : List String) :
    (flatten (v :: vs)).toList = v.toList ++ (vs.map String.toList).flatMap (fun w => delimiter :: w) := by
  show (vs.foldl (fun s x => s ++ (String.ofList [delimiter] ++ x)) v).toList = _
  induction vs generalizing v with
  | nil => simp
  | cons w vs ih =>
    rw [List.foldl_cons, ih]
    simp

end IO
open Oxsx.IO

/-- C48: packing a non-empty list of names none of which contains ':' and unpacking gives the list back. -/
theorem C48_round_trip (names : List String) (hne : names ≠ []) (hd : ∀ n ∈ names, ':' ∉ n.toList) :
    unpack (flatten names) = .ok names := by
  cases names with
  | nil => exact absurd rfl hne
  | cons v vs =>
    rw [unpack_eq, flatten_toList,
      pieces_word _ _ _ (hd v List.mem_cons_self), List.nil_append,
      pieces_joined _ _ (by
        intro w hw
        obtain ⟨x, hx, rfl⟩ := List.mem_map.1 hw
        exact hd x (List.mem_cons_of_mem _ hx))]
    simp

example : unpack (flatten ["energy", "r3", ""]) = .ok ["energy", "r3", ""] := by decide +kernel

/-- C48 (other direction): unpacking any string gives a non-empty list of names without ':' which packs to that
string: the packed form loses nothing. In particular the empty list and names containing ':' cannot come back. -/
theorem C48_unpack_all (s : String) : ∃ names, unpack s = .ok names ∧ names ≠ [] ∧ (∀ n ∈ names, ':' ∉ n.toList) ∧
    flatten names = s := by
  refine ⟨_, unpack_eq s, ?_, ?_, ?_⟩
  · intro h
    have := congrArg List.length h
    simp [pieces_length] at this
  · intro n hn
    obtain ⟨p, hp, rfl⟩ := List.mem_map.1 hn
    rw [String.toList_ofList]; exact pieces_free [] s.toList (by simp) p hp
  · obtain ⟨p, ps, h1, h2⟩ := pieces_join [] s.toList
    rw [h1]
    apply String.toList_inj.1
    rw [List.map_cons, flatten_toList]
    have : (ps.map String.ofList).map String.toList = ps := by simp
    rw [this]
    simp at h2
    simp [h2]

/-- C48 (injectivity): two non-empty lists of delimiter-free names with the same packed string are equal. -/
theorem C48_injective (a b : List String) (ha : a ≠ []) (hb : b ≠ []) (hda : ∀ n ∈ a, ':' ∉ n.toList)
    (hdb : ∀ n ∈ b, ':' ∉ n.toList) (h : flatten a = flatten b) : a = b := by
  have h1 := C48_round_trip a ha hda
  rw [h, C48_round_trip b hb hdb] at h1
  exact (Res.ok.inj h1).symm

/-- C48 does not extend to the empty list (it comes back as one empty name) or to names with the delimiter. -/
theorem C48_limits : unpack (flatten []) = .ok [""] ∧ unpack (flatten ["a:b"]) = .ok ["a", "b"] := by
  decide +kernel

end Oxsx
