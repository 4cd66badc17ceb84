import Verif.Props.DataSet
import Mathlib.Tactic.Ring
/-
Properties C44-C47: drawing events without replacement (random, sequential), the remaining events, and drawing with
replacement.
-/
set_option linter.unusedSectionVars false
set_option linter.unusedSimpArgs false
set_option linter.unusedVariables false
namespace Oxsx
variable {α : Type} [Field α] [LinearOrder α] [IsStrictOrderedRing α] [FloorRing α]

/-- Spec: the values of the events number `js` of a data set which pass the cuts, in that order. -/
def selected (cuts : CutCollection α) (d : DataSet α) (js : List Nat) : List (List α) :=
  (js.filterMap (fun j => d.data[j]?)).filter (fun r => decide (cuts.passesCuts ⟨r, some d.names⟩ = .ok true))

/-- Every event of the data set can be tested against the cuts. -/
def CutsApply (cuts : CutCollection α) (d : DataSet α) : Prop := ∀ r ∈ d.data, Evaluable cuts ⟨r, some d.names⟩

/-- Random numbers are in [0,1). -/
def UnitRands (us : List α) : Prop := ∀ u ∈ us, 0 ≤ u ∧ u < 1

namespace Pool

theorem shoot_nat (m : Nat) (u : α) (h : 0 ≤ u ∧ u < 1) :
    ∃ k : Nat, shoot (m : Int) u = k ∧ k ≤ m ∧ (0 < m → k < m) ∧ (m = 0 → k = 0) ∧
      (k : α) ≤ (m : α) * u ∧ (m : α) * u < k + 1 := by
  have h0 : (0 : α) ≤ ((m : Int) : α) * u := mul_nonneg (by simp) h.1
  have hf : 0 ≤ ⌊((m : Int) : α) * u⌋ := Int.floor_nonneg.2 h0
  refine ⟨(⌊((m : Int) : α) * u⌋).toNat, ?_, ?_, ?_, ?_, ?_, ?_⟩
  · unfold shoot; rw [if_pos h0]; omega
  · have : ⌊((m : Int) : α) * u⌋ ≤ (m : Int) := by
      rw [Int.floor_le_iff]
      have : ((m : Int) : α) * u ≤ (m : Int) := by
        have := mul_le_mul_of_nonneg_left h.2.le (show (0 : α) ≤ ((m : Int) : α) by simp)
        linarith
      linarith
    omega
  · intro hm
    have : ⌊((m : Int) : α) * u⌋ < (m : Int) := by
      rw [Int.floor_lt]
      have hm' : (0 : α) < ((m : Int) : α) := by exact_mod_cast hm
      have := mul_lt_mul_of_pos_left h.2 hm'
      linarith
    omega
  · rintro rfl; simp
  · have := Int.floor_le (((m : Int) : α) * u)
    have e : (((⌊((m : Int) : α) * u⌋).toNat : Nat) : α) = ((⌊((m : Int) : α) * u⌋ : Int) : α) := by
      have : (((⌊((m : Int) : α) * u⌋).toNat : Nat) : Int) = ⌊((m : Int) : α) * u⌋ := by omega
      exact_mod_cast congrArg (fun z : Int => (z : α)) this
    rw [e]; simpa using this
  · have := Int.lt_floor_add_one (((m : Int) : α) * u)
    have e : (((⌊((m : Int) : α) * u⌋).toNat : Nat) : α) = ((⌊((m : Int) : α) * u⌋ : Int) : α) := by
      have : (((⌊((m : Int) : α) * u⌋).toNat : Nat) : Int) = ⌊((m : Int) : α) * u⌋ := by omega
      exact_mod_cast congrArg (fun z : Int => (z : α)) this
    rw [e]; simpa using this

theorem toInt32_small {n : Nat} (h : n < 2 ^ 31) : toInt32 n = n := by
  unfold toInt32
  have : (n : Int) % 2 ^ 32 = n := by omega
  rw [this, if_pos (by omega)]

/-- C44, sizes as ints: the size of a data set is passed to the random numbers as an `int`: the one value between -2^31 and 2^31, the latter excluded, that agrees with it modulo 2^32. So sizes below 2^31 arrive as
they are, and those from 2^31 up to 2^32 as negative numbers. -/
theorem C44_sizes (n : Nat) : (-2 ^ 31 ≤ toInt32 n ∧ toInt32 n < 2 ^ 31 ∧ (2 ^ 32 : Int) ∣ (n : Int) - toInt32 n) ∧ (n < 2 ^ 31 → toInt32 n = n) ∧ (2 ^ 31 ≤ n → n < 2 ^ 32 → toInt32 n < 0) := by
  refine ⟨?_, toInt32_small, ?_⟩
  · unfold toInt32
    split <;> omega
  · intro h1 h2
    unfold toInt32
    split <;> omega

example : toInt32 (2 ^ 31) < 0 := (C44_sizes (2 ^ 31)).2.2 le_rfl (by omega)

theorem ofInt32_nat {k : Nat} (h : k < 2 ^ 64) : ofInt32 (k : Int) = k := by
  unfold ofInt32; omega

/-- The drawn position for an effective end `m`. -/
theorem draw_spec {m : Nat} (hm : m < 2 ^ 31) (u : α) (h : 0 ≤ u ∧ u < 1) :
    ∃ k, ofInt32 (shoot (toInt32 m) u) = k ∧ k ≤ m ∧ (0 < m → k < m) ∧
      (k : α) ≤ (m : α) * u ∧ (m : α) * u < k + 1 := by
  obtain ⟨k, h1, h2, h3, _, h5, h6⟩ := shoot_nat m u h
  exact ⟨k, by rw [toInt32_small hm, h1, ofInt32_nat (by omega)], h2, h3, h5, h6⟩

theorem swap_spec {l : List Nat} {i j : Nat} (hi : i < l.length) (hj : j < l.length) :
    ∃ l', swap l i j = .ok l' ∧ l'.Perm l ∧ l'.length = l.length ∧ l'[j]? = l[i]? ∧ l'[i]? = l[j]? ∧
      ∀ k, k ≠ i → k ≠ j → l'[k]? = l[k]? := by
  refine ⟨(l.set i l[j]).set j l[i], ?_, List.set_set_perm hi hj, by simp, by simp [hj, hi], ?_, ?_⟩
  · unfold swap
    simp only [idx_of_lt hi, idx_of_lt hj, Res.ok_bind, setIdx_of_lt hi]
    rw [setIdx_of_lt (by simpa using hj)]
  · by_cases h : j = i
    · subst h; simp [hi]
    · rw [List.getElem?_set_ne h]; simp [hi, hj]
  · intro k h1 h2
    rw [List.getElem?_set_ne (Ne.symm h2), List.getElem?_set_ne (Ne.symm h1)]

theorem selected_nil (cuts : CutCollection α) (d : DataSet α) : selected cuts d [] = [] := rfl

theorem selected_append (cuts : CutCollection α) (d : DataSet α) (js ks : List Nat) :
    selected cuts d (js ++ ks) = selected cuts d js ++ selected cuts d ks := by
  simp [selected]

/-- Copying one event. -/
theorem take_spec (cuts : CutCollection α) (d : DataSet α) (hd : d.WF) (hc : CutsApply cuts d) {j : Nat}
    (hj : j < d.data.length) (out : DataSet α) (ho : out.nObs = 0 ∨ out.nObs = d.nObs) :
    ∃ out', take cuts d j out = .ok out' ∧ out'.names = out.names ∧ out'.data = out.data ++ selected cuts d [j] ∧
      (out'.nObs = 0 ∨ out'.nObs = d.nObs) := by
  have hl := hd.1 _ (List.getElem_mem hj)
  have hne := hd.2.1 (List.ne_nil_of_mem (List.getElem_mem hj))
  have hsel : selected cuts d [j] = if cuts.passesCuts ⟨d.data[j], some d.names⟩ = .ok true then [d.data[j]] else [] := by
    simp only [selected, List.filterMap_cons, List.getElem?_eq_getElem hj, List.filterMap_nil, List.filter_cons,
      List.filter_nil, decide_eq_true_eq]
  have hg : d.getEntry j = .ok ⟨d.data[j], some d.names⟩ := by
    simp [DataSet.getEntry, List.getElem?_eq_getElem hj]
  rw [hsel]
  rcases CutCollection.evaluable_cases (hc _ (List.getElem_mem hj)) with hp | hp
  · have hadd : out.addEntry ⟨d.data[j], some d.names⟩ = _ := DataSet.addEntry_ok (d := out)
        (e := ⟨d.data[j], some d.names⟩) (by intro h; simp only at h; rw [h] at hl; simp at hl; exact hne hl.symm)
        (by simp only [hl]; exact ho)
    refine ⟨⟨out.data ++ [d.data[j]], out.names, d.data[j].length⟩,
      by unfold take; rw [hg]; simp only [Res.ok_bind, hp, if_true]; exact hadd, rfl, ?_, .inr hl⟩
    rw [hp, if_pos rfl]
  · refine ⟨out, by unfold take; rw [hg]; simp only [Res.ok_bind, hp]; rfl, rfl, ?_, ho⟩
    rw [hp]; simp

/-- Bookkeeping after the events `drawn` (in this order) have been drawn at random from `n`. -/
structure Inv (n : Nat) (drawn : List Nat) (p : Pool) : Prop where
  perm : p.idxs.Perm (List.range n)
  le : drawn.length ≤ n
  suffix : p.idxs.drop (n - drawn.length) = drawn.reverse
  max : p.max = szDec (n - drawn.length)

/-- Nothing drawn yet, or in the middle of drawing. -/
def State (n : Nat) (drawn : List Nat) (p : Pool) : Prop := (drawn = [] ∧ p.idxs = []) ∨ Inv n drawn p

theorem state_init {n : Nat} {drawn : List Nat} {p : Pool} (h : State n drawn p) : Inv n drawn (p.init n) := by
  rcases h with ⟨rfl, h⟩ | h
  · unfold init; rw [if_pos (by simp [h])]
    exact ⟨List.Perm.refl _, by simp, by simp, by simp⟩
  · unfold init
    split
    · rename_i h0
      have hl := h.perm.length_eq
      rw [h0, List.length_range] at hl
      subst hl
      have : drawn = [] := List.eq_nil_of_length_eq_zero (by have := h.le; omega)
      subst this
      exact ⟨List.Perm.refl _, by simp, by simp, by simp⟩
    · exact h

theorem Inv.nodup {n : Nat} {drawn : List Nat} {p : Pool} (h : Inv n drawn p) :
    drawn.Nodup ∧ (∀ j ∈ drawn, j < n) ∧ (drawn.length = n → drawn.Perm (List.range n)) := by
  have hnd : p.idxs.Nodup := h.perm.nodup_iff.2 List.nodup_range
  refine ⟨?_, ?_, ?_⟩
  · rw [← List.nodup_reverse, ← h.suffix]; exact hnd.sublist (List.drop_sublist _ _)
  · intro j hj
    have : j ∈ p.idxs.drop (n - drawn.length) := by rw [h.suffix]; simpa using hj
    have := h.perm.mem_iff.1 (List.mem_of_mem_drop this)
    simpa using this
  · intro hl
    have := h.suffix
    rw [hl, Nat.sub_self, List.drop_zero] at this
    exact (List.reverse_perm drawn).symm.trans (this ▸ h.perm)

/-- One random draw. -/
theorem step_random (cuts : CutCollection α) (d : DataSet α) (hd : d.WF) (hc : CutsApply cuts d)
    (hN : d.data.length < 2 ^ 31) {drawn : List Nat} {p : Pool} (hp : Inv d.data.length drawn p)
    (hlt : drawn.length < d.data.length) (out : DataSet α) (ho : out.nObs = 0 ∨ out.nObs = d.nObs) (u : α)
    (hu : 0 ≤ u ∧ u < 1) :
    ∃ p' out' j, stepRandom cuts d (p, out) u = .ok (p', out') ∧ Inv d.data.length (drawn ++ [j]) p' ∧
      out'.names = out.names ∧ out'.data = out.data ++ selected cuts d [j] ∧
      (out'.nObs = 0 ∨ out'.nObs = d.nObs) ∧
      ∃ k, p.idxs[k]? = some j ∧ k ≤ d.data.length - drawn.length - 1 ∧
        (0 < d.data.length - drawn.length - 1 → k < d.data.length - drawn.length - 1) := by
  set N := d.data.length with hNdef
  have hmax : p.max = N - drawn.length - 1 := by rw [hp.max]; unfold szDec; rw [if_neg (by omega)]
  have hfix : p.fixMax = p := by
    unfold fixMax; rw [if_neg]
    rw [hmax]; unfold notSet; omega
  have hlen : p.idxs.length = N := by rw [hp.perm.length_eq, List.length_range]
  obtain ⟨k, hk1, hk2, hk3, _, _⟩ := draw_spec (m := p.max) (by omega) u hu
  have hkl : k < p.idxs.length := by omega
  have hml : p.max < p.idxs.length := by omega
  obtain ⟨l', hs1, hs2, hs3, hs4, hs5, hs6⟩ := swap_spec (l := p.idxs) (i := k) (j := p.max) hkl hml
  have hj : l'[p.max]? = some p.idxs[k] := by rw [hs4, List.getElem?_eq_getElem hkl]
  have hjN : p.idxs[k] < N := by
    have := hp.perm.mem_iff.1 (List.getElem_mem hkl); simpa using this
  obtain ⟨out', ht1, ht2, ht3, ht4⟩ := take_spec cuts d hd hc hjN out ho
  refine ⟨⟨l', szDec p.max⟩, out', p.idxs[k], ?_, ⟨hs2.trans hp.perm, by simp; omega, ?_, ?_⟩, ht2, ht3, ht4, k,
    List.getElem?_eq_getElem hkl, by omega, fun h => by have := hk3 (by omega); omega⟩
  · unfold stepRandom
    simp only [hfix, hk1, hs1, Res.ok_bind, idx_ok.2 hj, ht1, Res.pure_eq]
  · simp only [List.length_append, List.length_singleton, List.reverse_append, List.reverse_singleton,
      List.singleton_append]
    rw [← hp.suffix]
    have e : N - (drawn.length + 1) = p.max := by omega
    rw [e, List.drop_eq_getElem_cons (by omega)]
    have : l'[p.max]'(by omega) = p.idxs[k] := by
      have := hj; rw [List.getElem?_eq_getElem (by omega)] at this; exact Option.some.inj this
    rw [this]
    congr 1
    have e2 : p.max + 1 = N - drawn.length := by omega
    rw [e2]
    apply List.ext_getElem?
    intro i
    rw [List.getElem?_drop, List.getElem?_drop]
    exact hs6 _ (by omega) (by omega)
  · simp only [List.length_append, List.length_singleton]
    rw [hmax]; congr 1

/-- Several random draws in one call. -/
theorem randomDraws_spec (cuts : CutCollection α) (d : DataSet α) (hd : d.WF) (hc : CutsApply cuts d)
    (hN : d.data.length < 2 ^ 31) {drawn : List Nat} {p : Pool} (hp : State d.data.length drawn p)
    (us : List α) (hus : UnitRands us) (hle : drawn.length + us.length ≤ d.data.length) (out : DataSet α)
    (ho : out.nObs = 0 ∨ out.nObs = d.nObs) :
    ∃ p' out' js, randomDraws cuts d p us out = .ok (p', out') ∧ js.length = us.length ∧
      Inv d.data.length (drawn ++ js) p' ∧ out'.names = out.names ∧
      out'.data = out.data ++ selected cuts d js ∧ (out'.nObs = 0 ∨ out'.nObs = d.nObs) := by
  have hp := state_init hp
  unfold randomDraws
  rw [if_neg (by unfold DataSet.getNEntries; omega)]
  show ∃ p' out' js, Res.forFold (stepRandom cuts d) (p.init d.data.length, out) us = _ ∧ _
  generalize p.init d.data.length = p at hp
  clear * - hd hc hN hp hus hle ho
  induction us generalizing drawn p out with
  | nil => exact ⟨p, out, [], rfl, rfl, by simpa using hp, rfl, by simp [selected_nil], ho⟩
  | cons u us ih =>
    simp only [List.length_cons] at hle
    obtain ⟨p1, o1, j, h1, h2, h3, h4, h5, _⟩ := step_random cuts d hd hc hN hp (by omega) out ho u
      (hus u List.mem_cons_self)
    obtain ⟨p2, o2, js, g1, g2, g3, g4, g5, g6⟩ := ih (fun v hv => hus v (List.mem_cons_of_mem _ hv)) (drawn := drawn ++ [j])
      (by simp only [List.length_append, List.length_singleton]; omega) o1 h5 p1 h2
    refine ⟨p2, o2, j :: js, by rw [Res.forFold_cons_ok h1, g1], by simp [g2], by simpa using g3, by rw [g4, h3], ?_, g6⟩
    rw [g5, h4, List.append_assoc, ← selected_append]; rfl

/-- Client history: several calls in a row, each into a new data set with the same names. -/
def drawMany (cuts : CutCollection α) (d : DataSet α) : Pool → List (List α) → Res (Pool × List (DataSet α))
  | p, [] => .ok (p, [])
  | p, us :: uss => do
    let r ← randomDraws cuts d p us (DataSet.empty.setObservableNames d.names)
    let r' ← drawMany cuts d r.1 uss
    pure (r'.1, r.2 :: r'.2)

theorem drawMany_spec (cuts : CutCollection α) (d : DataSet α) (hd : d.WF) (hc : CutsApply cuts d)
    (hN : d.data.length < 2 ^ 31) {drawn : List Nat} {p : Pool} (hp : State d.data.length drawn p)
    (uss : List (List α)) (hus : ∀ us ∈ uss, UnitRands us)
    (hle : drawn.length + uss.flatten.length ≤ d.data.length) :
    ∃ p' outs jss, drawMany cuts d p uss = .ok (p', outs) ∧ State d.data.length (drawn ++ jss.flatten) p' ∧
      List.Forall₂ (fun us js => js.length = us.length) uss jss ∧
      List.Forall₂ (fun (o : DataSet α) js => o.data = selected cuts d js ∧ o.names = d.names) outs jss ∧
      (uss ≠ [] → Inv d.data.length (drawn ++ jss.flatten) p') := by
  induction uss generalizing drawn p with
  | nil => exact ⟨p, [], [], rfl, by simpa using hp, .nil, .nil, by simp⟩
  | cons us uss ih =>
    simp only [List.flatten_cons, List.length_append] at hle
    obtain ⟨p1, o1, js, h1, h2, h3, h4, h5, h6⟩ := randomDraws_spec cuts d hd hc hN hp us
      (hus us List.mem_cons_self) (by omega) (DataSet.empty.setObservableNames d.names) (.inl rfl)
    obtain ⟨p2, outs, jss, g1, g2, g3, g4, g5⟩ := ih (.inr h3) (fun v hv => hus v (List.mem_cons_of_mem _ hv))
      (by rw [List.length_append]; omega)
    refine ⟨p2, o1 :: outs, js :: jss, by simp [drawMany, h1, g1], by simpa using g2, .cons h2 g3,
      .cons ⟨by rw [h5]; rfl, h4⟩ g4, ?_⟩
    intro _
    by_cases he : uss = []
    · subst he; cases g3; simp [drawMany] at g1; obtain ⟨rfl, rfl⟩ := g1; simpa using h3
    · simpa using g5 he

end Pool
open Pool

/-- C44 (no repetition, over any number of calls): from a generator whose data set was just given (by `SetDataSets`,
`AddDataSet` or after `Reset`), any sequence of random draws without replacement totalling no more than the number
of events succeeds; the events considered in all the calls together are pairwise different events of the data set,
one per requested event, each call returning those of its own which pass the cuts, in the order drawn; if as many are
requested as there are events, each event is considered exactly once. -/
theorem C44_no_repetition (cuts : CutCollection α) (d : DataSet α) (hd : d.WF) (hc : CutsApply cuts d)
    (hN : d.data.length < 2 ^ 31) (p : Pool) (hp : p = Pool.fresh ∨ p = Pool.added) (uss : List (List α))
    (hus : ∀ us ∈ uss, UnitRands us) (hle : uss.flatten.length ≤ d.data.length) :
    ∃ p' outs, ∃ jss : List (List Nat), drawMany cuts d p uss = .ok (p', outs) ∧
      List.Forall₂ (fun us js => js.length = us.length) uss jss ∧
      List.Forall₂ (fun (o : DataSet α) js => o.data = selected cuts d js ∧ o.names = d.names) outs jss ∧
      jss.flatten.Nodup ∧ (∀ j ∈ jss.flatten, j < d.data.length) ∧
      (uss.flatten.length = d.data.length → jss.flatten.Perm (List.range d.data.length)) := by
  have hs : State d.data.length [] p := .inl ⟨rfl, by rcases hp with rfl | rfl <;> rfl⟩
  obtain ⟨p', outs, jss, h1, h2, h3, h4, h5⟩ := drawMany_spec cuts d hd hc hN hs uss hus (by simpa using hle)
  have hlen : jss.flatten.length = uss.flatten.length := by
    clear * - h3
    induction h3 with
    | nil => rfl
    | cons h _ ih => simp [h, ih]
  refine ⟨p', outs, jss, h1, h3, h4, ?_⟩
  have hi := (state_init h2).nodup
  simp only [List.nil_append] at hi
  exact ⟨hi.1, hi.2.1, fun h => hi.2.2 (by omega)⟩

/-- Three one-observable events. -/
def exSet3 : DataSet ℚ := ⟨[[10], [20], [30]], ["e"], 1⟩

example : exSet3.WF ∧ CutsApply ([] : CutCollection ℚ) exSet3 ∧ UnitRands ([1/2, 3/4] : List ℚ) ∧
    drawMany [] exSet3 Pool.fresh [[1/2, 3/4], [0]] =
      .ok (⟨[2, 0, 1], 2 ^ 64 - 1⟩, [⟨[[20], [10]], ["e"], 1⟩, ⟨[[30]], ["e"], 1⟩]) := by
  refine ⟨by decide +kernel, ?_, ?_, ?_⟩
  · intro r _ c hc; cases hc
  · intro u hu; simp at hu; rcases hu with rfl | rfl <;> norm_num
  · decide +kernel

/-- C44 (rejection): one call asking for more events than the data set holds throws `NotFoundError`. -/
theorem C44_too_many_rejected (cuts : CutCollection α) (d : DataSet α) (p : Pool) (us : List α) (out : DataSet α)
    (h : d.data.length < us.length) : randomDraws cuts d p us out = .throw .notFound := by
  unfold randomDraws; rw [if_pos (show d.getNEntries < us.length from h)]

namespace Pool

theorem draw_wrapped (u : α) (hu : 0 ≤ u ∧ u < 1) : ofInt32 (shoot (toInt32 (2 ^ 64 - 1)) u) = 0 := by
  have h1 : toInt32 (2 ^ 64 - 1) = -1 := by decide
  rw [h1]
  unfold shoot
  have : shoot (-1) u = 0 := by
    unfold shoot
    split
    · rename_i h
      have : u = 0 := by push_cast at h; linarith [hu.1]
      subst this; simp
    · push_cast
      rw [Int.ceil_eq_iff]
      constructor
      · push_cast; linarith [hu.2]
      · push_cast; linarith [hu.1]
  unfold shoot at this
  rw [this]; rfl

end Pool

/-- C44 is false over several calls: the check compares with the size of the data set, not with what remains. Once
all the events have been drawn, asking for any number from 1 to the size is not rejected: the generator reads
outside its index array (undefined behaviour). -/
theorem C44_overdraw_not_rejected_wrong (cuts : CutCollection α) (d : DataSet α) (hd : d.WF) (hc : CutsApply cuts d)
    (hN : d.data.length < 2 ^ 31) (us vs : List α) (hus : UnitRands us) (hvs : UnitRands vs)
    (hl : us.length = d.data.length) (hv : 0 < vs.length) (hv' : vs.length ≤ d.data.length) :
    drawMany cuts d Pool.fresh [us, vs] = .ub := by
  obtain ⟨p', o, js, h1, h2, h3, _⟩ := randomDraws_spec cuts d hd hc hN (drawn := []) (p := Pool.fresh)
    (.inl ⟨rfl, rfl⟩) us hus (by simp [hl]) (DataSet.empty.setObservableNames d.names) (.inl rfl)
  simp only [List.nil_append] at h3
  have hlen : p'.idxs.length = d.data.length := by rw [h3.perm.length_eq, List.length_range]
  have hmax : p'.max = 2 ^ 64 - 1 := by rw [h3.max, h2, hl, Nat.sub_self]; rfl
  have h4 : ∀ o, randomDraws cuts d p' vs o = .ub := by
    intro o
    unfold randomDraws
    rw [if_neg (by unfold DataSet.getNEntries; omega)]
    have hi : p'.init d.getNEntries = p' := by
      unfold Pool.init; rw [if_neg (by omega)]
    rw [hi]
    cases vs with
    | nil => simp at hv
    | cons v vs =>
      have hf : p'.fixMax = p' := by
        unfold Pool.fixMax; rw [if_neg (by rw [hmax]; decide)]
      have : stepRandom cuts d (p', o) v = .ub := by
        unfold stepRandom
        simp only [hf]
        rw [hmax, draw_wrapped v (hvs v List.mem_cons_self)]
        have : Pool.swap p'.idxs 0 (2 ^ 64 - 1) = .ub := by
          unfold Pool.swap
          rw [idx_of_lt (by omega), idx_of_ge (by omega)]; rfl
        rw [this]; rfl
      simp only [Res.forFold, this]
  simp only [drawMany, h1, Res.ok_bind, h4, Res.ub_bind]

example : drawMany [] exSet3 Pool.fresh [[0, 0, 0], [0]] = .ub := by decide +kernel

/-- Reading events number `js` of a data set into an empty one. -/
theorem collect_spec (d : DataSet α) (hd : d.WF) (idxs : List Nat) (hj : ∀ j ∈ idxs, j < d.data.length) (n : Nat)
    (hn : n ≤ idxs.length) (ns : List String) :
    ∃ o, Res.forFold (fun (o : DataSet α) j => do
      let i ← at_ idxs j
      let e ← d.getEntry i
      o.addEntry e) (DataSet.empty.setObservableNames ns) (List.range n) = .ok o ∧
      o.data = (idxs.take n).filterMap (fun j => d.data[j]?) ∧ o.names = ns := by
  have := Res.forFold_range (f := fun (o : DataSet α) j => do
      let i ← at_ idxs j
      let e ← d.getEntry i
      o.addEntry e) (fun k (o : DataSet α) => o.data = (idxs.take k).filterMap (fun j => d.data[j]?) ∧ o.names = ns ∧
        (o.nObs = 0 ∨ o.nObs = d.nObs)) (n := n) (s := DataSet.empty.setObservableNames ns)
      ⟨rfl, rfl, .inl rfl⟩ (by
    rintro i s hi ⟨h1, h2, h3⟩
    have hil : i < idxs.length := by omega
    have hji := hj _ (List.getElem_mem hil)
    have hl := hd.1 _ (List.getElem_mem hji)
    have hne := hd.2.1 (List.ne_nil_of_mem (List.getElem_mem hji))
    have hadd : s.addEntry ⟨d.data[idxs[i]], some d.names⟩ = _ := DataSet.addEntry_ok (d := s)
        (e := ⟨d.data[idxs[i]], some d.names⟩)
        (by intro h; simp only at h; rw [h] at hl; simp at hl; exact hne hl.symm) (by simp only [hl]; exact h3)
    refine ⟨⟨s.data ++ [d.data[idxs[i]]], s.names, d.data[idxs[i]].length⟩, ?_, ?_, h2, .inr hl⟩
    · simp only [at_of_lt hil, Res.ok_bind, DataSet.getEntry, List.getElem?_eq_getElem hji]; exact hadd
    · rw [← List.take_append_getElem hil, List.filterMap_append, h1]
      simp only [List.filterMap_cons, List.getElem?_eq_getElem hji, List.filterMap_nil])
  obtain ⟨o, h1, h2, h3, _⟩ := this
  exact ⟨o, h1, h2, h3⟩

theorem Pool.allRemaining_done (d : DataSet α) (p : Pool) (h : p.max = 2 ^ 64 - 1) :
    Pool.allRemaining d p = .ok (DataSet.empty.setObservableNames d.names, 0) := by
  have hn : (if p.max = notSet then szDec d.getNEntries else p.max) = 2 ^ 64 - 1 := by
    rw [h, if_neg (by decide)]
  unfold Pool.allRemaining
  simp only [hn, if_true, Res.pure_eq]

theorem Pool.allRemaining_some (d : DataSet α) (p : Pool) (m : Nat)
    (h : (if p.max = notSet then szDec d.getNEntries else p.max) = m) (hm : m < 2 ^ 31) :
    Pool.allRemaining d p = (Res.forFold (fun (o : DataSet α) j => do
      let i ← at_ p.idxs j
      let e ← d.getEntry i
      o.addEntry e) (DataSet.empty.setObservableNames d.names) (List.range (m + 1))) >>= fun out => .ok (out, m) := by
  unfold Pool.allRemaining
  simp only [h]
  rw [if_neg (by omega)]; rfl

/-- C46 (after random draws): after at least one call of random drawing without replacement (totalling at most the
size), `AllRemainingEvents` returns exactly the events that were not drawn, each once. (The count reported beside them
is one too small when it is not zero.) -/
theorem C46_remaining_partial (cuts : CutCollection α) (d : DataSet α) (hd : d.WF) (hc : CutsApply cuts d)
    (hN : d.data.length < 2 ^ 31) (p : Pool) (hp : p = Pool.fresh ∨ p = Pool.added) (uss : List (List α))
    (hne : uss ≠ []) (hus : ∀ us ∈ uss, UnitRands us) (hle : uss.flatten.length ≤ d.data.length) :
    ∃ p' outs, ∃ jss : List (List Nat), ∃ rem n, ∃ ks : List Nat, drawMany cuts d p uss = .ok (p', outs) ∧
      List.Forall₂ (fun us js => js.length = us.length) uss jss ∧
      List.Forall₂ (fun (o : DataSet α) js => o.data = selected cuts d js ∧ o.names = d.names) outs jss ∧
      allRemaining d p' = .ok (rem, n) ∧ rem.names = d.names ∧
      rem.data = ks.filterMap (fun j => d.data[j]?) ∧
      (jss.flatten ++ ks).Perm (List.range d.data.length) ∧
      n = ks.length - 1 := by
  have hs : State d.data.length [] p := .inl ⟨rfl, by rcases hp with rfl | rfl <;> rfl⟩
  obtain ⟨p', outs, jss, h1, h2, h3, h4, h5⟩ := drawMany_spec cuts d hd hc hN hs uss hus (by simpa using hle)
  have hI := h5 hne
  simp only [List.nil_append] at hI
  set k := jss.flatten.length with hk
  have hlen : p'.idxs.length = d.data.length := by rw [hI.perm.length_eq, List.length_range]
  have hperm : (jss.flatten ++ p'.idxs.take (d.data.length - k)).Perm (List.range d.data.length) := by
    have e : p'.idxs = p'.idxs.take (d.data.length - k) ++ jss.flatten.reverse := by
      rw [← hI.suffix, List.take_append_drop]
    have : p'.idxs.Perm (jss.flatten ++ p'.idxs.take (d.data.length - k)) := by
      conv_lhs => rw [e]
      exact List.perm_append_comm.trans (List.Perm.append_right _ (List.reverse_perm _))
    exact this.symm.trans hI.perm
  have hkle := hI.le
  by_cases hall : d.data.length - k = 0
  · refine ⟨p', outs, jss, DataSet.empty.setObservableNames d.names, 0, [], h1, h3, h4, ?_, rfl, rfl, ?_, rfl⟩
    · have hm : p'.max = 2 ^ 64 - 1 := by rw [hI.max, ← hk, hall]; rfl
      exact allRemaining_done d p' hm
    · rw [hall] at hperm; simpa using hperm
  · have hm : p'.max = d.data.length - k - 1 := by rw [hI.max, ← hk]; unfold szDec; rw [if_neg hall]
    obtain ⟨o, g1, g2, g3⟩ := collect_spec d hd p'.idxs (fun j hj => by
      have := hI.perm.mem_iff.1 hj; simpa using this) (d.data.length - k) (by omega) d.names
    refine ⟨p', outs, jss, o, d.data.length - k - 1, p'.idxs.take (d.data.length - k), h1, h3, h4, ?_, g3, g2, hperm, ?_⟩
    · rw [allRemaining_some d p' (d.data.length - k - 1) (by rw [hm, if_neg (by unfold notSet; omega)]) (by omega),
        show d.data.length - k - 1 + 1 = d.data.length - k by omega, g1]; rfl
    · rw [List.length_take, hlen]; omega

example : allRemaining exSet3 ⟨[2, 0, 1], 1⟩ = .ok (⟨[[30], [10]], ["e"], 1⟩, 1) := by decide +kernel

/-- C46 is false before any draw: asking for the remaining events of a non-empty data set throws
`std::out_of_range` instead of returning all of them. -/
theorem C46_before_draw_wrong (d : DataSet α) (h : 0 < d.data.length) (hN : d.data.length < 2 ^ 31) (p : Pool)
    (hp : p = Pool.fresh ∨ p = Pool.added) : allRemaining d p = .throw .outOfRange := by
  have key : ∀ n : Nat, Res.forFold (fun (o : DataSet α) j => do
      let i ← at_ ([] : List Nat) j
      let e ← d.getEntry i
      o.addEntry e) (DataSet.empty.setObservableNames d.names) (List.range (n + 1)) = .throw .outOfRange := by
    intro n
    rw [List.range_succ_eq_map]; rfl
  rcases hp with rfl | rfl
  · rw [allRemaining_some d _ (d.data.length - 1) (by
      show (if notSet = notSet then szDec d.data.length else notSet) = _
      rw [if_pos rfl]; unfold szDec; rw [if_neg (by omega)]) (by omega)]
    show (Res.forFold _ _ _ >>= _) = _
    rw [show (Pool.fresh).idxs = [] from rfl, key]; rfl
  · rw [allRemaining_some d _ 0 (by show (if 0 = notSet then _ else 0) = 0; rw [if_neg (by decide)]) (by omega)]
    rw [show (Pool.added).idxs = [] from rfl, key]; rfl

namespace Pool

/-- Contents of the index array after `k` sequential draws out of `n ≥ 2` (`k < n`). -/
def seqIdx (n k i : Nat) : Nat :=
  if i = 0 then (if k = 0 then 0 else n - k) else if i < n - k then i else if i = n - 1 then 0 else i + 1

/-- Event returned by the `i`-th sequential draw out of `n ≥ 2`. -/
def seqDrawn (n i : Nat) : Nat := if i + 1 < n then n - 1 - i else 1

theorem step_sequential (cuts : CutCollection α) (d : DataSet α) (hd : d.WF) (hc : CutsApply cuts d)
    (hN : d.data.length < 2 ^ 31) (h2 : 2 ≤ d.data.length) (k : Nat) (hk : k < d.data.length) (out : DataSet α)
    (ho : out.nObs = 0 ∨ out.nObs = d.nObs) (i : Nat) :
    ∃ out', stepSequential cuts d (⟨(List.range d.data.length).map (seqIdx d.data.length k), szDec (d.data.length - k)⟩, out) i =
      .ok (⟨(List.range d.data.length).map (seqIdx d.data.length (if k + 1 < d.data.length then k + 1 else k)),
        szDec (d.data.length - (k + 1))⟩, out') ∧ out'.names = out.names ∧
      out'.data = out.data ++ selected cuts d [seqDrawn d.data.length k] ∧ (out'.nObs = 0 ∨ out'.nObs = d.nObs) := by
  set N := d.data.length with hNd
  have hmax : szDec (N - k) = N - k - 1 := by unfold szDec; rw [if_neg (by omega)]
  have hmax' : szDec (N - k - 1) = szDec (N - (k + 1)) := by congr 1
  have hget : ∀ i, i < N → ((List.range N).map (seqIdx N k))[i]? = some (seqIdx N k i) := by
    intro i hi; simp [hi]
  have hcase : (if k + 1 < N then k + 1 else k) = min (k + 1) (N - 1) := by
    split_ifs <;> omega
  rw [hcase]
  have hsw : swap ((List.range N).map (seqIdx N k)) 0 (N - k - 1) =
      .ok ((List.range N).map (seqIdx N (min (k + 1) (N - 1)))) := by
    obtain ⟨l', s1, s2, s3, s4, s5, s6⟩ := swap_spec (l := (List.range N).map (seqIdx N k)) (i := 0)
      (j := N - k - 1) (by simp; omega) (by simp; omega)
    rw [s1]
    congr 1
    apply List.ext_getElem?
    intro i
    by_cases hi : i < N
    · have hr : ((List.range N).map (seqIdx N (min (k + 1) (N - 1))))[i]? =
          some (seqIdx N (min (k + 1) (N - 1)) i) := by simp [hi]
      rw [hr]
      by_cases h1 : i = N - k - 1
      · subst h1
        rw [s4, hget 0 (by omega)]
        congr 1
        unfold seqIdx
        split_ifs <;> omega
      · by_cases h0 : i = 0
        · subst h0
          rw [s5, hget _ (by omega)]
          congr 1
          unfold seqIdx
          split_ifs <;> omega
        · rw [s6 i h0 h1, hget i hi]
          congr 1
          unfold seqIdx
          split_ifs <;> omega
    · rw [List.getElem?_eq_none (by rw [s3]; simp; omega), List.getElem?_eq_none (by simp; omega)]
  have hidx : idx ((List.range N).map (seqIdx N (min (k + 1) (N - 1)))) 0 = .ok (seqDrawn N k) := by
    rw [idx_ok]
    have : ((List.range N).map (seqIdx N (min (k + 1) (N - 1))))[0]? =
          some (seqIdx N (min (k + 1) (N - 1)) 0) := by
      rw [List.getElem?_map, List.getElem?_range (by omega)]; rfl
    rw [this]
    congr 1
    unfold seqIdx seqDrawn
    split_ifs <;> omega
  have hjN : seqDrawn N k < N := by unfold seqDrawn; split_ifs <;> omega
  obtain ⟨out', t1, t2, t3, t4⟩ := take_spec cuts d hd hc hjN out ho
  refine ⟨out', ?_, t2, t3, t4⟩
  unfold stepSequential
  have hfix : fixMax ⟨(List.range N).map (seqIdx N k), szDec (N - k)⟩ = ⟨(List.range N).map (seqIdx N k), N - k - 1⟩ := by
    unfold fixMax; rw [hmax, if_neg (by unfold notSet; simp only; omega)]
  simp only [hfix, hsw, Res.ok_bind, hidx, t1, Res.pure_eq, hmax']

theorem sequential_spec (cuts : CutCollection α) (d : DataSet α) (hd : d.WF) (hc : CutsApply cuts d)
    (hN : d.data.length < 2 ^ 31) (h2 : 2 ≤ d.data.length) (p : Pool) (hp : p = Pool.fresh ∨ p = Pool.added)
    (n : Nat) (hn : n ≤ d.data.length) :
    ∃ out', sequentialDraws cuts d p n (DataSet.empty.setObservableNames d.names) =
      .ok (⟨(List.range d.data.length).map (seqIdx d.data.length (if n < d.data.length then n else n - 1)),
        szDec (d.data.length - n)⟩, out') ∧ out'.names = d.names ∧
      out'.data = selected cuts d ((List.range n).map (seqDrawn d.data.length)) := by
  set N := d.data.length with hNd
  have hid : (List.range N).map (seqIdx N 0) = List.range N := by
    apply List.ext_getElem?
    intro i
    by_cases hi : i < N
    · simp [hi]; unfold seqIdx; split_ifs <;> omega
    · rw [List.getElem?_eq_none (by simp; omega), List.getElem?_eq_none (by simp; omega)]
  have hinit : p.init d.getNEntries = ⟨(List.range N).map (seqIdx N 0), szDec (N - 0)⟩ := by
    rw [hid]
    unfold init DataSet.getNEntries
    rw [if_pos (by rcases hp with rfl | rfl <;> rfl)]; rfl
  unfold sequentialDraws
  rw [if_neg (by unfold DataSet.getNEntries; omega), if_neg (by unfold DataSet.getNEntries; omega), hinit]
  have := Res.forFold_range (f := stepSequential cuts d) (fun k (s : Pool × DataSet α) =>
    s.1 = ⟨(List.range N).map (seqIdx N (if k < N then k else k - 1)), szDec (N - k)⟩ ∧ s.2.names = d.names ∧
      s.2.data = selected cuts d ((List.range k).map (seqDrawn N)) ∧ (s.2.nObs = 0 ∨ s.2.nObs = d.nObs)) (n := n)
    (s := (⟨(List.range N).map (seqIdx N 0), szDec (N - 0)⟩, DataSet.empty.setObservableNames d.names))
    ⟨by simp only []; rw [if_pos (by omega)], rfl, rfl, .inl rfl⟩ (by
    rintro i ⟨q, o⟩ hi ⟨a1, a2, a3, a4⟩
    simp only at a1 a2 a3 a4
    rw [if_pos (by omega)] at a1
    obtain ⟨o', b1, b2, b3, b4⟩ := step_sequential cuts d hd hc hN h2 i (by omega) o a4 i
    refine ⟨_, by rw [a1]; exact b1, ?_, by rw [b2, a2], ?_, b4⟩
    · simp only []
      rw [Nat.add_sub_cancel]
    · simp only []
      rw [b3, a3, ← selected_append, List.range_succ, List.map_append]; rfl)
  obtain ⟨⟨q, o⟩, g1, g2, g3, g4, _⟩ := this
  simp only at g2 g3 g4
  exact ⟨o, by rw [g1, g2], g3, g4⟩

end Pool

/-- C45 (what sequential drawing does): from a new data set of at least two events, `n` sequential draws consider
the events in the order `N-1, N-2, …, 1`, and for the `N`-th draw event 1 again. -/
theorem C45_order (cuts : CutCollection α) (d : DataSet α) (hd : d.WF) (hc : CutsApply cuts d)
    (hN : d.data.length < 2 ^ 31) (h2 : 2 ≤ d.data.length) (p : Pool) (hp : p = Pool.fresh ∨ p = Pool.added)
    (n : Nat) (hn : n ≤ d.data.length) :
    ∃ p' out', sequentialDraws cuts d p n (DataSet.empty.setObservableNames d.names) = .ok (p', out') ∧
      out'.names = d.names ∧
      out'.data = selected cuts d
        ((List.range n).map (fun i => if i + 1 < d.data.length then d.data.length - 1 - i else 1)) := by
  obtain ⟨out', h1, h3, h4⟩ := sequential_spec cuts d hd hc hN h2 p hp n hn
  exact ⟨_, out', h1, h3, h4⟩

/-- C45 (what holds): fewer sequential draws than there are events never consider an event twice; asking for more
events than the data set holds throws `NotFoundError`; a one-event data set gives its event. Missing: order and the
last draw, see `C45_drawing_all_wrong`. -/
theorem C45_distinct_partial (cuts : CutCollection α) (d : DataSet α) (hd : d.WF) (hc : CutsApply cuts d)
    (hN : d.data.length < 2 ^ 31) (p : Pool) (hp : p = Pool.fresh ∨ p = Pool.added) (n : Nat) :
    (n < d.data.length → ∃ p' out' js, sequentialDraws cuts d p n (DataSet.empty.setObservableNames d.names) =
        .ok (p', out') ∧ js.length = n ∧ js.Nodup ∧ (∀ j ∈ js, j < d.data.length) ∧
        out'.data = selected cuts d js) ∧
    (d.data.length < n → ∀ out, sequentialDraws cuts d p n out = .throw .notFound) := by
  constructor
  · intro hn
    by_cases h2 : 2 ≤ d.data.length
    · obtain ⟨p', out', h1, _, h3⟩ := C45_order cuts d hd hc hN h2 p hp n (by omega)
      refine ⟨p', out', _, h1, by simp, ?_, ?_, h3⟩
      · rw [List.nodup_map_iff_inj_on List.nodup_range]
        intro x hx y hy hxy
        simp only [List.mem_range] at hx hy
        split_ifs at hxy <;> omega
      · intro j hj
        simp only [List.mem_map, List.mem_range] at hj
        obtain ⟨i, hi, rfl⟩ := hj
        split_ifs <;> omega
    · have : n = 0 := by omega
      subst this
      refine ⟨p.init d.getNEntries, DataSet.empty.setObservableNames d.names, [], ?_, rfl, List.nodup_nil, by simp, rfl⟩
      unfold sequentialDraws
      rw [if_neg (by omega), if_neg (by unfold DataSet.getNEntries; omega)]; rfl
  · intro h out
    unfold sequentialDraws; rw [if_pos (show d.getNEntries < n from h)]

/-- C45 is false: drawing all `N ≥ 2` events sequentially considers event 0 never and event 1 twice. -/
theorem C45_drawing_all_wrong (cuts : CutCollection α) (d : DataSet α) (hd : d.WF) (hc : CutsApply cuts d)
    (hN : d.data.length < 2 ^ 31) (h2 : 2 ≤ d.data.length) (p : Pool) (hp : p = Pool.fresh ∨ p = Pool.added) :
    ∃ p' out' js, sequentialDraws cuts d p d.data.length (DataSet.empty.setObservableNames d.names) = .ok (p', out') ∧
      out'.data = selected cuts d js ∧ js.length = d.data.length ∧ 0 ∉ js ∧ js.count 1 = 2 := by
  obtain ⟨p', out', h1, _, h3⟩ := C45_order cuts d hd hc hN h2 p hp _ le_rfl
  refine ⟨p', out', _, h1, h3, by simp, ?_, ?_⟩
  · simp only [List.mem_map, List.mem_range, not_exists, not_and]
    intro i hi h
    split_ifs at h
    omega
  · obtain ⟨m, hm⟩ : ∃ m, d.data.length = m + 2 := ⟨d.data.length - 2, by omega⟩
    rw [hm, List.range_succ, List.range_succ]
    simp only [List.map_append, List.map_cons, List.map_nil, List.count_append]
    rw [if_pos (by omega), if_neg (by omega), show m + 2 - 1 - m = 1 by omega]
    rw [List.count_eq_zero_of_not_mem]
    · rfl
    · simp only [List.mem_map, List.mem_range, not_exists, not_and]
      intro i hi
      split_ifs <;> omega

example : sequentialDraws [] exSet3 Pool.fresh 3 DataSet.empty =
    .ok (⟨[1, 2, 0], 2 ^ 64 - 1⟩, ⟨[[30], [20], [20]], [], 1⟩) := by decide +kernel

/-- C46 is false after sequential draws: after `n` of them (`1 ≤ n < N`) the "remaining" events are
`N-n, 1, 2, …, N-n-1`: the event drawn last is returned again and event 0 is lost. -/
theorem C46_after_sequential_wrong (cuts : CutCollection α) (d : DataSet α) (hd : d.WF) (hc : CutsApply cuts d)
    (hN : d.data.length < 2 ^ 31) (p : Pool) (hp : p = Pool.fresh ∨ p = Pool.added)
    (n : Nat) (h1 : 1 ≤ n) (hn : n < d.data.length) :
    ∃ p' out' js rem, ∃ ks : List Nat, ∃ c,
      sequentialDraws cuts d p n (DataSet.empty.setObservableNames d.names) = .ok (p', out') ∧
      out'.data = selected cuts d js ∧
      allRemaining d p' = .ok (rem, c) ∧ rem.data = ks.filterMap (fun j => d.data[j]?) ∧
      d.data.length - n ∈ js ∧ d.data.length - n ∈ ks ∧ 0 ∉ js ∧ 0 ∉ ks := by
  obtain ⟨out', g1, g2, g3⟩ := sequential_spec cuts d hd hc hN (by omega) p hp n (by omega)
  rw [if_pos hn] at g1
  set N := d.data.length with hNd
  obtain ⟨o, e1, e2, e3⟩ := collect_spec d hd ((List.range N).map (seqIdx N n)) (fun j hj => by
      simp only [List.mem_map, List.mem_range] at hj
      obtain ⟨i, hi, rfl⟩ := hj
      unfold seqIdx; split_ifs <;> omega) (N - n) (by simp) d.names
  refine ⟨_, out', _, o, _, N - n - 1, g1, g3, ?_, e2, ?_, ?_, ?_, ?_⟩
  · have hm : szDec (N - n) = N - n - 1 := by unfold szDec; rw [if_neg (by omega)]
    rw [allRemaining_some d _ (N - n - 1) (by simp only [hm]; rw [if_neg (by unfold notSet; omega)]) (by omega),
        show N - n - 1 + 1 = N - n by omega, e1]; rfl
  · simp only [List.mem_map, List.mem_range]
    exact ⟨n - 1, by omega, by unfold seqDrawn; rw [if_pos (by omega)]; omega⟩
  · rw [← List.map_take, List.take_range, Nat.min_eq_left (by omega)]
    simp only [List.mem_map, List.mem_range]
    exact ⟨0, by omega, by unfold seqIdx; rw [if_pos rfl, if_neg (by omega)]⟩
  · simp only [List.mem_map, List.mem_range, not_exists, not_and]
    intro i hi
    unfold seqDrawn; split_ifs <;> omega
  · rw [← List.map_take, List.take_range, Nat.min_eq_left (by omega)]
    simp only [List.mem_map, List.mem_range, not_exists, not_and]
    intro i hi
    unfold seqIdx; split_ifs <;> omega

example : allRemaining exSet3 ⟨[2, 1, 0], 1⟩ = .ok (⟨[[30], [20]], ["e"], 1⟩, 1) := by decide +kernel

/-- C47 (drawing with replacement): from a new non-empty data set of `N` events any number of draws succeeds (even
more than `N`); a draw with random number `u` considers the event `j` with `j ≤ (N-1)·u < j+1`, always an event of
the data set; those passing the cuts are returned in order. -/
theorem C47_draws_partial (cuts : CutCollection α) (d : DataSet α) (hd : d.WF) (hc : CutsApply cuts d)
    (hN : d.data.length < 2 ^ 31) (h0 : 0 < d.data.length) (p : Pool) (hp : p = Pool.fresh ∨ p = Pool.added)
    (us : List α) (hus : UnitRands us) :
    ∃ p' out' js, replaceDraws cuts d p us (DataSet.empty.setObservableNames d.names) = .ok (p', out') ∧
      out'.names = d.names ∧ out'.data = selected cuts d js ∧
      List.Forall₂ (fun (u : α) (j : Nat) => (j : α) ≤ ((d.data.length - 1 : Nat) : α) * u ∧
        ((d.data.length - 1 : Nat) : α) * u < j + 1 ∧ j < d.data.length) us (js : List Nat) := by
  set N := d.data.length with hNd
  have hinit : p.init d.getNEntries = ⟨List.range N, N - 1⟩ := by
    unfold Pool.init DataSet.getNEntries
    rw [if_pos (by rcases hp with rfl | rfl <;> rfl)]
    unfold szDec; rw [if_neg (by omega)]
  unfold replaceDraws
  rw [if_neg (by unfold DataSet.getNEntries; omega), hinit]
  have key : ∀ (us : List α), UnitRands us → ∀ o : DataSet α, (o.nObs = 0 ∨ o.nObs = d.nObs) → ∃ p' out' js,
      Res.forFold (stepReplace cuts d) (⟨List.range N, N - 1⟩, o) us = .ok (p', out') ∧
      out'.names = o.names ∧ out'.data = o.data ++ selected cuts d js ∧
      List.Forall₂ (fun (u : α) (j : Nat) => (j : α) ≤ ((N - 1 : Nat) : α) * u ∧
        ((N - 1 : Nat) : α) * u < j + 1 ∧ j < N) us js := by
    intro us
    induction us with
    | nil => intro _ o _; exact ⟨_, o, [], rfl, rfl, by simp [selected_nil], .nil⟩
    | cons u us ih =>
      intro hus o ho
      obtain ⟨k, k1, k2, k3, k4, k5⟩ := draw_spec (m := N - 1) (by omega) u (hus u List.mem_cons_self)
      have hkN : k < N := by omega
      obtain ⟨o1, t1, t2, t3, t4⟩ := take_spec cuts d hd hc hkN o ho
      have hstep : stepReplace cuts d (⟨List.range N, N - 1⟩, o) u = .ok (⟨List.range N, N - 1⟩, o1) := by
        unfold stepReplace
        have hfix : Pool.fixMax ⟨List.range N, N - 1⟩ = ⟨List.range N, N - 1⟩ := by
          unfold Pool.fixMax; rw [if_neg (by unfold notSet; simp only; omega)]
        have : idx (List.range N) k = .ok k := by rw [idx_ok]; simp [hkN]
        simp only [hfix, k1, this, Res.ok_bind, t1, Res.pure_eq]
      obtain ⟨p', o2, js, g1, g2, g3, g4⟩ := ih (fun v hv => hus v (List.mem_cons_of_mem _ hv)) o1 t4
      refine ⟨p', o2, k :: js, by rw [Res.forFold_cons_ok hstep, g1], by rw [g2, t2], ?_, .cons ⟨k4, k5, hkN⟩ g4⟩
      rw [g3, t3, List.append_assoc, ← selected_append]; rfl
  obtain ⟨p', out', js, h1, h2, h3, h4⟩ := key us hus (DataSet.empty.setObservableNames d.names) (.inl rfl)
  exact ⟨p', out', js, h1, h2, by rw [h3]; rfl, h4⟩

/-- C47 is false: with at least two events, no random number makes the last event come out, with replacement, nor
without replacement as first draw; every other event does come out for some random number. -/
theorem C47_last_event_never_wrong (N : Nat) (h2 : 2 ≤ N) (hN : N < 2 ^ 31) :
    (∀ u : α, 0 ≤ u ∧ u < 1 → ofInt32 (shoot (toInt32 (N - 1)) u) < N - 1) ∧
    (∀ j, j < N - 1 → ∃ u : α, (0 ≤ u ∧ u < 1) ∧ ofInt32 (shoot (toInt32 (N - 1)) u) = j) := by
  constructor
  · intro u hu
    obtain ⟨k, k1, k2, k3, _⟩ := draw_spec (m := N - 1) (by omega) u hu
    rw [k1]; exact k3 (by omega)
  · intro j hj
    have hpos : (0 : α) < ((N - 1 : Nat) : α) := by exact_mod_cast (by omega : 0 < N - 1)
    have hu : (0 : α) ≤ (j : α) / ((N - 1 : Nat) : α) ∧ (j : α) / ((N - 1 : Nat) : α) < 1 := by
      refine ⟨by positivity, ?_⟩
      rw [div_lt_one hpos]; exact_mod_cast hj
    refine ⟨_, hu, ?_⟩
    obtain ⟨k, k1, k2, k3, k4, k5⟩ := draw_spec (m := N - 1) (by omega) _ hu
    rw [mul_div_cancel₀ _ (ne_of_gt hpos)] at k4 k5
    rw [k1]
    have a : k ≤ j := by exact_mod_cast k4
    have b : j < k + 1 := by exact_mod_cast k5
    omega

/-- C47 is false at the level of the returned data: with replacement and no cuts, the last event's position is never
used, whatever the random numbers. -/
theorem C47_replacement_misses_last_wrong (d : DataSet α) (hd : d.WF) (hN : d.data.length < 2 ^ 31)
    (h2 : 2 ≤ d.data.length) (p : Pool) (hp : p = Pool.fresh ∨ p = Pool.added) (us : List α) (hus : UnitRands us) :
    ∃ p' out', ∃ js : List Nat, replaceDraws [] d p us (DataSet.empty.setObservableNames d.names) = .ok (p', out') ∧
      out'.data = js.filterMap (fun j => d.data[j]?) ∧ js.length = us.length ∧ ∀ j ∈ js, j < d.data.length - 1 := by
  obtain ⟨p', out', js, h1, _, h3, h4⟩ := C47_draws_partial ([] : CutCollection α) d hd (fun r _ c hc => by cases hc) hN (by omega)
    p hp us hus
  refine ⟨p', out', js, h1, ?_, h4.length_eq.symm, ?_⟩
  · rw [h3]; unfold selected
    rw [List.filter_eq_self]; intro r _; rfl
  · intro j hj
    have hpos : (0 : α) < ((d.data.length - 1 : Nat) : α) := by exact_mod_cast (by omega : 0 < d.data.length - 1)
    obtain ⟨i, hi⟩ := List.mem_iff_getElem?.1 hj
    have hil := (List.getElem?_eq_some_iff.1 hi).1
    have hiu : i < us.length := by rw [h4.length_eq]; exact hil
    have hr := (List.forall₂_iff_get.1 h4).2 i hiu hil
    have he : js.get ⟨i, hil⟩ = j := (List.getElem?_eq_some_iff.1 hi).2
    rw [he] at hr
    have hu := (hus _ (List.getElem_mem hiu)).2
    have : (j : α) < ((d.data.length - 1 : Nat) : α) := by
      have := mul_lt_mul_of_pos_left hu hpos
      have h5 := hr.1
      simp only [List.get_eq_getElem] at h5
      linarith
    exact_mod_cast this

example : replaceDraws [] exSet3 Pool.fresh [0, 99/100, 1/2] DataSet.empty =
    .ok (⟨[0, 1, 2], 2⟩, ⟨[[10], [20], [20]], [], 1⟩) := by decide +kernel

end Oxsx
