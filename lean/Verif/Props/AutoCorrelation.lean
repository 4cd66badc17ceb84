import Verif.Model.AutoCorrelation
import Verif.Spec.AutoCorrelation
import Verif.Lemmas.Basic
import Verif.Lemmas.Parameters
import Mathlib.Data.Rat.Floor
/-
C65: the autocorrelation calculator.
-/
set_option linter.unusedSectionVars false
set_option linter.unusedSimpArgs false
set_option linter.unusedVariables false
namespace Oxsx
variable {α : Type} [Field α] [LinearOrder α]

/-- Filling the values of a history one after the other. -/
def AutoCorr.fillAll (a : AutoCorr α) (h : List α) : Res (AutoCorr α) := Res.forFold AutoCorr.fill a h

/-- What the calculator holds after a history. -/
structure AutoCorr.After (q : Nat) (h : List α) (a : AutoCorr α) : Prop where
  qlen : a.qLen = q
  values : a.values = h.drop (h.length - q)
  dlen : a.diffs.length = q
  nlen : a.norms.length = q
  diffs : ∀ i, i < q → a.diffs[i]? = some (Spec.lagSum q h i)
  norms : ∀ i, i < q → a.norms[i]? = some (Spec.lagNorm q h i)

theorem AutoCorr.after_nil (q : Nat) : AutoCorr.After q ([] : List α) (AutoCorr.new q) := by
  refine ⟨rfl, by simp [AutoCorr.new], by simp [AutoCorr.new], by simp [AutoCorr.new], ?_, ?_⟩ <;>
  · intro i hi
    simp [AutoCorr.new, hi, Spec.lagSum, Spec.lagNorm]

theorem Spec.recentMean_append (q : Nat) (h : List α) (v : α) {t : Nat} (ht : t < h.length) :
    Spec.recentMean q (h ++ [v]) t = Spec.recentMean q h t := by
  unfold Spec.recentMean Spec.recent
  rw [List.take_append_of_le_length (by omega)]

theorem Spec.lagSum_append (q : Nat) (h : List α) (v : α) (i : Nat) :
    Spec.lagSum q (h ++ [v]) i = Spec.lagSum q h i +
      (if i ≤ h.length then (v - Spec.recentMean q (h ++ [v]) h.length) * ((h ++ [v]).getD (h.length - i) 0 - Spec.recentMean q (h ++ [v]) h.length) else 0) := by
  unfold Spec.lagSum
  rw [List.length_append, List.length_singleton, List.range_succ, List.map_append, List.sum_append]
  congr 1
  · congr 1
    apply List.map_congr_left
    intro t ht
    have ht := List.mem_range.1 ht
    rw [Spec.recentMean_append q h v ht]
    simp only [List.getD_eq_getElem?_getD]
    rw [List.getElem?_append_left ht, List.getElem?_append_left (by omega)]
  · simp

theorem Spec.lagNorm_append (q : Nat) (h : List α) (v : α) (i : Nat) :
    Spec.lagNorm q (h ++ [v]) i = Spec.lagNorm q h i +
      (if i ≤ h.length then (v - Spec.recentMean q (h ++ [v]) h.length) * (v - Spec.recentMean q (h ++ [v]) h.length) else 0) := by
  unfold Spec.lagNorm
  rw [List.length_append, List.length_singleton, List.range_succ, List.map_append, List.sum_append]
  congr 1
  · congr 1
    apply List.map_congr_left
    intro t ht
    have ht := List.mem_range.1 ht
    rw [Spec.recentMean_append q h v ht]
    simp only [List.getD_eq_getElem?_getD]
    rw [List.getElem?_append_left ht]
  · simp

theorem AutoCorr.push_values {q : Nat} (hq : 0 < q) {h : List α} {a : AutoCorr α} (ha : AutoCorr.After q h a) (v : α) :
    (a.push v).values = (h ++ [v]).drop (h.length + 1 - q) := by
  unfold AutoCorr.push
  rw [ha.values, ha.qlen]
  simp only [List.length_append, List.length_drop, List.length_singleton]
  split
  · rename_i hgt
    rw [← List.drop_one, List.drop_append_of_le_length (by simp; omega), List.drop_drop, List.drop_append_of_le_length (by omega)]
    congr 2; omega
  · rename_i hgt
    have : h.length + 1 - q = 0 := by omega
    have h2 : h.length - q = 0 := by omega
    rw [this, h2]; simp

theorem AutoCorr.fill_after {q : Nat} (hq : 0 < q) {h : List α} {a : AutoCorr α} (ha : AutoCorr.After q h a) (v : α) :
    ∃ b, a.fill v = .ok b ∧ AutoCorr.After q (h ++ [v]) b := by
  have hv := AutoCorr.push_values hq ha v
  have hlen : (a.push v).values.length = min q (h.length + 1) := by rw [hv]; simp; omega
  have hlast : (a.push v).values.getLast? = some v := by
    rw [hv, List.getLast?_drop]; simp; omega
  have hmean : (a.push v).mean = Spec.recentMean q (h ++ [v]) h.length := by
    unfold AutoCorr.mean Spec.recentMean Spec.recent
    rw [hv, List.take_of_length_le (by simp)]
  have hold : ∀ i, i < min q (h.length + 1) → (a.push v).values.reverse[i]? = some ((h ++ [v]).getD (h.length - i) 0) := by
    intro i hi
    rw [List.getElem?_reverse (by rw [hlen]; exact hi), hlen, hv, List.getElem?_drop]
    have : h.length + 1 - q + (min q (h.length + 1) - 1 - i) = h.length - i := by omega
    rw [this, List.getD_eq_getElem?_getD]
    have : h.length - i < (h ++ [v]).length := by simp; omega
    rw [List.getElem?_eq_getElem this]; rfl
  unfold AutoCorr.fill
  simp only [hlast]
  rw [hlen]
  set m := (a.push v).mean with hm
  obtain ⟨b, hb, hP⟩ := Res.forFold_range (f := AutoCorr.lagStep m v) (n := min q (h.length + 1)) (s := a.push v)
    (fun k b => b.qLen = q ∧ b.values = (a.push v).values ∧ b.diffs.length = q ∧ b.norms.length = q ∧
      (∀ i, i < q → b.diffs[i]? = some (if i < k then Spec.lagSum q (h ++ [v]) i else Spec.lagSum q h i)) ∧
      (∀ i, i < q → b.norms[i]? = some (if i < k then Spec.lagNorm q (h ++ [v]) i else Spec.lagNorm q h i)))
    ⟨ha.qlen, rfl, ha.dlen, ha.nlen, by intro i hi; simpa [AutoCorr.push] using ha.diffs i hi, by intro i hi; simpa [AutoCorr.push] using ha.norms i hi⟩
    (by
      rintro k b hk ⟨h1, h2, h3, h4, h5, h6⟩
      have hkq : k < q := by omega
      unfold AutoCorr.lagStep
      rw [h2]
      have e1 : idx (a.push v).values.reverse k = .ok ((h ++ [v]).getD (h.length - k) 0) := by
        unfold idx; rw [hold k hk]
      have e2 := h5 k hkq
      have e3 := h6 k hkq
      rw [if_neg (by omega)] at e2 e3
      refine ⟨{ b with diffs := b.diffs.set k (Spec.lagSum q (h ++ [v]) k), norms := b.norms.set k (Spec.lagNorm q (h ++ [v]) k) }, ?_, h1, h2, by simpa using h3, by simpa using h4, ?_, ?_⟩
      · rw [e1]
        simp only [Res.ok_bind]
        unfold idx setIdx
        rw [e2, e3]
        simp only [Res.ok_bind]
        rw [if_pos (by omega)]
        simp only [Res.ok_bind]
        rw [if_pos (by omega)]
        simp only [Res.ok_bind]
        rw [Spec.lagSum_append, Spec.lagNorm_append, if_pos (by omega), if_pos (by omega), hmean]
        rw [h2]; rfl
      · intro i hi
        simp only
        by_cases hik : k = i
        · subst hik
          rw [List.getElem?_set_self (by omega), if_pos (by omega)]
        · rw [List.getElem?_set_ne hik, h5 i hi]
          by_cases hlt : i < k
          · rw [if_pos hlt, if_pos (by omega)]
          · rw [if_neg hlt, if_neg (by omega)]
      · intro i hi
        simp only
        by_cases hik : k = i
        · subst hik
          rw [List.getElem?_set_self (by omega), if_pos (by omega)]
        · rw [List.getElem?_set_ne hik, h6 i hi]
          by_cases hlt : i < k
          · rw [if_pos hlt, if_pos (by omega)]
          · rw [if_neg hlt, if_neg (by omega)])
  refine ⟨b, hb, hP.1, ?_, hP.2.2.1, hP.2.2.2.1, ?_, ?_⟩
  · rw [hP.2.1, hv]; simp
  · intro i hi
    rw [hP.2.2.2.2.1 i hi]
    split
    · rfl
    · rw [Spec.lagSum_append, if_neg (by omega), add_zero]
  · intro i hi
    rw [hP.2.2.2.2.2 i hi]
    split
    · rfl
    · rw [Spec.lagNorm_append, if_neg (by omega), add_zero]

theorem AutoCorr.fillAll_after {q : Nat} (hq : 0 < q) (h : List α) {g : List α} {a : AutoCorr α} (ha : AutoCorr.After q g a) :
    ∃ b, a.fillAll h = .ok b ∧ AutoCorr.After q (g ++ h) b := by
  induction h generalizing g a with
  | nil => exact ⟨a, rfl, by simpa using ha⟩
  | cons v h ih =>
    obtain ⟨b, h1, h2⟩ := AutoCorr.fill_after hq ha v
    obtain ⟨c, h3, h4⟩ := ih h2
    refine ⟨c, Res.forFold_cons_eq_ok.2 ⟨b, h1, h3⟩, ?_⟩
    simpa using h4

/-- C65, the window: whatever values are filled, the calculator holds exactly the last `q` of them (all of them if there are fewer). -/
theorem C65_window {q : Nat} (hq : 0 < q) (h : List α) :
    ∃ a, (AutoCorr.new q : AutoCorr α).fillAll h = .ok a ∧ a.values = h.drop (h.length - q) ∧ a.values.length = min q h.length := by
  obtain ⟨a, h1, h2⟩ := AutoCorr.fillAll_after hq h (AutoCorr.after_nil q)
  refine ⟨a, h1, by simpa using h2.values, ?_⟩
  rw [h2.values]; simp; omega

/-- C65, the estimates: the calculator reports one number per lag below `q`; for lag `i` it is the quotient of the sums over exactly the
pairs of values `i` steps apart (not finite if the second sum is zero, in particular while there are no such pairs). -/
theorem C65_lags {q : Nat} (hq : 0 < q) (h : List α) :
    ∃ a g, (AutoCorr.new q : AutoCorr α).fillAll h = .ok a ∧ a.get = .ok g ∧ g.length = q ∧
      ∀ i, i < q → g[i]? = some (Fl.div (Spec.lagSum q h i) (Spec.lagNorm q h i)) := by
  obtain ⟨a, h1, h2⟩ := AutoCorr.fillAll_after hq h (AutoCorr.after_nil q)
  simp only [List.nil_append] at h2
  have key : a.get = .ok ((List.range q).map (fun i => Fl.div (Spec.lagSum q h i) (Spec.lagNorm q h i))) := by
    unfold AutoCorr.get
    rw [h2.dlen]
    apply Res.traverse_ok
    intro i hi
    have hi := List.mem_range.1 hi
    unfold idx
    rw [h2.diffs i hi, h2.norms i hi]; rfl
  refine ⟨a, _, h1, key, by simp, ?_⟩
  intro i hi
  simp [hi]

/-- C65: a value of lag 0 is 1 as soon as any value differs from the mean at its time. -/
theorem C65_lag_zero {q : Nat} (hq : 0 < q) (h : List α) (hn : Spec.lagNorm q h 0 ≠ 0) :
    ∃ a g, (AutoCorr.new q : AutoCorr α).fillAll h = .ok a ∧ a.get = .ok g ∧ g[0]? = some (some 1) := by
  obtain ⟨a, g, h1, h2, _, h4⟩ := C65_lags hq h
  refine ⟨a, g, h1, h2, ?_⟩
  rw [h4 0 hq]
  have : Spec.lagSum q h 0 = Spec.lagNorm q h 0 := by unfold Spec.lagSum Spec.lagNorm; simp
  rw [this]; unfold Fl.div; rw [if_neg hn, div_self hn]

/-- C65: clearing after any history gives a new calculator of the same length. -/
theorem C65_clear {q : Nat} (hq : 0 < q) (h : List α) :
    ∃ a, (AutoCorr.new q : AutoCorr α).fillAll h = .ok a ∧ a.clear = AutoCorr.new q := by
  obtain ⟨a, h1, h2⟩ := AutoCorr.fillAll_after hq h (AutoCorr.after_nil q)
  exact ⟨a, h1, by unfold AutoCorr.clear AutoCorr.new; rw [h2.qlen]⟩

/-- A calculator of length 0 has undefined behaviour on the first value. -/
theorem C65_zero_length_wrong (v : α) : (AutoCorr.new 0 : AutoCorr α).fill v = .ub := by
  simp [AutoCorr.fill, AutoCorr.push, AutoCorr.new]

/-- The variance method truncates: four values 1/2 -1/2 1/2 -1/2 have the "variance" 0. -/
theorem C65_var_wrong : ∃ a : AutoCorr ℚ, (AutoCorr.new 4).fillAll [1/2, -1/2, 1/2, -1/2] = .ok a ∧ a.var = 0 := by
  have hw : ((AutoCorr.new 4 : AutoCorr ℚ).fillAll [1/2, -1/2, 1/2, -1/2] >>= fun a => Res.ok a.var) = .ok 0 := by decide +kernel
  obtain ⟨a, h, hw⟩ := Res.bind_eq_ok.1 hw
  exact ⟨a, h, Res.ok.inj hw⟩

theorem AutoCorr.trunc_sum [FloorRing α] [IsStrictOrderedRing α] (l : List α) (s : Int) (hs : 0 ≤ s) :
    ∃ t : Int, l.foldl (fun (s : Int) x => AutoCorr.trunc ((s : α) + x * x)) s = t ∧ 0 ≤ t ∧ (t : α) ≤ s + (l.map (fun x => x * x)).sum ∧
      (s : α) + (l.map (fun x => x * x)).sum ≤ t + l.length ∧ (l ≠ [] → (s : α) + (l.map (fun x => x * x)).sum < t + l.length) ∧
      ((∀ x ∈ l, ∃ k : Int, x = k) → (t : α) = s + (l.map (fun x => x * x)).sum) := by
  induction l generalizing s with
  | nil => exact ⟨s, rfl, hs, by simp, by simp, fun h => absurd rfl h, by simp⟩
  | cons x xs ih =>
    have hp : (0 : α) ≤ (s : α) + x * x := add_nonneg (by exact_mod_cast hs) (mul_self_nonneg x)
    have ht : AutoCorr.trunc ((s : α) + x * x) = ⌊(s : α) + x * x⌋ := by unfold AutoCorr.trunc; rw [if_pos hp]
    obtain ⟨t, h1, h2, h3, h4, h5, h6⟩ := ih (AutoCorr.trunc ((s : α) + x * x)) (by rw [ht]; exact Int.floor_nonneg.2 hp)
    rw [ht] at h3 h4 h5 h6
    have f1 := Int.floor_le ((s : α) + x * x)
    have f2 := Int.lt_floor_add_one ((s : α) + x * x)
    refine ⟨t, by rw [List.foldl_cons]; exact h1, h2, ?_, ?_, fun _ => ?_, fun hk => ?_⟩
    · simp only [List.map_cons, List.sum_cons]; linarith
    · simp only [List.map_cons, List.sum_cons, List.length_cons]; push_cast; linarith
    · simp only [List.map_cons, List.sum_cons, List.length_cons]; push_cast; linarith
    · rw [h6 (fun y hy => hk y (List.mem_cons_of_mem _ hy))]
      obtain ⟨k, rfl⟩ := hk x List.mem_cons_self
      have : ((⌊(s : α) + (k : α) * k⌋ : Int) : α) = s + (k : α) * k := by
        have : (s : α) + (k : α) * k = ((s + k * k : Int) : α) := by push_cast; rfl
        rw [this, Int.floor_intCast]
      rw [this]; simp only [List.map_cons, List.sum_cons]; ring

/-- C65, the variance method over any history: it reports S minus the square of the mean of the window, where the integer S lies within one unit per value of the
window below the sum of the squares and is that sum if the values are integers; in no case is the sum divided by the number of values, as a variance
would be. -/
theorem C65_var_partial [FloorRing α] [IsStrictOrderedRing α] {q : Nat} (hq : 0 < q) (h : List α) (hne : h ≠ []) :
    ∃ a, ∃ S : Int, (AutoCorr.new q : AutoCorr α).fillAll h = .ok a ∧
      a.var = S - ((h.drop (h.length - q)).sum / (min q h.length : Nat)) ^ 2 ∧
      (S : α) ≤ ((h.drop (h.length - q)).map (fun x => x * x)).sum ∧
      ((h.drop (h.length - q)).map (fun x => x * x)).sum < S + (min q h.length : Nat) ∧
      ((∀ x ∈ h.drop (h.length - q), ∃ k : Int, x = k) → (S : α) = ((h.drop (h.length - q)).map (fun x => x * x)).sum) := by
  obtain ⟨a, h1, h2, h3⟩ := C65_window hq h
  obtain ⟨t, g1, g2, g3, g4, g5, g6⟩ := AutoCorr.trunc_sum a.values 0 (le_refl 0)
  have hl : 0 < h.length := List.length_pos_of_ne_nil hne
  have hv : a.values ≠ [] := by intro e; rw [e] at h3; simp at h3; omega
  refine ⟨a, t, h1, ?_, ?_, ?_, ?_⟩
  · unfold AutoCorr.var AutoCorr.mean
    rw [g1, h3, h2, sq]
  · rw [← h2]; simpa using g3
  · rw [← h2, ← h3]; simpa using g5 hv
  · rw [← h2]; simpa using g6

example : ((AutoCorr.new 3 : AutoCorr ℚ).fillAll [1, 3, 2, 5, 4] >>= fun a => Res.ok a.var) = .ok (45 - (11 / 3) ^ 2) := by decide +kernel

/-- Non-vacuity of C65: five values with a window of three. -/
example : ((AutoCorr.new 3 : AutoCorr ℚ).fillAll [1, 3, 2, 5, 4] >>= fun a => a.get >>= fun g => Res.ok (a.values, g)) =
    .ok ([2, 5, 4], [some 1, some (-5/7), some (-5/13)]) := by decide +kernel

example : Spec.lagNorm 3 ([1, 3, 2, 5, 4] : List ℚ) 0 ≠ 0 := by decide +kernel

end Oxsx
