import Verif.Model.BayesInterval
import Verif.Lemmas.Histogram
import Verif.Props.Histogram
import Verif.Props.Axis
import Mathlib.Tactic.Linarith
import Mathlib.Tactic.FieldSimp
import Mathlib.Tactic.Ring
set_option linter.unusedSectionVars false
set_option linter.unusedSimpArgs false
set_option linter.unusedVariables false
/-
C57: Bayesian upper bounds.
-/
namespace Oxsx
open BayesInterval AxisCollection
variable {α : Type} [Field α] [LinearOrder α] [IsStrictOrderedRing α]

/-- The fraction of the posterior in the first k bins. -/
def fraction (h : Histogram α) (k : Nat) : α := (h.contents.take k).sum / h.contents.sum

theorem fraction_zero (h : Histogram α) : fraction h 0 = 0 := by simp [fraction]

theorem fraction_succ {h : Histogram α} {k : Nat} {x : α} (hx : h.contents[k]? = some x) :
    fraction h (k + 1) = fraction h k + x / h.contents.sum := by
  unfold fraction
  rw [List.take_add_one, hx]
  simp [add_div]

theorem BayesInterval.sumTo_eq {a : BinAxis α} {h : Histogram α} (hv : h.Valid [a]) (k : Nat) :
    sumTo h.normalise k = if k ≤ h.nBins then .ok (fraction h k) else .ub := by
  have hlen : h.contents.length = h.nBins := by rw [hv.len, hv.nb]
  have hint := hv.integral
  unfold sumTo
  induction k with
  | zero => simp [Res.forFold, fraction_zero]
  | succ k ih =>
    rw [List.range_succ, Res.forFold_append, ih]
    by_cases hk : k + 1 ≤ h.nBins
    · rw [if_pos (by omega), if_pos hk]
      have hx := List.getElem?_eq_getElem (l := h.contents) (i := k) (by omega)
      have : h.normalise.getBinContent k = .ok (h.contents[k]'(by omega) / h.contents.sum) := by
        rw [Histogram.getBinContent_ok_iff]
        refine ⟨by show k ≤ h.nBins; omega, ?_⟩
        simp only [Histogram.normalise, List.getElem?_map, hx, hint]; rfl
      simp only [Res.ok_bind, Res.forFold, this]
      rw [fraction_succ hx]
      rfl
    · rw [if_neg hk]
      by_cases hk' : k ≤ h.nBins
      · rw [if_pos hk']
        have : k = h.nBins := by omega
        have hub : h.normalise.getBinContent k = .ub := by
          unfold Histogram.getBinContent
          rw [if_neg (by show ¬ k > h.nBins; omega)]
          unfold idx
          have : h.normalise.contents[k]? = none := by
            rw [List.getElem?_eq_none_iff]; simp only [Histogram.normalise, List.length_map]; omega
          rw [this]
        simp only [Res.ok_bind, Res.forFold, hub]; rfl
      · rw [if_neg hk']; rfl

theorem BayesInterval.critLoop_eq {a : BinAxis α} {h : Histogram α} (hv : h.Valid [a]) {cl : α} : ∀ (n j fuel : Nat), n + j = h.nBins + 1 → n + 1 < fuel →
    (∀ i, i < j → fraction h i < cl) → ∀ s, s < cl →
    (∀ k, k ≤ h.nBins → cl ≤ fraction h k → (∀ i, i < k → fraction h i < cl) → critLoop h.normalise cl fuel j s = .ok (k + 1, fraction h k)) ∧
    ((∀ k, k ≤ h.nBins → fraction h k < cl) → critLoop h.normalise cl fuel j s = .ub) := by
  intro n
  induction n with
  | zero =>
    intro j fuel hj hf hall s hs
    obtain ⟨fuel, rfl⟩ : ∃ f, fuel = f + 1 := ⟨fuel - 1, by omega⟩
    unfold critLoop
    rw [if_pos hs, sumTo_eq hv, if_neg (by omega)]
    refine ⟨fun k hk h1 _ => absurd (hall k (by omega)) (not_lt.2 h1), fun _ => rfl⟩
  | succ n ih =>
    intro j fuel hj hf hall s hs
    obtain ⟨fuel, rfl⟩ : ∃ f, fuel = f + 1 := ⟨fuel - 1, by omega⟩
    unfold critLoop
    rw [if_pos hs, sumTo_eq hv, if_pos (by omega)]
    simp only [Res.ok_bind]
    by_cases hc : fraction h j < cl
    · have hall' : ∀ i, i < j + 1 → fraction h i < cl := by
        intro i hi
        rcases Nat.lt_succ_iff_lt_or_eq.1 hi with h' | h'
        · exact hall i h'
        · rw [h']; exact hc
      obtain ⟨a1, a2⟩ := ih (j + 1) fuel (by omega) (by omega) hall' (fraction h j) hc
      exact ⟨a1, a2⟩
    · obtain ⟨fuel, rfl⟩ : ∃ f, fuel = f + 1 := ⟨fuel - 1, by omega⟩
      have : critLoop h.normalise cl (fuel + 1) (j + 1) (fraction h j) = .ok (j + 1, fraction h j) := by
        unfold critLoop; rw [if_neg hc]
      rw [this]
      refine ⟨fun k hk h1 h2 => ?_, fun hno => absurd (hno j (by omega)) hc⟩
      have : k = j := by
        rcases Nat.lt_trichotomy k j with h' | h' | h'
        · exact absurd (hall k h') (not_lt.2 h1)
        · exact h'
        · exact absurd (h2 j h') hc
      rw [this]

/-- C57, refusals: an empty posterior, a credibility that is not positive, more than one dimension. -/
theorem C57_refused (h : Histogram α) (cl : α) :
    (h.integral = 0 → upperBound h cl = .throw .value) ∧ (cl ≤ 0 → upperBound h cl = .throw .value) ∧
    (h.integral ≠ 0 → 0 < cl → h.nDims ≠ 1 → upperBound h cl = .throw .dimension) := by
  unfold upperBound
  refine ⟨fun h1 => by rw [if_pos h1], fun h1 => ?_, fun h1 h2 h3 => by rw [if_neg h1, if_neg (not_le.2 h2), if_pos h3]⟩
  by_cases h2 : h.integral = 0
  · rw [if_pos h2]
  · rw [if_neg h2, if_pos h1]

/-- What is computed: with k the least number of bins holding the fraction `cl`, the bin used is number k + 1 (counting from 0), the second after
the one in which the fraction is reached (number k - 1). -/
theorem C57_value {a : BinAxis α} {h : Histogram α} (hv : h.Valid [a]) (hI : h.integral ≠ 0) {cl : α} (hcl : 0 < cl) :
    (∀ k, k ≤ a.nBins → cl ≤ fraction h k → (∀ i, i < k → fraction h i < cl) →
      (a.nBins ≤ k + 1 → upperBound h cl = .throw .notFound) ∧
      (∀ lo hi x, a.BinIs (k + 1) lo hi → h.contents[k + 1]? = some x →
        upperBound h cl = .ok ((Fl.div ((hi - lo) * (fraction h k - cl)) (x / h.contents.sum)).map (fun y => hi - y)))) ∧
    ((∀ k, k ≤ a.nBins → fraction h k < cl) → upperBound h cl = .ub) := by
  have hn : h.nBins = a.nBins := by rw [hv.nb]; simp [shape]
  have hd : h.nDims = 1 := by rw [hv.nd]; rfl
  have hv' : h.normalise.Valid [a] := hv.withContents (by simp)
  obtain ⟨c1, c2⟩ := critLoop_eq hv (cl := cl) (h.nBins + 1) 0 (h.nBins + 3) (by omega) (by omega) (fun i hi => by omega) 0 hcl
  have hup : upperBound h cl = (critLoop h.normalise cl (h.nBins + 3) 0 0 >>= fun c =>
    h.normalise.axes.getBinHighEdge c.1 0 >>= fun hi =>
    h.normalise.axes.getBinLowEdge c.1 0 >>= fun lo =>
    h.normalise.getBinContent c.1 >>= fun x =>
    Res.ok ((Fl.div ((hi - lo) * (c.2 - cl)) x).map (fun y => hi - y))) := by
    unfold upperBound
    rw [if_neg hI, if_neg (not_le.2 hcl), if_neg (not_not.2 hd)]
  constructor
  · intro k hk h1 h2
    have hloop := c1 k (by omega) h1 h2
    rw [hup, hloop]
    simp only [Res.ok_bind]
    constructor
    · intro hge
      have : h.normalise.axes.getBinHighEdge (k + 1) 0 = .throw .notFound := by
        unfold AxisCollection.getBinHighEdge AxisCollection.getBinOne
        rw [Res.throwIf_false_of (by rw [hv'.axes.dims]; simp), Res.throwIf_true_of]
        · rfl
        · rw [hv'.axes.total_ne (by simp)]; simpa [shape] using hge
      rw [this]; rfl
    · intro lo hi x hb hx
      have hlt : k + 1 < a.nBins := by
        have := (List.getElem?_eq_some_iff.1 hx).1
        rw [hv.len] at this; simpa [shape] using this
      have edge : ∀ f : BinAxis α → Nat → Res α, h.normalise.axes.getBinOne f (k + 1) 0 = f a (k + 1) := by
        intro f
        obtain ⟨d, hd1, hd2⟩ := hv'.axes.binOne (by simp) (b := k + 1) (by simpa [shape] using hlt) (k := 0) (a := a) rfl f
        have : d = k + 1 := by
          simp only [shape, List.map_cons, List.map_nil, digits] at hd1
          simp at hd1
          rw [← hd1]; exact Nat.mod_eq_of_lt hlt
        rw [hd2, this]
      have hbc : h.normalise.getBinContent (k + 1) = .ok (x / h.contents.sum) := by
        rw [Histogram.getBinContent_ok_iff]
        refine ⟨by show k + 1 ≤ h.nBins; omega, ?_⟩
        simp only [Histogram.normalise, List.getElem?_map, hx, hv.integral]; rfl
      unfold AxisCollection.getBinHighEdge AxisCollection.getBinLowEdge
      rw [edge, edge, hb.1, hb.2, hbc]
      rfl
  · intro hno
    rw [hup, c2 (fun k hk => hno k (by omega))]
    rfl

/-- C57, at least the fraction: for a posterior that does not fall, whatever number is returned has bins below it that together hold at least
the fraction `cl`. -/
theorem C57_enough_partial {a : BinAxis α} (ha : a.Contiguous) {h : Histogram α} (hv : h.Valid [a]) {cl y : α}
    (hpos : ∀ x ∈ h.contents, 0 ≤ x) (hmono : ∀ (i j : Nat) (x x' : α), i ≤ j → h.contents[i]? = some x → h.contents[j]? = some x' → x ≤ x')
    (hy : upperBound h cl = .ok (some y)) :
    ∃ (k : Nat) (lo hi : α), a.BinIs k lo hi ∧ hi ≤ y ∧ cl ≤ fraction h (k + 1) := by
  have hI : h.integral ≠ 0 := fun e => by rw [(C57_refused h cl).1 e] at hy; cases hy
  have hcl : 0 < cl := by
    by_contra e; rw [(C57_refused h cl).2.1 (not_lt.1 e)] at hy; cases hy
  obtain ⟨v1, v2⟩ := C57_value hv hI hcl
  have hsum : 0 < h.contents.sum := by
    rw [hv.integral] at hI
    exact lt_of_le_of_ne (List.sum_nonneg hpos) (Ne.symm hI)
  have hlen : h.contents.length = a.nBins := by rw [hv.len]; simp [shape]
  by_cases hex : ∃ k, k ≤ a.nBins ∧ cl ≤ fraction h k
  swap
  · push Not at hex
    rw [v2 hex] at hy; cases hy
  classical
  obtain ⟨hk1, hk2⟩ := Nat.find_spec hex
  have hmin : ∀ i, i < Nat.find hex → fraction h i < cl := by
    intro i hi
    have := Nat.find_min hex hi
    push Not at this
    exact this (by omega)
  set k := Nat.find hex with hkdef
  obtain ⟨w1, w2⟩ := v1 k hk1 hk2 hmin
  have hlt : k + 1 < a.nBins := by
    by_contra e
    rw [w1 (by omega)] at hy; cases hy
  have hk0 : 0 < k := by
    rcases Nat.eq_zero_or_pos k with e | e
    · rw [e, fraction_zero] at hk2; exact absurd hcl (not_lt.2 hk2)
    · exact e
  obtain ⟨lo, hi, hb, hle, _⟩ := ha.bins (k + 1) hlt
  obtain ⟨lo', hi', hb', hle', _⟩ := ha.bins k (by omega)
  have hcont := ha.contig k hlt
  rw [hb'.2, hb.1] at hcont
  have hcont := Res.ok.inj hcont
  have hx := List.getElem?_eq_getElem (l := h.contents) (i := k + 1) (by omega)
  have hx' := List.getElem?_eq_getElem (l := h.contents) (i := k - 1) (by omega)
  have hxx := hmono (k - 1) (k + 1) _ _ (by omega) hx' hx
  rw [w2 lo hi _ hb hx] at hy
  set x := h.contents[k + 1] with hxd
  set x' := h.contents[k - 1] with hxd'
  refine ⟨k, lo', hi', hb', ?_, ?_⟩
  · unfold Fl.div at hy
    split at hy
    · cases hy
    · rename_i hne
      have hy := Option.some.inj (Res.ok.inj hy)
      have hx0 : 0 ≤ x := hpos _ (List.getElem_mem _)
      have hxp : 0 < x / h.contents.sum := lt_of_le_of_ne (div_nonneg hx0 hsum.le) (Ne.symm hne)
      have hprev : fraction h k = fraction h (k - 1) + x' / h.contents.sum := by
        have := fraction_succ hx'
        rwa [show k - 1 + 1 = k by omega] at this
      have h1 := hmin (k - 1) (by omega)
      have h2 : fraction h k - cl ≤ x / h.contents.sum := by
        have : x' / h.contents.sum ≤ x / h.contents.sum := by gcongr
        linarith
      have h3 : (hi - lo) * (fraction h k - cl) / (x / h.contents.sum) ≤ hi - lo := by
        rw [div_le_iff₀ hxp]
        exact mul_le_mul_of_nonneg_left h2 (by linarith)
      rw [hcont, ← hy]
      linarith
  · have hxk := List.getElem?_eq_getElem (l := h.contents) (i := k) (by omega)
    rw [fraction_succ hxk]
    have : 0 ≤ h.contents[k] / h.contents.sum := div_nonneg (hpos _ (List.getElem_mem _)) hsum.le
    linarith

/-- C57, false: for every flat posterior (any number n of equal bins on [mn, mx], any content c) the bound is two bin widths above the value
`mn + cl * (mx - mn)` below which the fraction `cl` lies; or it cannot be computed at all, if that value is in one of the last two bins. -/
theorem C57_flat_wrong {nm lx : String} {mn mx c cl : α} {n : Nat} {a : BinAxis α} (ha : BinAxis.mkEqual nm mn mx n lx = .ok a) {h : Histogram α}
    (hv : h.Valid [a]) (hc : h.contents = List.replicate n c) (hc0 : c ≠ 0) (hcl : 0 < cl) (hcl1 : cl ≤ 1) :
    (cl * n ≤ n - 2 → upperBound h cl = .ok (some (mn + cl * (mx - mn) + 2 * ((mx - mn) / n)))) ∧
    ((n : α) - 2 < cl * n → upperBound h cl = .throw .notFound) := by
  obtain ⟨_, e2, e3, e4, e5, e6, e7, e8, e9⟩ := C01_equalAxis_tiles nm lx mn mx n a ha
  obtain ⟨hlt, hn⟩ := ((C01_equalAxis_accepts nm lx mn mx n).1).1 ⟨a, ha⟩
  have hnα : (0 : α) < n := by exact_mod_cast hn
  have hsum : h.contents.sum = n * c := by rw [hc, List.sum_replicate, nsmul_eq_mul]
  have hfr : ∀ k, k ≤ n → fraction h k = k / n := by
    intro k hk
    unfold fraction
    rw [hsum, hc, List.take_replicate, List.sum_replicate, nsmul_eq_mul, Nat.min_eq_left hk]
    field_simp
  have hI : h.integral ≠ 0 := by rw [hv.integral, hsum]; exact mul_ne_zero hnα.ne' hc0
  obtain ⟨v1, _⟩ := C57_value hv hI hcl
  have hex : ∃ k, k ≤ n ∧ cl ≤ fraction h k := ⟨n, le_refl _, by rw [hfr n (le_refl _), div_self hnα.ne']; exact hcl1⟩
  classical
  obtain ⟨hk1, hk2⟩ := Nat.find_spec hex
  have hmin : ∀ i, i < Nat.find hex → fraction h i < cl := by
    intro i hi
    have := Nat.find_min hex hi
    push Not at this
    exact this (by omega)
  set k := Nat.find hex with hkdef
  rw [e4] at v1
  obtain ⟨w1, w2⟩ := v1 k hk1 hk2 hmin
  rw [hfr k hk1, le_div_iff₀ hnα] at hk2
  have hk0 : 0 < k := by
    rcases Nat.eq_zero_or_pos k with e | e
    · rw [e] at hk2; simp only [Nat.cast_zero] at hk2
      exact absurd (mul_pos hcl hnα) (not_lt.2 hk2)
    · exact e
  have hkm := hmin (k - 1) (by omega)
  rw [hfr (k - 1) (by omega), div_lt_iff₀ hnα, Nat.cast_sub hk0, Nat.cast_one] at hkm
  constructor
  · intro hle
    have hk3 : k + 1 < n := by
      have : (k : α) < n - 1 := by linarith
      have : (k : α) + 1 < n := by linarith
      exact_mod_cast this
    have low : ∀ i, i < n → a.getBinLowEdge i = .ok (mn + i * ((mx - mn) / n)) := by
      intro i
      induction i with
      | zero => intro _; rw [e5]; simp
      | succ i ih =>
        intro hi
        obtain ⟨lo, hi', b1, b2, b3, _⟩ := e8 i (by omega)
        rw [← e7 i hi, b2]
        rw [ih (by omega)] at b1
        have b1 := Res.ok.inj b1
        congr 1
        push_cast
        linarith
    obtain ⟨lo, hi, b1, b2, b3, _⟩ := e8 (k + 1) hk3
    have hlo := low (k + 1) hk3
    rw [b1] at hlo
    have hlo := Res.ok.inj hlo
    rw [w2 lo hi c ⟨b1, b2⟩ (by rw [hc, List.getElem?_replicate, if_pos hk3]), hfr k hk1, hsum]
    unfold Fl.div
    rw [if_neg (div_ne_zero hc0 (mul_ne_zero hnα.ne' hc0))]
    simp only [Option.map_some]
    congr 2
    rw [b3]
    have : hi = mn + (k + 2) * ((mx - mn) / n) := by
      push_cast at hlo; linarith
    rw [this]
    have hn0 := hnα.ne'
    field_simp
    ring
  · intro hgt
    apply w1
    have : (n : α) < k + 2 := by linarith
    have : n < k + 2 := by exact_mod_cast this
    omega

/-- C57, counting experiment: whatever the function `F`, a limit returned is a whole number of tolerances, the first one at which `F` is within the
tolerance of `cl` (`F 0` counted as 0). -/
theorem C57_counts_returned (F : α → α) (h0 : F 0 = 0) {cl tol : α} {fuel : Nat} {y : α} (h : upperBoundCounts F cl tol fuel = some y) :
    ∃ k : Nat, y = k * tol ∧ |F y - cl| ≤ tol ∧ ∀ i : Nat, i < k → tol < |F (i * tol) - cl| := by
  unfold upperBoundCounts at h
  have gen : ∀ fuel (j : Nat), (∀ i : Nat, i < j → tol < |F (i * tol) - cl|) → limitLoop F cl tol fuel (j * tol) (F (j * tol)) = some y →
      ∃ k : Nat, y = k * tol ∧ |F y - cl| ≤ tol ∧ ∀ i : Nat, i < k → tol < |F (i * tol) - cl| := by
    intro fuel
    induction fuel with
    | zero => intro j _ h; cases h
    | succ fuel ih =>
      intro j hj h
      unfold limitLoop at h
      split at h
      · rename_i hc
        have e : (j : α) * tol + tol = ((j + 1 : Nat) : α) * tol := by push_cast; ring
        rw [e] at h
        refine ih (j + 1) ?_ h
        intro i hi
        rcases Nat.lt_succ_iff_lt_or_eq.1 hi with h' | h'
        · exact hj i h'
        · rw [h']; exact hc
      · rename_i hc
        cases h
        exact ⟨j, rfl, not_lt.1 hc, hj⟩
  refine gen fuel 0 (fun i hi => by omega) ?_
  simpa [h0] using h

/-- C57, counting experiment: the search ends if `F` starts at 0, rises by at most two tolerances per tolerance, and comes within a tolerance of
`cl` from below at some multiple of the tolerance. -/
theorem C57_counts_terminates (F : α → α) (h0 : F 0 = 0) {cl tol : α} (hcl : 0 ≤ cl)
    (hstep : ∀ i : Nat, F ((i + 1 : Nat) * tol) - F (i * tol) ≤ 2 * tol) (hreach : ∃ k : Nat, cl - tol ≤ F (k * tol)) :
    ∃ fuel y, upperBoundCounts F cl tol fuel = some y := by
  classical
  have hk := Nat.find_spec hreach
  set k := Nat.find hreach with hkd
  have hmin : ∀ i, i < k → F (i * tol) < cl - tol := fun i hi => not_le.1 (Nat.find_min hreach hi)
  have hgood : |F (k * tol) - cl| ≤ tol := by
    rw [abs_le]
    refine ⟨by linarith, ?_⟩
    rcases Nat.eq_zero_or_pos k with e | e
    · rw [e] at hk ⊢
      simp only [Nat.cast_zero, zero_mul, h0] at hk ⊢
      linarith
    · obtain ⟨j, hj⟩ : ∃ j, k = j + 1 := ⟨k - 1, by omega⟩
      have h1 := hmin j (by omega)
      have h2 := hstep j
      rw [hj]
      linarith
  have gen : ∀ n j : Nat, j + n = k → limitLoop F cl tol (n + 1) (j * tol) (F (j * tol)) = some (k * tol) := by
    intro n
    induction n with
    | zero =>
      intro j hj
      have : j = k := by omega
      unfold limitLoop
      rw [this, if_neg (not_lt.2 hgood)]
    | succ n ih =>
      intro j hj
      unfold limitLoop
      have h1 := hmin j (by omega)
      have : tol < |F (j * tol) - cl| := lt_of_lt_of_le (by linarith) (neg_le_abs _)
      rw [if_pos this]
      have e : (j : α) * tol + tol = ((j + 1 : Nat) : α) * tol := by push_cast; ring
      rw [e]
      exact ih (j + 1) (by omega)
  refine ⟨k + 1, k * tol, ?_⟩
  have := gen k 0 (by omega)
  simpa [upperBoundCounts, h0] using this

/-! Concrete cases. -/

/-- Four bins on [0, 4]. -/
def postAxis : BinAxis ℚ := ⟨"x", "x", 4, 0, 4, [0, 1, 2, 3], [1, 2, 3, 4], [1 / 2, 3 / 2, 5 / 2, 7 / 2], [1, 1, 1, 1]⟩

def postHist (cs : List ℚ) : Histogram ℚ := ⟨⟨[postAxis], ["x"], [4], 4, 1⟩, cs, 4, 1⟩

theorem postHist_valid (cs : List ℚ) (h : cs.length = 4) : (postHist cs).Valid [postAxis] := by
  refine ⟨⟨rfl, rfl, rfl, rfl, by simp [shape]; rfl, by simp⟩, by simp, rfl, rfl, h⟩

/-- A rising posterior: 1/10 of it in the first bin, 1/5 in the second; the fraction 1/4 is reached in the second, the bound is in the last. -/
example : BinAxis.mkEqual "x" (0 : ℚ) 4 4 "x" = .ok postAxis ∧ upperBound (postHist [1, 2, 3, 4]) (1 / 4) = .ok (some (31 / 8)) ∧
    (∀ x ∈ (postHist [1, 2, 3, 4]).contents, 0 ≤ x) := by decide +kernel

example : upperBound (postHist [1, 1, 1, 1]) (1 / 2) = .ok (some 4) ∧ upperBound (postHist [1, 1, 1, 1]) (3 / 4) = .throw .notFound := by
  decide +kernel

/-- C57, false also for the lower side: a falling posterior on [0, 4], nearly all of it in the first bin, gets the bound -983/2, below the whole
axis; and the bound is not a number when the bin used is empty. -/
theorem C57_falling_wrong : upperBound (postHist [1000, 10, 1, 0]) (1 / 2) = .ok (some (-983 / 2)) ∧
    upperBound (postHist [8, 1, 0, 1]) (1 / 2) = .ok none := by decide +kernel

example : ∃ F : ℚ → ℚ, F 0 = 0 ∧ (∀ i : Nat, F ((i + 1 : Nat) * (1 / 10)) - F (i * (1 / 10)) ≤ 2 * (1 / 10)) ∧ (∃ k : Nat, 9 / 10 - 1 / 10 ≤ F (k * (1 / 10))) ∧
    upperBoundCounts F (9 / 10) (1 / 10) 20 = some (4 / 5) :=
  ⟨fun x => x, rfl, fun i => by push_cast; linarith, ⟨8, by norm_num⟩, by decide +kernel⟩

end Oxsx
