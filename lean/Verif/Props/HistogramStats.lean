import Verif.Props.Histogram
/-
Properties C13 (range integral) and C14 (means and variances).
-/
set_option linter.unusedSectionVars false
set_option linter.unusedSimpArgs false
set_option linter.unusedVariables false
namespace Oxsx
open AxisCollection Histogram
variable {α : Type} [Field α] [LinearOrder α] [IsStrictOrderedRing α]

/-! ### C13 -/

/-- C13: range integral of a one-dimensional histogram over a contiguous axis `a`. -/
theorem C13_range_integral (a : BinAxis α) (h : Histogram α) (hv : h.Valid [a]) (hc : a.Contiguous)
    (lo hi : α) :
    (hi ≤ lo → h.integralRange lo hi = .ok 0) ∧
    (lo < hi → h.integralRange lo hi = .ok
      (((List.range h.nBins).filter (fun b => decide (a.findBin lo ≤ b ∧ b ≤ a.findBin hi))).map
        (fun b => h.contents.getD b 0)).sum) ∧
    (lo < a.min → a.max ≤ hi → h.integralRange lo hi = .ok h.integral) := by
  have hnd : h.nDims = 1 := by rw [hv.nd]; rfl
  have hnb : h.nBins = a.nBins := by rw [hv.nb]; simp [shape]
  have hlen : h.contents.length = h.nBins := by rw [hv.len, hv.nb]
  have hf : ∀ v, h.findBin1 v = .ok (a.findBin v) := by
    intro v
    unfold findBin1 AxisCollection.getAxis
    rw [Res.throwIf_false_of (by omega), hv.axes.axes]
    rfl
  have key : lo < hi → h.integralRange lo hi = .ok
      (((List.range h.nBins).filter (fun b => decide (a.findBin lo ≤ b ∧ b ≤ a.findBin hi))).map
        (fun b => h.contents.getD b 0)).sum := by
    intro hlt
    unfold integralRange
    rw [Res.throwIf_false_of (by omega)]
    simp only [Res.ok_bind]
    rw [if_neg (not_le.2 hlt), hf, hf]
    simp only [Res.ok_bind]
    have hmono := C03_findBin_mono a hc lo hi hlt.le
    have hhi := (hc.findBin_spec hi).1
    set l := a.findBin lo
    set u := a.findBin hi
    have := Res.forFold_pure (l := List.range' l (u + 1 - l)) (s := (0 : α))
      (f := fun sum i => (do
        let x ← idx h.contents i
        pure (sum + x) : Res α))
      (g := fun sum i => sum + h.contents.getD i 0) (by
        intro s i hi'
        have : i < h.contents.length := by
          rw [List.mem_range'_1] at hi'; omega
        rw [idx_of_lt this]; simp [List.getD, this])
    rw [this]
    congr 1
    have e1 : List.filter (fun b => decide (l ≤ b ∧ b ≤ u)) (List.range h.nBins)
        = List.range' l (u + 1 - l) := by
      have hr : List.range h.nBins = List.range' 0 l ++ (List.range' l (u + 1 - l)
          ++ List.range' (u + 1) (h.nBins - (u + 1))) := by
        rw [List.range_eq_range']
        have e2 : List.range' l (u + 1 - l) ++ List.range' (u + 1) (h.nBins - (u + 1))
            = List.range' l (h.nBins - l) := by
          have := List.range'_append_1 (s := l) (m := u + 1 - l) (n := h.nBins - (u + 1))
          rw [show l + (u + 1 - l) = u + 1 by omega,
            show u + 1 - l + (h.nBins - (u + 1)) = h.nBins - l by omega] at this
          exact this
        rw [e2]
        have := List.range'_append_1 (s := 0) (m := l) (n := h.nBins - l)
        rw [show 0 + l = l by omega, show l + (h.nBins - l) = h.nBins by omega] at this
        exact this.symm
      rw [hr, List.filter_append, List.filter_append]
      have f1 : List.filter (fun b => decide (l ≤ b ∧ b ≤ u)) (List.range' 0 l) = [] := by
        rw [List.filter_eq_nil_iff]; intro b hb; rw [List.mem_range'_1] at hb; simp; omega
      have f2 : List.filter (fun b => decide (l ≤ b ∧ b ≤ u)) (List.range' l (u + 1 - l))
          = List.range' l (u + 1 - l) := by
        rw [List.filter_eq_self]; intro b hb; rw [List.mem_range'_1] at hb; simp; omega
      have f3 : List.filter (fun b => decide (l ≤ b ∧ b ≤ u))
          (List.range' (u + 1) (h.nBins - (u + 1))) = [] := by
        rw [List.filter_eq_nil_iff]; intro b hb; rw [List.mem_range'_1] at hb; simp; omega
      rw [f1, f2, f3]; simp
    rw [e1]
    have e3 : ∀ (l : List Nat) (f : Nat → α) (s : α),
        l.foldl (fun a i => a + f i) s = s + (l.map f).sum := by
      intro l f
      induction l with
      | nil => simp
      | cons x l ih => intro s; simp [ih, add_assoc]
    rw [e3]; simp
  refine ⟨?_, key, ?_⟩
  · intro hle
    unfold integralRange
    rw [Res.throwIf_false_of (by omega)]
    simp only [Res.ok_bind]
    rw [if_pos hle]; rfl
  · intro h1 h2
    have hmm : a.min ≤ a.max := by
      obtain ⟨l0, h0, hb0, hle0, _⟩ := hc.bins 0 hc.pos
      have e := hb0.1; rw [hc.first] at e; cases e
      exact le_trans hle0 (hc.high_mono (Nat.zero_le _) hb0.2 hc.last)
    rw [key (lt_of_lt_of_le h1 (le_trans hmm h2))]
    rw [((C03_findBin a hc lo).2.2.1 h1), ((C03_findBin a hc hi).2.2.2 h2)]
    congr 1
    rw [hv.integral, sum_eq_getD_range _ _ hlen]
    congr 2
    rw [List.filter_eq_self]
    intro b hb
    simp at hb ⊢; omega

/-- C13 (error): any other number of dimensions is a `DimensionError`. -/
theorem C13_range_integral_dim (as : List (BinAxis α)) (h : Histogram α) (hv : h.Valid as)
    (hd : as.length ≠ 1) (lo hi : α) : h.integralRange lo hi = .throw .dimension := by
  unfold integralRange
  rw [Res.throwIf_true_of (by rw [hv.nd]; exact hd)]; rfl

/-- Non-vacuity of C13: the first example axis. -/
example : ∃ (a : BinAxis ℚ) (h : Histogram ℚ), h.Valid [a] ∧ a.Contiguous ∧ a.min < a.max := by
  obtain ⟨a, ha⟩ : ∃ a, exAxes[0]? = some a := ⟨_, rfl⟩
  have hm := List.mem_of_getElem? ha
  obtain ⟨c, hc⟩ := (C04_build [a]).1 (by simp)
  refine ⟨a, ofAxes c, valid_ofAxes (holds_of_addAxes hc) (by simp), exAxes_contiguous a hm, ?_⟩
  simp [exAxes] at ha; subst ha; norm_num

/-! ### C14 -/

theorem sum_foldl (l : List Nat) (f : Nat → α) (s : α) :
    l.foldl (fun a i => a + f i) s = s + (l.map f).sum := by
  induction l generalizing s with
  | nil => simp
  | cons x l ih => simp [ih, add_assoc]

theorem sum_map_le {β : Type} (l : List β) (f g : β → α) (h : ∀ x ∈ l, f x ≤ g x) :
    (l.map f).sum ≤ (l.map g).sum := by
  induction l with
  | nil => simp
  | cons x l ih =>
    simp only [List.map_cons, List.sum_cons]
    exact add_le_add (h x (by simp)) (ih (fun y hy => h y (by simp [hy])))

theorem sum_map_add {β : Type} (l : List β) (f g : β → α) :
    (l.map (fun x => f x + g x)).sum = (l.map f).sum + (l.map g).sum := by
  induction l with
  | nil => simp
  | cons x l ih => simp only [List.map_cons, List.sum_cons, ih]; ring

theorem sum_map_mul_left {β : Type} (l : List β) (f : β → α) (c : α) :
    (l.map (fun x => c * f x)).sum = c * (l.map f).sum := by
  induction l with
  | nil => simp
  | cons x l ih => simp only [List.map_cons, List.sum_cons, ih]; ring

theorem sum_filter_ite (l : List Nat) (p : Nat → Bool) (f : Nat → α) :
    ((l.filter p).map f).sum = (l.map (fun b => if p b then f b else 0)).sum := by
  induction l with
  | nil => simp
  | cons x l ih => by_cases e : p x <;> simp [List.filter_cons, e, ih]

theorem sum_range_single (n m : Nat) (f : Nat → α) (h : m < n) : ((List.range n).map (fun b => if b = m then f b else 0)).sum = f m := by
  induction n with
  | zero => omega
  | succ n ih =>
    rw [List.range_succ, List.map_append, List.sum_append]
    rcases Nat.lt_or_ge m n with h1 | h1
    · rw [ih h1]; simp [show n ≠ m by omega]
    · have e : m = n := by omega
      subst e
      have : ∀ b ∈ List.range m, (if b = m then f b else 0) = 0 := by
        intro b hb; rw [if_neg (by have := List.mem_range.1 hb; omega)]
      rw [List.map_congr_left this]; simp

/-- C13 (adjacent ranges): the integrals from lo to mid and from mid to hi add up to the integral from lo to hi plus the content of the bin that holds mid,
which both include. -/
theorem C13_additive (a : BinAxis α) (h : Histogram α) (hv : h.Valid [a]) (hc : a.Contiguous) {lo mid hi : α} (h1 : lo < mid) (h2 : mid < hi) :
    ∃ x y z c, h.integralRange lo mid = .ok x ∧ h.integralRange mid hi = .ok y ∧ h.integralRange lo hi = .ok z ∧
      h.getBinContent (a.findBin mid) = .ok c ∧ x + y = z + c := by
  have hnb : h.nBins = a.nBins := by rw [hv.nb]; simp [shape]
  have hm : a.findBin mid < h.nBins := by rw [hnb]; exact (C03_findBin a hc mid).1
  refine ⟨_, _, _, h.contents.getD (a.findBin mid) 0, (C13_range_integral a h hv hc lo mid).2.1 h1, (C13_range_integral a h hv hc mid hi).2.1 h2,
    (C13_range_integral a h hv hc lo hi).2.1 (h1.trans h2), ?_, ?_⟩
  · have hlen : h.contents.length = h.nBins := by rw [hv.len, hv.nb]
    exact getBinContent_ok_iff.2 ⟨by omega, by rw [List.getD_eq_getElem?_getD, List.getElem?_eq_getElem (by omega)]; rfl⟩
  · have m1 := C03_findBin_mono a hc lo mid h1.le
    have m2 := C03_findBin_mono a hc mid hi h2.le
    rw [← sum_range_single h.nBins (a.findBin mid) (fun b => h.contents.getD b 0) hm]
    rw [sum_filter_ite, sum_filter_ite, sum_filter_ite, ← sum_map_add, ← sum_map_add]
    congr 1
    apply List.map_congr_left
    intro b _
    simp only [decide_eq_true_eq]
    rcases Nat.lt_trichotomy b (a.findBin mid) with e | e | e
    · rw [if_neg (show ¬ (a.findBin mid ≤ b ∧ b ≤ a.findBin hi) by omega), if_neg (show ¬ b = a.findBin mid by omega)]
      by_cases e' : a.findBin lo ≤ b
      · rw [if_pos ⟨e', e.le⟩, if_pos ⟨e', by omega⟩]
      · rw [if_neg (by omega), if_neg (by omega)]
    · rw [if_pos (by omega), if_pos (by omega), if_pos (by omega), if_pos e]
    · rw [if_neg (show ¬ (a.findBin lo ≤ b ∧ b ≤ a.findBin mid) by omega), if_neg (show ¬ b = a.findBin mid by omega)]
      by_cases e' : b ≤ a.findBin hi
      · rw [if_pos ⟨e.le, e'⟩, if_pos ⟨by omega, e'⟩]; ring
      · rw [if_neg (by omega), if_neg (by omega)]

/-- C14: for a non-negative histogram of unit integral, `Means()` and `Variances()` return one value per
axis; the mean is the expectation of the bin centres and lies between any bounds on them; the variance
is the expected squared deviation from the mean, hence non-negative. `x b j` is the bin centre. -/
theorem C14_means_variances (as : List (BinAxis α)) (h : Histogram α) (hv : h.Valid as)
    (hc : ∀ a ∈ as, a.Contiguous) (hnn : ∀ b p, h.getBinContent b = .ok p → 0 ≤ p)
    (hone : h.integral = 1) :
    ∃ (x : Nat → Nat → α) (ms vs : List α),
      (∀ b j, b < h.nBins → j < h.nDims → h.axes.getBinCentre b j = .ok (x b j)) ∧
      h.means = .ok ms ∧ h.variances = .ok vs ∧ ms.length = h.nDims ∧ vs.length = h.nDims ∧
      ∀ j m v, ms[j]? = some m → vs[j]? = some v →
        m = ((List.range h.nBins).map (fun b => h.contents.getD b 0 * x b j)).sum ∧
        v = ((List.range h.nBins).map (fun b => h.contents.getD b 0 * (x b j - m) ^ 2)).sum ∧
        0 ≤ v ∧
        ∀ lo hi, (∀ b, b < h.nBins → lo ≤ x b j ∧ x b j ≤ hi) → lo ≤ m ∧ m ≤ hi := by
  have hlen : h.contents.length = h.nBins := by rw [hv.len, hv.nb]
  -- centres
  have hx : ∀ b j, b < h.nBins → j < h.nDims → ∃ y, h.axes.getBinCentre b j = .ok y := by
    intro b j hb hj
    rw [hv.nb] at hb; rw [hv.nd] at hj
    have ha := List.getElem?_eq_getElem hj
    obtain ⟨d, h1, h2⟩ := hv.axes.binOne hv.ne hb ha BinAxis.getBinCentre
    have hca := hc _ (List.getElem_mem hj)
    have hd : d < as[j].nBins := by
      have hr := digits_inRange (shape_pos hc) b
      have h4 := (List.forall₂_iff_get.1 hr).2 j (by simp [hj]) (by simp [hj])
      rw [List.getElem?_eq_getElem (by simpa using hj)] at h1
      simp only [Option.some.injEq] at h1
      simp only [List.get_eq_getElem, h1] at h4
      simpa [shape] using h4
    obtain ⟨lo, hi, _, _, h3, _⟩ := hca.bins d hd
    exact ⟨_, by unfold AxisCollection.getBinCentre; rw [h2]; exact h3⟩
  classical
  let x : Nat → Nat → α := fun b j =>
    if hh : b < h.nBins ∧ j < h.nDims then Classical.choose (hx b j hh.1 hh.2) else 0
  have hxs : ∀ b j, b < h.nBins → j < h.nDims → h.axes.getBinCentre b j = .ok (x b j) := by
    intro b j hb hj
    simp only [x, dif_pos (And.intro hb hj)]
    exact Classical.choose_spec (hx b j hb hj)
  let M : Nat → α := fun j => ((List.range h.nBins).map (fun b => h.contents.getD b 0 * x b j)).sum
  let S : Nat → α := fun j => ((List.range h.nBins).map (fun b => x b j * x b j * h.contents.getD b 0)).sum
  have hmeans : h.means = .ok ((List.range h.nDims).map M) := by
    unfold Histogram.means
    apply Res.traverse_ok
    intro j hj
    have hj : j < h.nDims := by simpa using hj
    rw [Res.forFold_pure (g := fun m i => m + h.contents.getD i 0 * x i j)]
    · rw [sum_foldl]; simp [M]
    · intro s b hb
      have hb : b < h.nBins := by simpa using hb
      rw [at_ok.2 (getElem?_eq_getD (by omega)), hxs b j hb hj]
      rfl
  have hS : Res.traverse (fun j => Res.forFold (fun v i => (do
      let x ← h.axes.getBinCentre i j
      let c ← at_ h.contents i
      pure (v + x * x * c) : Res α)) 0 (List.range h.nBins)) (List.range h.nDims)
      = .ok ((List.range h.nDims).map S) := by
    apply Res.traverse_ok
    intro j hj
    have hj : j < h.nDims := by simpa using hj
    rw [Res.forFold_pure (g := fun m i => m + x i j * x i j * h.contents.getD i 0)]
    · rw [sum_foldl]; simp [S]
    · intro s b hb
      have hb : b < h.nBins := by simpa using hb
      rw [at_ok.2 (getElem?_eq_getD (by omega)), hxs b j hb hj]
      rfl
  have hvars : h.variances = .ok ((List.range h.nDims).map (fun j => S j - M j * M j)) := by
    unfold Histogram.variances
    rw [hS, hmeans]
    simp only [Res.ok_bind]
    apply Res.traverse_ok
    intro j hj
    have hj : j < h.nDims := by simpa using hj
    rw [(idx_ok (a := S j)).2 (by simp [hj]), (at_ok (a := M j)).2 (by simp [hj])]
    rfl
  have hsum1 : ((List.range h.nBins).map (fun b => h.contents.getD b 0)).sum = 1 := by
    rw [← sum_eq_getD_range _ _ hlen, ← hv.integral, hone]
  have hp : ∀ b, b < h.nBins → 0 ≤ h.contents.getD b 0 := fun b hb => hnn b _ (hv.get hb)
  refine ⟨x, _, _, hxs, hmeans, hvars, by simp, by simp, ?_⟩
  intro j m v hm hv'
  have hj : j < h.nDims := by
    have := (List.getElem?_eq_some_iff.1 hm).1; simpa using this
  simp [hj] at hm hv'
  have hveq : v = ((List.range h.nBins).map (fun b => h.contents.getD b 0 * (x b j - m) ^ 2)).sum := by
    rw [← hv']
    have e : (fun b => h.contents.getD b 0 * (x b j - m) ^ 2) = (fun b =>
        x b j * x b j * h.contents.getD b 0 + ((-2 * m) * (h.contents.getD b 0 * x b j)
          + m ^ 2 * h.contents.getD b 0)) := by funext b; ring
    rw [e, sum_map_add, sum_map_add, sum_map_mul_left, sum_map_mul_left, hsum1]
    have e2 : ((List.range h.nBins).map (fun b => h.contents.getD b 0 * x b j)).sum = m := hm
    rw [e2, hm]
    simp only [S]; ring
  refine ⟨hm.symm, hveq, ?_, ?_⟩
  · rw [hveq]
    have := sum_map_le (List.range h.nBins) (fun _ => (0 : α))
      (fun b => h.contents.getD b 0 * (x b j - m) ^ 2) (by
        intro b hb
        exact mul_nonneg (hp b (by simpa using hb)) (sq_nonneg _))
    simpa using this
  · intro lo hi hb
    have hm' : m = ((List.range h.nBins).map (fun b => h.contents.getD b 0 * x b j)).sum := hm.symm
    constructor
    · have := sum_map_le (List.range h.nBins) (fun b => lo * h.contents.getD b 0)
        (fun b => h.contents.getD b 0 * x b j) (by
          intro b hb'
          have h1 := hb b (by simpa using hb')
          have h2 := hp b (by simpa using hb')
          nlinarith [h1.1])
      rw [sum_map_mul_left, hsum1, mul_one] at this
      rw [hm']; exact this
    · have := sum_map_le (List.range h.nBins) (fun b => h.contents.getD b 0 * x b j)
        (fun b => hi * h.contents.getD b 0) (by
          intro b hb'
          have h1 := hb b (by simpa using hb')
          have h2 := hp b (by simpa using hb')
          nlinarith [h1.2])
      rw [sum_map_mul_left, hsum1, mul_one] at this
      rw [hm']; exact this

/-- Non-vacuity of C14: normalising the example histogram gives a valid, non-negative one with unit
integral. -/
example : ∃ h : Histogram ℚ, h.Valid exAxes ∧ (∀ b p, h.getBinContent b = .ok p → 0 ≤ p) ∧
    h.integral = 1 := by
  obtain ⟨c, hc⟩ := (C04_build exAxes).1 (by decide +kernel)
  have hv : (ofAxes c).Valid exAxes := C06_reachable_valid _ (by decide) _ (Reachable.new c hc)
  have hnb : (ofAxes c).nBins = 12 := by rw [hv.nb]; decide +kernel
  let cs : List ℚ := [1/4, 0, 0, 1/4, 0, 0, 0, 0, 1/2, 0, 0, 0]
  have hv' : ({ ofAxes c with contents := cs } : Histogram ℚ).Valid exAxes :=
    hv.withContents (by rw [hv.len]; decide +kernel)
  refine ⟨_, hv', ?_, ?_⟩
  · intro b p hp
    have := (getBinContent_ok_iff.1 hp).2
    have hm := List.mem_of_getElem? this
    have : ∀ q ∈ cs, 0 ≤ q := by decide +kernel
    exact this p hm
  · rw [hv'.integral]; show cs.sum = 1; decide +kernel
end Oxsx
