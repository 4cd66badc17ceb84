import Verif.Props.MoveAgree
set_option linter.unusedSectionVars false
set_option linter.unusedSimpArgs false
set_option linter.unusedVariables false
/-
C120, when nothing leaves the axis.
-/
namespace Oxsx
open MeasureTheory AxisCollection

/-- Nothing of an interval which starts at `m` or above is below `m`. -/
theorem shareBelow_zero {lo hi m : ℝ} (h : m ≤ lo) : shareBelow lo hi m = 0 := by
  unfold shareBelow
  rw [max_eq_left (by have := min_le_right hi m; linarith), zero_div]

/-- Nothing of an interval which ends at `m` or below is above `m`. -/
theorem shareAbove_zero {lo hi m : ℝ} (h : hi ≤ m) : shareAbove lo hi m = 0 := by
  unfold shareAbove
  rw [max_eq_left (by have := le_max_right lo m; linarith), zero_div]

/-- C120, scaling, nothing leaves the axis: when the scaled bins of the events lie within the axis, the two orders agree on average in every bin. -/
theorem C120_scale_inside {s : EventSys ℝ} {names : List String} {o : String} {os : List String} (hl : s.law = .scale) (hf : 0 < s.value) (ho : s.outObs = o :: os) (hm : o ∈ names) {a : BinAxis ℝ}
    (hc : a.Contiguous) (hw : a.PosWidths) {c : AxisCollection ℝ} (hb : (empty : AxisCollection ℝ).addAxes [a] = .ok c) {lo hi : Nat → ℝ} (hbin : ∀ b, b < a.nBins → a.BinIs b (lo b) (hi b))
    {n : Nat} {B : Fin n → Nat} (hB : ∀ i, B i < a.nBins) (hin : ∀ i, a.min ≤ lo (B i) * s.value ∧ hi (B i) * s.value ≤ a.max) {ev : Fin n → ℝ → Event ℝ}
    (hev : ∀ i v, (ev i v).Complete names ∧ (ev i v).value o = some v) (nm : String) :
    ∃ (s' : AxisSys ℝ) (P : Nat → ℝ) (H : (Fin n → ℝ) → Histogram ℝ), (freshAxisSys o [o] c).constructScale s.value = .ok s' ∧
      (∀ x : Fin n → ℝ, (∀ i, lo (B i) ≤ x i ∧ x i < hi (B i)) → ∃ h0 p w, histOfEvents c o (List.ofFn fun i => ev i (x i)) = .ok h0 ∧ s'.base.apply ⟨nm, h0, ObsSet.ofNames [o]⟩ true = .ok (p, w) ∧
        ∀ b, b < a.nBins → p.hist.getBinContent b = .ok (P b)) ∧
      (∀ x, ∃ es', Res.traverse s.apply (List.ofFn fun i => ev i (x i)) = .ok es' ∧ histOfEvents c o es' = .ok (H x)) ∧
      ∀ b, b < a.nBins → ∫ x, (H x).content b ∂(Measure.pi fun i => evenly (lo (B i)) (hi (B i))) = P b := by
  obtain ⟨s', P, H, h1, h2, h3, h4⟩ := C120_scale hl hf ho hm hc hw hb hbin hB hev nm
  refine ⟨s', P, H, h1, h2, h3, fun b hb' => ?_⟩
  rw [h4 b hb', Finset.sum_eq_zero (fun i _ => shareBelow_zero (hin i).1), Finset.sum_eq_zero (fun i _ => shareAbove_zero (hin i).2)]
  simp

/-- C120, shifting, nothing leaves the axis. -/
theorem C120_shift_inside {s : EventSys ℝ} {names : List String} {o : String} {os : List String} (hl : s.law = .shift) (ho : s.outObs = o :: os) (hm : o ∈ names) {a : BinAxis ℝ}
    (hc : a.Contiguous) (hw : a.PosWidths) {c : AxisCollection ℝ} (hb : (empty : AxisCollection ℝ).addAxes [a] = .ok c) {lo hi : Nat → ℝ} (hbin : ∀ b, b < a.nBins → a.BinIs b (lo b) (hi b))
    {n : Nat} {B : Fin n → Nat} (hB : ∀ i, B i < a.nBins) (hin : ∀ i, a.min ≤ lo (B i) + s.value ∧ hi (B i) + s.value ≤ a.max) {ev : Fin n → ℝ → Event ℝ}
    (hev : ∀ i v, (ev i v).Complete names ∧ (ev i v).value o = some v) (nm : String) :
    ∃ (s' : AxisSys ℝ) (P : Nat → ℝ) (H : (Fin n → ℝ) → Histogram ℝ), (freshAxisSys o [o] c).constructShift s.value = .ok s' ∧
      (∀ x : Fin n → ℝ, (∀ i, lo (B i) ≤ x i ∧ x i < hi (B i)) → ∃ h0 p w, histOfEvents c o (List.ofFn fun i => ev i (x i)) = .ok h0 ∧ s'.base.apply ⟨nm, h0, ObsSet.ofNames [o]⟩ true = .ok (p, w) ∧
        ∀ b, b < a.nBins → p.hist.getBinContent b = .ok (P b)) ∧
      (∀ x, ∃ es', Res.traverse s.apply (List.ofFn fun i => ev i (x i)) = .ok es' ∧ histOfEvents c o es' = .ok (H x)) ∧
      ∀ b, b < a.nBins → ∫ x, (H x).content b ∂(Measure.pi fun i => evenly (lo (B i)) (hi (B i))) = P b := by
  obtain ⟨s', P, H, h1, h2, h3, h4⟩ := C120_shift hl ho hm hc hw hb hbin hB hev nm
  refine ⟨s', P, H, h1, h2, h3, fun b hb' => ?_⟩
  rw [h4 b hb', Finset.sum_eq_zero (fun i _ => shareBelow_zero (hin i).1), Finset.sum_eq_zero (fun i _ => shareAbove_zero (hin i).2)]
  simp

/-- Two events in the bins from 0 to 2 and from 2 to 4 of four bins from 0 to 8: scaled by 3/2, or shifted by 1, nothing leaves the axis and the hypotheses of `C120_scale_inside` and `C120_shift_inside` are met. -/
example : ∃ (a : BinAxis ℝ) (c : AxisCollection ℝ), BinAxis.mkEqual "e" (0 : ℝ) 8 4 = .ok a ∧ (empty : AxisCollection ℝ).addAxes [a] = .ok c ∧
    (∀ b, b < a.nBins → a.BinIs b (2 * b) (2 * b + 2)) ∧
    (∀ i : Fin 2, (![0, 1] : Fin 2 → Nat) i < a.nBins) ∧
    (∀ i : Fin 2, a.min ≤ 2 * ((![0, 1] : Fin 2 → Nat) i : ℝ) * exScaleUp.value ∧ (2 * ((![0, 1] : Fin 2 → Nat) i : ℝ) + 2) * exScaleUp.value ≤ a.max) ∧
    (∀ i : Fin 2, a.min ≤ 2 * ((![0, 1] : Fin 2 → Nat) i : ℝ) + 1 ∧ (2 * ((![0, 1] : Fin 2 → Nat) i : ℝ) + 2) + 1 ≤ a.max) ∧
    ∃ (s' : AxisSys ℝ) (P : Nat → ℝ) (H : (Fin 2 → ℝ) → Histogram ℝ), (freshAxisSys "e" ["e"] c).constructScale (3/2) = .ok s' ∧
      ∀ b, b < a.nBins → ∫ x, (H x).content b ∂(Measure.pi fun i => evenly (2 * ((![0, 1] : Fin 2 → Nat) i : ℝ)) (2 * ((![0, 1] : Fin 2 → Nat) i : ℝ) + 2)) = P b := by
  obtain ⟨a, ha⟩ := ((C01_equalAxis_accepts "e" "" (0 : ℝ) 8 4).1).2 ⟨by norm_num, by norm_num⟩
  have hc := BinAxis.mkEqual_contiguous ha
  have hw := BinAxis.mkEqual_posWidths ha
  obtain ⟨t1, t2, t3, t4, t5, t6, t7, t8, _⟩ := C01_equalAxis_tiles _ _ _ _ _ _ ha
  obtain ⟨c, hb⟩ := addAxes_ok_of_nodup (as := [a]) (by simp)
  have hbin : ∀ b, b < a.nBins → a.BinIs b (2 * b) (2 * b + 2) := by
    intro b hb'
    rw [t4] at hb'
    induction b with
    | zero =>
      obtain ⟨lo, hi, g1, g2, g3, _⟩ := t8 0 hb'
      rw [t5] at g1
      cases g1
      refine ⟨by rw [t5]; simp, ?_⟩
      rw [g2]
      congr 1
      push_cast at g3 ⊢
      linarith
    | succ b ih =>
      obtain ⟨lo, hi, g1, g2, g3, _⟩ := t8 (b + 1) hb'
      have h0 := (ih (by omega)).2
      rw [t7 b hb', g1] at h0
      cases h0
      refine ⟨by rw [g1]; push_cast; ring_nf, ?_⟩
      rw [g2]
      congr 1
      push_cast at g3 ⊢
      linarith
  have hB : ∀ i : Fin 2, (![0, 1] : Fin 2 → Nat) i < a.nBins := by
    intro i
    rw [t4]
    fin_cases i <;> decide
  have hin : ∀ i : Fin 2, a.min ≤ 2 * ((![0, 1] : Fin 2 → Nat) i : ℝ) * exScaleUp.value ∧ (2 * ((![0, 1] : Fin 2 → Nat) i : ℝ) + 2) * exScaleUp.value ≤ a.max := by
    intro i
    have : exScaleUp.value = 3/2 := rfl
    rw [t2, t3, this]
    fin_cases i <;> norm_num
  obtain ⟨s', P, H, h1, _, _, h4⟩ := C120_scale_inside (s := exScaleUp) (names := ["e", "r"]) (o := "e") (os := []) rfl (by show (0 : ℝ) < 3/2; norm_num) rfl (by simp) hc hw hb
    (lo := fun b => 2 * (b : ℝ)) (hi := fun b => 2 * (b : ℝ) + 2) hbin (B := ![0, 1]) hB hin (ev := fun _ v => ⟨[v, 9], some ["e", "r"]⟩) (fun _ _ => ⟨⟨by decide, rfl, rfl⟩, rfl⟩) "h"
  refine ⟨a, c, ha, hb, hbin, hB, hin, ?_, s', P, H, h1, h4⟩
  intro i
  rw [t2, t3]
  fin_cases i <;> norm_num

end Oxsx
