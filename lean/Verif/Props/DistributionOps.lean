import Verif.Props.EventView
import Verif.Props.Slice
set_option linter.unusedSectionVars false
set_option linter.unusedSimpArgs false
set_option linter.unusedVariables false
/-
The operations of a distribution (`BinnedED`) seen through its own interface: what each does to the contents, and that the name and the
observables are those of the distribution it was called on.
-/
namespace Oxsx
open Histogram
variable {α : Type} [Field α] [LinearOrder α] [IsStrictOrderedRing α]

/-- C08 (distributions): `Scale` multiplies and `Normalise` divides by the integral, bin by bin; neither touches the name, the observables or
the axes. -/
theorem C08_distribution (as : List (BinAxis α)) (d : BinnedED α) (hv : d.hist.Valid as) (s : α) :
    ((d.scale s).name = d.name ∧ (d.scale s).obs = d.obs ∧ (d.scale s).hist.axes = d.hist.axes ∧
      (d.scale s).integral = d.integral * s ∧ ∀ b x, d.getBinContent b = .ok x → (d.scale s).getBinContent b = .ok (x * s)) ∧
    (d.normalise.name = d.name ∧ d.normalise.obs = d.obs ∧ d.normalise.hist.axes = d.hist.axes ∧
      (d.integral ≠ 0 → d.normalise.integral = 1 ∧
        ∀ b x, d.getBinContent b = .ok x → d.normalise.getBinContent b = .ok (x / d.integral))) := by
  refine ⟨⟨rfl, rfl, rfl, (C08_scale as d.hist hv s).1, (C08_scale as d.hist hv s).2⟩, rfl, rfl, rfl, fun hI => ?_⟩
  exact ⟨(C08_normalise as d.hist hv hI).1, (C08_normalise as d.hist hv hI).2.1⟩

/-- C07 (distributions): `Fill` with values adds the weight to the one bin of `FindBin`, with the name and the observables kept; values of the
wrong number are refused. A distribution made from a histogram has that histogram, that name and no observables; a histogram set later replaces
the first and changes nothing else. -/
theorem C07_distribution (as : List (BinAxis α)) (d : BinnedED α) (hv : d.hist.Valid as) (hc : ∀ a ∈ as, a.Contiguous) (vs : List α) (w : α)
    (n : String) (h : Histogram α) :
    (vs.length ≠ as.length → d.fill vs w = .throw .dimension) ∧
    (vs.length = as.length → ∃ d' b x, d.fill vs w = .ok d' ∧ d.hist.findBin vs = .ok b ∧ b < d.hist.nBins ∧ d'.name = d.name ∧ d'.obs = d.obs ∧
      d'.hist.axes = d.hist.axes ∧ d.getBinContent b = .ok x ∧ d'.getBinContent b = .ok (x + w) ∧
      ∀ b', b' ≠ b → b' < d.hist.nBins → d'.getBinContent b' = d.getBinContent b') ∧
    ((BinnedED.ofHistogram n h).name = n ∧ (BinnedED.ofHistogram n h).hist = h ∧ (BinnedED.ofHistogram n h).obs.names = []) ∧
    ((d.setHistogram h).name = d.name ∧ (d.setHistogram h).obs = d.obs ∧ (d.setHistogram h).hist = h) ∧
    ((d.setName n).name = n ∧ (d.setName n).obs = d.obs ∧ (d.setName n).hist = d.hist) := by
  refine ⟨fun hl => ?_, fun hl => ?_, ⟨rfl, rfl, rfl⟩, ⟨rfl, rfl, rfl⟩, rfl, rfl, rfl⟩
  · unfold BinnedED.fill
    rw [(C07_fill_one as d.hist hv hc vs w).1 hl]; rfl
  · obtain ⟨h', b, x, h1, h2, h3, h4, h5, h6, h7, h8⟩ := (C07_fill_one as d.hist hv hc vs w).2 hl
    refine ⟨{ d with hist := h' }, b, x, ?_, h2, h3, rfl, rfl, h6, h4, h5, h8⟩
    unfold BinnedED.fill
    rw [h1]; rfl

/-- C11 (distributions): adding, multiplying and dividing two distributions over the same edges acts bin by bin on the first one, which keeps
its name and its own observables whatever those of the second; over other edges each is refused. -/
theorem C11_distribution (as bs : List (BinAxis α)) (d o : BinnedED α) (hv : d.hist.Valid as) (ho : o.hist.Valid bs) (w : α) :
    (¬ SameBinning as bs → d.add o w = .throw .value ∧ d.multiply o = .throw .value ∧ d.divide o = .throw .value) ∧
    ((∀ a ∈ as, a.Contiguous) → (∀ b ∈ bs, b.Contiguous) → SameBinning as bs →
      (∃ r, d.add o w = .ok r ∧ r.name = d.name ∧ r.obs = d.obs ∧ r.hist.axes = d.hist.axes ∧ r.integral = d.integral + w * o.integral ∧
        r.add o (-w) = .ok d ∧
        ∀ b x y, d.getBinContent b = .ok x → o.getBinContent b = .ok y → r.getBinContent b = .ok (x + w * y)) ∧
      (∃ r, d.multiply o = .ok r ∧ r.name = d.name ∧ r.obs = d.obs ∧ r.hist.axes = d.hist.axes ∧
        ∀ b x y, d.getBinContent b = .ok x → o.getBinContent b = .ok y → r.getBinContent b = .ok (x * y)) ∧
      (∃ r, d.divide o = .ok r ∧ r.name = d.name ∧ r.obs = d.obs ∧ r.hist.axes = d.hist.axes ∧
        ∀ b x y, d.getBinContent b = .ok x → o.getBinContent b = .ok y → y ≠ 0 → r.getBinContent b = .ok (x / y))) ∧
    ((d.addPadding w).name = d.name ∧ (d.addPadding w).obs = d.obs ∧ (d.addPadding w).hist.axes = d.hist.axes ∧
      ∀ b x, b < d.hist.nBins → d.getBinContent b = .ok x → (d.addPadding w).getBinContent b = .ok (if x = 0 then w else x)) := by
  refine ⟨fun hs => ?_, fun ha hb hs => ?_, rfl, rfl, rfl, (C11_padding as d.hist hv w).2.2.1⟩
  · obtain ⟨h1, h2, h3⟩ := C11_arith_rejects as bs d.hist o.hist hv ho hs w
    unfold BinnedED.add BinnedED.multiply BinnedED.divide
    rw [h1, h2, h3]
    exact ⟨rfl, rfl, rfl⟩
  · obtain ⟨⟨r, h1, h2, h3, h4, h5, h6⟩, ⟨m, m1, m2, m3, m4⟩, q, q1, q2, q3, q4⟩ := C11_arith as bs d.hist o.hist hv ho ha hb hs w
    refine ⟨⟨{ d with hist := r }, ?_, rfl, rfl, h2, h5, ?_, h4⟩, ⟨{ d with hist := m }, ?_, rfl, rfl, m2, m4⟩,
      ⟨{ d with hist := q }, ?_, rfl, rfl, q2, q4⟩⟩
    · unfold BinnedED.add; rw [h1]; rfl
    · unfold BinnedED.add; simp only [h6]; rfl
    · unfold BinnedED.multiply; rw [m1]; rfl
    · unfold BinnedED.divide; rw [q1]; rfl

/-- The middle of the name of a slice as a user reads it: `_axis` and the bin for every fixed axis, in the order of the axes of the parent. -/
def sliceLabel (fixed : List (String × Nat)) : List String → String
  | [] => ""
  | n :: ns => (match fixed.find? (fun p => p.1 = n) with
      | some p => "_" ++ n ++ toString p.2
      | none => "") ++ sliceLabel fixed ns

theorem lookup_find (fixed : List (String × Nat)) (n : String) :
    fixed.lookup n = (fixed.find? (fun p => p.1 = n)).map (·.2) := by
  induction fixed with
  | nil => rfl
  | cons p l ih =>
    obtain ⟨a, b⟩ := p
    rw [List.lookup_cons, List.find?_cons]
    by_cases h : n = a
    · subst h; simp
    · have h' : ¬ a = n := fun e => h e.symm
      rw [show (n == a) = false from by simpa using h]
      simp [h', ih]

theorem sliceLabel_eq (fixed : List (String × Nat)) (ns : List String) :
    String.join (ns.map (BinnedED.slicePart fixed)) = sliceLabel fixed ns := by
  induction ns with
  | nil => rfl
  | cons n ns ih =>
    rw [List.map_cons, String.join_cons, ih, sliceLabel]
    congr 1
    unfold BinnedED.slicePart
    rw [lookup_find]
    cases fixed.find? (fun p => p.1 = n) <;> rfl

/-- C10 (distributions): the slice of a distribution has the contents of the slice of its histogram; its name spells out the fixed bins and its
observables are the names of the remaining axes, in the order of the axes — not the observables of the parent. A slice the histogram refuses is
refused with the same error. -/
theorem C10_distribution (as : List (BinAxis α)) (d : BinnedED α) (hv : d.hist.Valid as) (hpos : ∀ a ∈ as, 0 < a.nBins)
    (fixed : List (String × Nat)) :
    ((∃ p ∈ fixed, p.1 ∉ as.map (·.name)) → d.getSlice fixed = .throw .notFound) ∧
    ((∀ p ∈ fixed, p.1 ∈ as.map (·.name)) → as.length ≤ fixed.length → d.getSlice fixed = .throw .dimension) ∧
    ((∀ p ∈ fixed, p.1 ∈ as.map (·.name)) → fixed.length < as.length → (∀ a ∈ as, ∀ v, fixed.lookup a.name = some v → v < a.nBins) →
      ∃ s, d.getSlice fixed = .ok s ∧ d.hist.getSlice fixed = .ok s.hist ∧
        s.name = d.name ++ sliceLabel fixed (as.map (·.name)) ++ "_slice" ∧
        s.obs.names = (as.map (·.name)).filter (fun n => ∀ p ∈ fixed, p.1 ≠ n)) := by
  refine ⟨fun h => ?_, fun h hl => ?_, fun h hl hf => ?_⟩
  · unfold BinnedED.getSlice
    rw [(C10_slice_errors as d.hist hv fixed).1 h]; rfl
  · unfold BinnedED.getSlice
    rw [(C10_slice_errors as d.hist hv fixed).2 h hl]; rfl
  · obtain ⟨s, h1, _⟩ := C10_slice_layout as d.hist hv hpos fixed h hl hf
    have hn := hv.axes.names
    refine ⟨_, by unfold BinnedED.getSlice; rw [h1]; rfl, h1, ?_, ?_⟩
    · rw [← sliceLabel_eq, ← hn]; rfl
    · rw [hn]
      show (as.map (·.name)).filter (fun n => (fixed.lookup n).isNone) = _
      congr 1
      funext n
      rw [lookup_find]
      rw [Bool.eq_iff_iff]
      simp

/-! ### Non-vacuity -/

example : exView.hist.Valid exAxes ∧ (∀ a ∈ exAxes, a.Contiguous) ∧ SameBinning exAxes exAxes ∧ exView.integral ≠ 0 := by
  refine ⟨exView_matches.valid, exAxes_contiguous, ?_, by decide +kernel⟩
  exact List.forall₂_same.2 (fun _ _ => ⟨rfl, rfl⟩)

example : ∃ s, exView.getSlice [("z", 0), ("x", 1)] = .ok s ∧ s.name = "p_x1_z0_slice" ∧ s.obs.names = ["y"] := by
  obtain ⟨s, h1, _, h3, h4⟩ := (C10_distribution exAxes exView exView_matches.valid (by decide +kernel) [("z", 0), ("x", 1)]).2.2
    (by decide +kernel) (by decide +kernel) (by decide +kernel)
  exact ⟨s, h1, h3.trans (by decide +kernel), h4.trans (by decide +kernel)⟩

end Oxsx
