import Verif.Spec.Axis
import Verif.Lemmas.Basic
import Mathlib.Tactic.Ring
import Mathlib.Tactic.FieldSimp
import Mathlib.Tactic.Positivity
import Mathlib.Tactic.Push
/- Helper lemmas about axes. -/
set_option linter.unusedSectionVars false
set_option linter.unusedSimpArgs false
namespace Oxsx
variable {α : Type} [Field α] [LinearOrder α]

namespace BinAxis

section contiguous
variable [IsStrictOrderedRing α] {a : BinAxis α}

theorem Contiguous.highLen (h : a.Contiguous) : a.highEdges.length = a.nBins := by
  apply le_antisymm
  · by_contra hc
    have := (h.noMore a.nBins (le_refl _)).2.1
    unfold getBinHighEdge at this
    rw [at_of_lt (by omega)] at this; cases this
  · by_contra hc
    obtain ⟨lo, hi, hb, _⟩ := h.bins a.highEdges.length (by omega)
    have := hb.2
    unfold getBinHighEdge at this
    rw [at_of_ge (le_refl _)] at this; cases this

theorem Contiguous.lowLen (h : a.Contiguous) : a.lowEdges.length = a.nBins := by
  apply le_antisymm
  · by_contra hc
    have := (h.noMore a.nBins (le_refl _)).1
    unfold getBinLowEdge at this
    rw [at_of_lt (by omega)] at this; cases this
  · by_contra hc
    obtain ⟨lo, hi, hb, _⟩ := h.bins a.lowEdges.length (by omega)
    have := hb.1
    unfold getBinLowEdge at this
    rw [at_of_ge (le_refl _)] at this; cases this

/-- High edges never decrease. -/
theorem Contiguous.high_mono (h : a.Contiguous) {i j : Nat} {x y : α} (hij : i ≤ j)
    (hx : a.getBinHighEdge i = .ok x) (hy : a.getBinHighEdge j = .ok y) : x ≤ y := by
  induction j, hij using Nat.le_induction generalizing y with
  | base => rw [hx] at hy; cases hy; exact le_refl _
  | succ j hij ih =>
    have hj : j + 1 < a.nBins := by
      by_contra hc
      have := (h.noMore (j+1) (by omega)).2.1
      rw [this] at hy; cases hy
    obtain ⟨lo, hi, hb, hle, _⟩ := h.bins j (by omega)
    obtain ⟨lo', hi', hb', hle', _⟩ := h.bins (j+1) hj
    have h1 := ih hb.2
    have h2 := h.contig j hj
    rw [hb.2, hb'.1] at h2
    rw [hb'.2] at hy
    cases h2; cases hy
    exact le_trans h1 hle'

/-- The low edge of bin `j` is at or above the high edge of an earlier bin `i`. -/
theorem Contiguous.high_le_low (h : a.Contiguous) {i j : Nat} {x y : α} (hij : i < j)
    (hx : a.getBinHighEdge i = .ok x) (hy : a.getBinLowEdge j = .ok y) : x ≤ y := by
  obtain ⟨k, rfl⟩ : ∃ k, j = k + 1 := ⟨j - 1, by omega⟩
  have hj : k + 1 < a.nBins := by
    by_contra hc
    have := (h.noMore (k+1) (by omega)).1
    rw [this] at hy; cases hy
  rw [← h.contig k hj] at hy
  exact h.high_mono (by omega) hx hy

theorem Contiguous.partitioned (h : a.Contiguous) (v : α) :
    Partitioned a.highEdges (fun e => decide (e ≤ v)) := by
  intro i j x y hij hx hy hb
  simp only [decide_eq_true_eq] at hb ⊢
  exact le_trans (h.high_mono hij (at_ok.2 hx) (at_ok.2 hy)) hb

/-- What `FindBin` computes on a contiguous axis. -/
theorem Contiguous.findBin_spec (h : a.Contiguous) (v : α) :
    a.findBin v < a.nBins ∧
    (∀ i x, i < a.findBin v → a.getBinHighEdge i = .ok x → x ≤ v) ∧
    (∀ i x, a.findBin v ≤ i → a.getBinHighEdge i = .ok x → v < x ∨ i = a.nBins - 1) := by
  have hs := lowerBound_spec a.highEdges _ (h.partitioned v)
  have hl := h.highLen
  have hpos := h.pos
  obtain ⟨h1, h2, h3⟩ := hs
  simp only [decide_eq_true_eq, decide_eq_false_iff_not, not_le] at h2 h3
  unfold findBin
  simp only
  split
  · rename_i heq
    refine ⟨by omega, ?_, ?_⟩
    · intro i x hi hx
      exact h2 i x (by omega) (at_ok.1 hx)
    · intro i x hi hx
      have := (List.getElem?_eq_some_iff.1 (at_ok.1 hx)).1
      right; omega
  · rename_i hne
    refine ⟨by omega, ?_, ?_⟩
    · intro i x hi hx
      exact h2 i x (by omega) (at_ok.1 hx)
    · intro i x hi hx
      left; exact h3 i x hi (at_ok.1 hx)

end contiguous

section equal
variable [IsStrictOrderedRing α]

theorem mkEqual_ok_iff {nm : String} {mn mx : α} {n : Nat} {lx : String} {a : BinAxis α} :
    mkEqual nm mn mx n lx = .ok a ↔ mn < mx ∧ 0 < n ∧
      a = { name := nm, latexName := if lx = "" then nm else lx, nBins := n, min := mn, max := mx
            lowEdges := (List.range n).map (fun (i : Nat) => mn + (i : α) * ((mx - mn) / n))
            centres := (List.range n).map (fun (i : Nat) => mn + ((i : α) + 1 / 2) * ((mx - mn) / n))
            highEdges := (List.range n).map (fun (i : Nat) => mn + ((i : α) + 1) * ((mx - mn) / n))
            widths := List.replicate n ((mx - mn) / n) } := by
  unfold mkEqual
  simp only
  by_cases hc : mn ≥ mx ∨ n = 0
  · rw [if_pos hc]
    constructor
    · intro h; cases h
    · rintro ⟨h1, h2, _⟩
      rcases hc with hc | hc
      · exact absurd h1 (not_lt.2 hc)
      · omega
  · rw [if_neg hc]
    push Not at hc
    constructor
    · intro h; cases h; exact ⟨hc.1, Nat.pos_of_ne_zero hc.2, rfl⟩
    · rintro ⟨_, _, rfl⟩; rfl

theorem mkEqual_throws {nm : String} {mn mx : α} {n : Nat} {lx : String}
    (h : ¬ (mn < mx ∧ 0 < n)) : mkEqual nm mn mx n lx = .throw .logic := by
  unfold mkEqual
  simp only
  rw [if_pos]
  by_contra hc
  push Not at hc
  exact h ⟨hc.1, Nat.pos_of_ne_zero hc.2⟩

theorem at_map_range {n i : Nat} {f : Nat → α} (h : i < n) :
    at_ ((List.range n).map f) i = .ok (f i) := by
  rw [at_ok]; simp [h]

theorem mkEqual_contiguous {nm : String} {mn mx : α} {n : Nat} {lx : String} {a : BinAxis α}
    (h : mkEqual nm mn mx n lx = .ok a) : a.Contiguous := by
  obtain ⟨h1, h2, rfl⟩ := mkEqual_ok_iff.1 h
  have hn : (0 : α) < (n : α) := by exact_mod_cast h2
  have hw : 0 < (mx - mn) / (n : α) := div_pos (sub_pos.2 h1) hn
  refine ⟨h2, ?_, ?_, ?_, ?_, ?_⟩
  · intro i hi
    simp only at hi
    refine ⟨mn + (i : α) * ((mx - mn) / n), mn + ((i : α) + 1) * ((mx - mn) / n),
      ⟨at_map_range hi, at_map_range hi⟩, ?_, ?_, ?_⟩
    · nlinarith
    · unfold getBinCentre; rw [at_map_range hi]; congr 1; ring
    · unfold getBinWidth; rw [at_of_lt (by simpa using hi)]; simp; ring
  · intro i hi
    simp only at hi
    refine ⟨at_of_ge (by simpa using hi), at_of_ge (by simpa using hi),
      at_of_ge (by simpa using hi), at_of_ge (by simpa using hi)⟩
  · intro i hi
    simp only at hi
    unfold getBinHighEdge getBinLowEdge
    rw [at_map_range (by omega), at_map_range hi]
    push_cast; rfl
  · unfold getBinLowEdge; rw [at_map_range h2]; simp
  · unfold getBinHighEdge; simp only
    rw [at_map_range (by omega)]
    have : ((n - 1 : Nat) : α) = (n : α) - 1 := by
      rw [Nat.cast_sub (by omega)]; simp
    rw [this]
    congr 1
    field_simp
    ring

theorem mkEqual_posWidths {nm : String} {mn mx : α} {n : Nat} {lx : String} {a : BinAxis α}
    (h : mkEqual nm mn mx n lx = .ok a) : a.PosWidths := by
  obtain ⟨h1, h2, rfl⟩ := mkEqual_ok_iff.1 h
  have hn : (0 : α) < (n : α) := by exact_mod_cast h2
  have hw : 0 < (mx - mn) / (n : α) := div_pos (sub_pos.2 h1) hn
  intro i lo hi hb
  have hi' : i < n := by
    by_contra hc
    have := hb.1
    unfold getBinLowEdge at this
    rw [at_of_ge (by simpa using Nat.not_lt.1 hc)] at this; cases this
  have e1 := hb.1; have e2 := hb.2
  unfold getBinLowEdge at e1; unfold getBinHighEdge at e2
  rw [at_map_range hi'] at e1 e2
  cases e1; cases e2
  nlinarith
end equal
end BinAxis
end Oxsx

namespace Oxsx
variable {α : Type} [Field α] [LinearOrder α]
namespace BinAxis

theorem checkEdge_cases (low high : List α) (i : Nat) (hl : high.length = low.length)
    (hi : i < low.length) :
    (checkEdge low high i = .ok () ∧ (i ≠ 0 → low[i-1] ≤ low[i]) ∧ low[i] ≤ high[i]) ∨
    (checkEdge low high i = .throw .logic ∧ ¬ ((i ≠ 0 → low[i-1] ≤ low[i]) ∧ low[i] ≤ high[i])) := by
  have e2 := at_of_lt (l := low) (i := i) hi
  have e3 := at_of_lt (l := high) (i := i) (by omega)
  have e1 := at_of_lt (l := low) (i := i - 1) (by omega)
  unfold checkEdge
  simp only [e1, e2, e3, Res.ok_bind]
  by_cases h2 : low[i] ≤ high[i]
  · by_cases h0 : i = 0
    · left; simp [h0, Res.bind, Res.throwIf, not_lt.2 h2]; subst h0; simpa [not_lt.2 h2] using h2
    · by_cases h1 : low[i-1] ≤ low[i]
      · left; simp [h0, Res.bind, Res.throwIf, not_lt.2 h2, not_lt.2 h1]; exact ⟨h1, h2⟩
      · right; simp [h0, Res.bind, Res.throwIf, h1, not_le.1 h1]
  · right
    refine ⟨?_, fun h => h2 h.2⟩
    by_cases h0 : i = 0
    · subst h0; simp [Res.bind, Res.throwIf, not_le.1 h2]
    · by_cases h1 : low[i-1] ≤ low[i]
      · simp [h0, Res.bind, Res.throwIf, not_le.1 h2, not_lt.2 h1]
      · simp [h0, Res.bind, Res.throwIf, not_le.1 h1]

/-- A failing check throws `LogicError`. -/
theorem checkEdges_cases (low high : List α) (hl : high.length = low.length) :
    checkEdges low high = .ok () ∨ checkEdges low high = .throw .logic := by
  unfold checkEdges
  have key : ∀ l : List Nat, (∀ i ∈ l, i < low.length) →
      Res.forFold (fun (_ : Unit) i => checkEdge low high i) () l = .ok () ∨
      Res.forFold (fun (_ : Unit) i => checkEdge low high i) () l = .throw .logic := by
    intro l
    induction l with
    | nil => intro _; left; rfl
    | cons i l ih =>
      intro h
      have ih := ih (fun j hj => h j (by simp [hj]))
      rcases checkEdge_cases low high i hl (h i (by simp)) with h1 | h1
      · simp only [Res.forFold, h1.1]; exact ih
      · simp only [Res.forFold, h1.1]; right; trivial
  exact key _ (by simp)

/-- The loop of checks succeeds iff all checks pass. -/
theorem checkEdges_ok_iff {low high : List α} (hl : high.length = low.length) :
    checkEdges low high = .ok () ↔
      (∀ (i : Nat) x y, low[i]? = some x → low[i + 1]? = some y → x ≤ y) ∧
      (∀ (i : Nat) x y, low[i]? = some x → high[i]? = some y → x ≤ y) := by
  unfold checkEdges
  have key : ∀ l : List Nat, (∀ i ∈ l, i < low.length) →
      (Res.forFold (fun (_ : Unit) i => checkEdge low high i) () l = .ok () ↔
        ∀ i ∈ l, checkEdge low high i = .ok ()) := by
    intro l
    induction l with
    | nil => intro _; simp
    | cons i l ih =>
      intro h
      rw [Res.forFold_cons_eq_ok, List.forall_mem_cons, ← ih (fun j hj => h j (by simp [hj]))]
      exact ⟨fun ⟨_, a, b⟩ => ⟨a, b⟩, fun ⟨a, b⟩ => ⟨(), a, b⟩⟩
  rw [key _ (by simp)]
  constructor
  · intro h
    constructor
    · intro i x y hx hy
      have h1 := (List.getElem?_eq_some_iff.1 hy).1
      rcases checkEdge_cases low high (i+1) hl h1 with h2 | h2
      · have := h2.2.1 (by omega)
        simp at this
        rw [List.getElem?_eq_getElem (by omega)] at hx hy
        cases hx; cases hy; exact this
      · rw [h (i+1) (by simpa using h1)] at h2; simp at h2
    · intro i x y hx hy
      have h1 := (List.getElem?_eq_some_iff.1 hx).1
      rcases checkEdge_cases low high i hl h1 with h2 | h2
      · rw [List.getElem?_eq_getElem (by omega)] at hx hy
        cases hx; cases hy; exact h2.2.2
      · rw [h i (by simpa using h1)] at h2; simp at h2
  · rintro ⟨h1, h2⟩ i hi
    have hi : i < low.length := by simpa using hi
    rcases checkEdge_cases low high i hl hi with h3 | h3
    · exact h3.1
    · exfalso
      apply h3.2
      refine ⟨fun h0 => h1 (i-1) _ _ (List.getElem?_eq_getElem (by omega)) ?_, h2 i _ _ (List.getElem?_eq_getElem hi) (List.getElem?_eq_getElem (by omega))⟩
      rw [show i - 1 + 1 = i by omega]; exact List.getElem?_eq_getElem hi

theorem traverse_range_ok {β : Type} {n : Nat} {f : Nat → Res β} {g : Nat → β}
    (h : ∀ i, i < n → f i = .ok (g i)) :
    Res.traverse f (List.range n) = .ok ((List.range n).map g) :=
  Res.traverse_ok (by intro a ha; exact h a (by simpa using ha))

/-- What a successful variable-width construction returns. -/
theorem mkEdges_ok {nm lx : String} {low high : List α} (hl : high.length = low.length)
    (hn : low ≠ []) (hc : checkEdges low high = .ok ()) :
    ∃ a, mkEdges nm low high lx = .ok a ∧ a.name = nm ∧
      a.nBins = low.length ∧ a.lowEdges = low ∧ a.highEdges = high ∧
      a.centres = List.zipWith (fun x y => 1 / 2 * (x + y)) low high ∧
      a.widths = List.zipWith (fun x y => y - x) low high ∧
      low[0]? = some a.min ∧ high[low.length - 1]? = some a.max := by
  have hpos : 0 < low.length := List.length_pos_iff.2 hn
  have hh : high ≠ [] := by intro h; subst h; simp at hl; exact hn (by simpa using hl.symm)
  unfold mkEdges
  rw [Res.throwIf_false_of (by omega), hc]
  simp only [Res.ok_bind]
  have t1 : Res.traverse (fun i => do
      let a ← at_ low i
      let b ← at_ high i
      pure (1 / 2 * (a + b))) (List.range low.length)
      = .ok (List.zipWith (fun x y => 1 / 2 * (x + y)) low high) := by
    have := Res.traverse_ok (f := fun i => (do
        let a ← at_ low i
        let b ← at_ high i
        pure (1 / 2 * (a + b)) : Res α))
      (g := fun i => 1 / 2 * (low.getD i 0 + high.getD i 0)) (l := List.range low.length) (by
        intro i hi
        have hi : i < low.length := by simpa using hi
        rw [at_of_lt hi, at_of_lt (show i < high.length by omega)]
        simp [List.getD, hi, show i < high.length by omega])
    rw [this]; congr 1
    apply List.ext_getElem
    · simp [hl]
    · intro i h1 h2
      simp at h1
      simp [List.getD, h1, show i < high.length by omega]
  have t2 : Res.traverse (fun i => do
      let a ← at_ low i
      let b ← at_ high i
      pure (b - a)) (List.range low.length)
      = .ok (List.zipWith (fun x y => y - x) low high) := by
    have := Res.traverse_ok (f := fun i => (do
        let a ← at_ low i
        let b ← at_ high i
        pure (b - a) : Res α))
      (g := fun i => high.getD i 0 - low.getD i 0) (l := List.range low.length) (by
        intro i hi
        have hi : i < low.length := by simpa using hi
        rw [at_of_lt hi, at_of_lt (show i < high.length by omega)]
        simp [List.getD, hi, show i < high.length by omega])
    rw [this]; congr 1
    apply List.ext_getElem
    · simp [hl]
    · intro i h1 h2
      simp at h1
      simp [List.getD, h1, show i < high.length by omega]
  rw [t1, t2, at_of_lt hpos, List.getLast?_eq_some_getLast hh]
  simp only [Res.ok_bind, Res.pure_eq]
  refine ⟨_, rfl, rfl, rfl, rfl, rfl, rfl, rfl, by simp [hpos], ?_⟩
  simp only [List.getLast_eq_getElem]
  rw [← hl, List.getElem?_eq_getElem]
end BinAxis
end Oxsx
