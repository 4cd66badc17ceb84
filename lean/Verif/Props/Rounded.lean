import Verif.Lemmas.Rounded
import Verif.Props.Axis
import Verif.Props.AxisCollection
import Verif.Props.Histogram
set_option linter.unusedSectionVars false
set_option linter.unusedSimpArgs false
set_option linter.unusedVariables false
/-
C102: rounding. Putting events into bins and counting them is exact in machine arithmetic.
-/
namespace Oxsx
open AxisCollection Histogram
variable {α : Type} [Field α] [LinearOrder α] [IsStrictOrderedRing α]

namespace Rounding

theorem zero (R : Rounding α) : R.rnd 0 = 0 := by
  have := R.exact 0 (Nat.zero_le _)
  simpa using this

theorem nonneg (R : Rounding α) {x : α} (h : 0 ≤ x) : 0 ≤ R.rnd x := by
  have := R.mono h
  rwa [R.zero] at this

end Rounding

namespace BinAxis

/-- The `i`-th edge of the rounded axis. -/
def edgeR (R : Rounding α) (fma : Bool) (mn mx : α) (n i : Nat) : α :=
  mulAdd R fma mn (R.rnd (i : α)) (R.rnd (R.rnd (mx - mn) / R.rnd (n : α)))

theorem edgeR_mono (R : Rounding α) (fma : Bool) {mn mx : α} (h : mn < mx) (n : Nat) {i j : Nat} (hij : i ≤ j) :
    edgeR R fma mn mx n i ≤ edgeR R fma mn mx n j := by
  have hw : 0 ≤ R.rnd (R.rnd (mx - mn) / R.rnd (n : α)) :=
    R.nonneg (div_nonneg (R.nonneg (sub_nonneg.2 h.le)) (R.nonneg (Nat.cast_nonneg n)))
  have hm : R.rnd (i : α) * R.rnd (R.rnd (mx - mn) / R.rnd (n : α)) ≤ R.rnd (j : α) * R.rnd (R.rnd (mx - mn) / R.rnd (n : α)) :=
    mul_le_mul_of_nonneg_right (R.mono (by exact_mod_cast hij)) hw
  unfold edgeR mulAdd
  cases fma with
  | true => exact R.mono (by linarith)
  | false =>
    simp only [Bool.false_eq_true, if_false]
    refine R.mono ?_
    have := R.mono hm
    linarith

theorem edgeR_zero (R : Rounding α) (fma : Bool) {mn mx : α} (hmn : R.rnd mn = mn) (n : Nat) : edgeR R fma mn mx n 0 = mn := by
  unfold edgeR mulAdd
  cases fma <;> simp [R.zero, hmn]

theorem edgeR_double (R : Rounding α) (fma : Bool) (mn mx : α) (n i : Nat) :
    R.rnd (edgeR R fma mn mx n i) = edgeR R fma mn mx n i := by
  unfold edgeR mulAdd
  cases fma <;> simp [R.idem]

theorem mkEqualR_ok {R : Rounding α} {fma : Bool} {nm lx : String} {mn mx : α} {n : Nat} {a : BinAxis α}
    (h : mkEqualR R fma nm mn mx n lx = .ok a) : mn < mx ∧ 0 < n ∧ a.name = nm ∧ a.nBins = n ∧ a.min = mn ∧ a.max = mx ∧
    a.lowEdges = (List.range n).map (fun i => edgeR R fma mn mx n i) ∧
    a.highEdges = (List.range n).map (fun i => edgeR R fma mn mx n (i + 1)) := by
  unfold mkEqualR at h
  simp only at h
  split at h
  · cases h
  · rename_i hc
    push Not at hc
    have := Res.ok.inj h
    subst this
    exact ⟨hc.1, Nat.pos_of_ne_zero hc.2, rfl, rfl, rfl, rfl, rfl, rfl⟩

end BinAxis
open BinAxis

/-- C102: the equal-width constructor, with every operation rounded (fused or not): it accepts the same arguments; all edges are
machine numbers; each bin ends exactly where the next one starts, bit for bit, and does not end before it starts; the first
starts at the minimum. -/
theorem C102_axis (R : Rounding α) (fma : Bool) (nm lx : String) (mn mx : α) (n : Nat) (hmn : R.rnd mn = mn) :
    ((∃ a, mkEqualR R fma nm mn mx n lx = .ok a) ↔ mn < mx ∧ 0 < n) ∧
    (¬ (mn < mx ∧ 0 < n) → mkEqualR R fma nm mn mx n lx = .throw .logic) ∧
    ∀ a, mkEqualR R fma nm mn mx n lx = .ok a → a.name = nm ∧ a.nBins = n ∧ a.getBinLowEdge 0 = .ok mn ∧
      (∀ i, i + 1 < n → a.getBinHighEdge i = a.getBinLowEdge (i + 1)) ∧
      (∀ i, i < n → ∃ lo hi, a.BinIs i lo hi ∧ lo ≤ hi ∧ R.rnd lo = lo ∧ R.rnd hi = hi) := by
  refine ⟨⟨fun ⟨a, h⟩ => ⟨(mkEqualR_ok h).1, (mkEqualR_ok h).2.1⟩, fun ⟨h1, h2⟩ => ?_⟩, fun hc => ?_, fun a h => ?_⟩
  · unfold mkEqualR
    simp only
    rw [if_neg (by push Not; exact ⟨h1, by omega⟩)]
    exact ⟨_, rfl⟩
  · unfold mkEqualR
    simp only
    rw [if_pos]
    by_contra hx
    push Not at hx
    exact hc ⟨hx.1, Nat.pos_of_ne_zero hx.2⟩
  · obtain ⟨h1, h2, h3, h4, h5, h6, h7, h8⟩ := mkEqualR_ok h
    have lowAt : ∀ i, i < n → a.getBinLowEdge i = .ok (edgeR R fma mn mx n i) := by
      intro i hi
      unfold BinAxis.getBinLowEdge
      rw [h7]
      unfold at_
      simp [hi]
    have highAt : ∀ i, i < n → a.getBinHighEdge i = .ok (edgeR R fma mn mx n (i + 1)) := by
      intro i hi
      unfold BinAxis.getBinHighEdge
      rw [h8]
      unfold at_
      simp [hi]
    refine ⟨h3, h4, ?_, fun i hi => ?_, fun i hi => ?_⟩
    · rw [lowAt 0 h2, edgeR_zero R fma hmn]
    · rw [highAt i (by omega), lowAt (i + 1) hi]
    · exact ⟨_, _, ⟨lowAt i hi, highAt i hi⟩, edgeR_mono R fma h1 n (Nat.le_succ i), edgeR_double .., edgeR_double ..⟩

/-- The axis with the same edges whose other members are exact. -/
theorem exists_ideal {R : Rounding α} {fma : Bool} {nm lx : String} {mn mx : α} {n : Nat} {a : BinAxis α}
    (h : mkEqualR R fma nm mn mx n lx = .ok a) (hmn : R.rnd mn = mn) : ∃ a' : BinAxis α, a'.Contiguous ∧ a'.name = a.name ∧
    a'.nBins = a.nBins ∧ a'.lowEdges = a.lowEdges ∧ a'.highEdges = a.highEdges ∧ a'.min = mn ∧
    a'.max = edgeR R fma mn mx n n := by
  obtain ⟨h1, h2, h3, h4, h5, h6, h7, h8⟩ := mkEqualR_ok h
  have hL : LegalEdges a.lowEdges a.highEdges := by
    rw [h7, h8]
    refine ⟨by simp, by simp; omega, fun i x y hx hy => ?_, fun i x y hx hy => ?_⟩
    · simp only [List.getElem?_map, Option.map_eq_some_iff, List.getElem?_range] at hx hy
      obtain ⟨k, hk, rfl⟩ := hx
      obtain ⟨l, hl, rfl⟩ := hy
      have ek : k = i := by have := List.getElem?_eq_some_iff.1 hk; obtain ⟨_, e⟩ := this; simpa using e.symm
      have el : l = i + 1 := by have := List.getElem?_eq_some_iff.1 hl; obtain ⟨_, e⟩ := this; simpa using e.symm
      exact edgeR_mono R fma h1 n (by omega)
    · simp only [List.getElem?_map, Option.map_eq_some_iff] at hx hy
      obtain ⟨k, hk, rfl⟩ := hx
      obtain ⟨l, hl, rfl⟩ := hy
      have ek : k = i := by have := List.getElem?_eq_some_iff.1 hk; obtain ⟨_, e⟩ := this; simpa using e.symm
      have el : l = i := by have := List.getElem?_eq_some_iff.1 hl; obtain ⟨_, e⟩ := this; simpa using e.symm
      exact edgeR_mono R fma h1 n (by omega)
  obtain ⟨a', e1, e2, e3, e4, e5, e6⟩ := (C02_edgesAxis a.name lx a.lowEdges a.highEdges).1 hL
  have hc : a'.Contiguous := by
    refine C02_edgesAxis_contiguous a.name lx a.lowEdges a.highEdges a' ?_ e1
    intro i x y hx hy
    rw [h8] at hx
    rw [h7] at hy
    simp only [List.getElem?_map, Option.map_eq_some_iff] at hx hy
    obtain ⟨k, hk, rfl⟩ := hx
    obtain ⟨l, hl, rfl⟩ := hy
    have ek : k = i := by have := List.getElem?_eq_some_iff.1 hk; obtain ⟨_, e⟩ := this; simpa using e.symm
    have el : l = i + 1 := by have := List.getElem?_eq_some_iff.1 hl; obtain ⟨_, e⟩ := this; simpa using e.symm
    rw [ek, el]
  have edges : a'.lowEdges = a.lowEdges ∧ a'.highEdges = a.highEdges := by
    unfold mkEdges at e1
    obtain ⟨_, _, e1⟩ := Res.bind_eq_ok.1 e1
    obtain ⟨_, _, e1⟩ := Res.bind_eq_ok.1 e1
    obtain ⟨_, _, e1⟩ := Res.bind_eq_ok.1 e1
    obtain ⟨_, _, e1⟩ := Res.bind_eq_ok.1 e1
    obtain ⟨_, _, e1⟩ := Res.bind_eq_ok.1 e1
    obtain ⟨_, _, e1⟩ := Res.bind_eq_ok.1 e1
    have := Res.ok.inj e1
    subst this
    exact ⟨rfl, rfl⟩
  have hlen : a.lowEdges.length = n := by rw [h7]; simp
  refine ⟨a', hc, e2, by rw [e3, hlen, h4], edges.1, edges.2, ?_, ?_⟩
  · rw [h7] at e5
    simp [h2] at e5
    rw [← e5, edgeR_zero R fma hmn]
  · rw [h8, h7] at e6
    obtain ⟨m, rfl⟩ : ∃ m, n = m + 1 := ⟨n - 1, by omega⟩
    simp at e6
    exact e6.symm

/-- C102: looking up a value in a rounded axis: every value is put into one bin; between the first and the last edge it is the
one bin whose stored edges contain it, below the first bin, above the last. -/
theorem C102_lookup (R : Rounding α) (fma : Bool) (nm lx : String) (mn mx : α) (n : Nat) (hmn : R.rnd mn = mn) (a : BinAxis α)
    (h : mkEqualR R fma nm mn mx n lx = .ok a) (v top : α) (ht : a.getBinHighEdge (n - 1) = .ok top) :
    a.findBin v < n ∧
    (mn ≤ v → v < top → ∀ i lo hi, a.BinIs i lo hi → ((lo ≤ v ∧ v < hi) ↔ i = a.findBin v)) ∧
    (v < mn → a.findBin v = 0) ∧ (top ≤ v → a.findBin v = n - 1) := by
  obtain ⟨h1, h2, h3, h4, h5, h6, h7, h8⟩ := mkEqualR_ok h
  obtain ⟨a', hc, e1, e2, e3, e4, e5, e6⟩ := exists_ideal h hmn
  have hf : a.findBin v = a'.findBin v := by unfold BinAxis.findBin; rw [e4, e2]
  have htop : top = edgeR R fma mn mx n n := by
    unfold BinAxis.getBinHighEdge at ht
    rw [h8] at ht
    unfold at_ at ht
    obtain ⟨m, rfl⟩ : ∃ m, n = m + 1 := ⟨n - 1, by omega⟩
    simp at ht
    exact ht.symm
  obtain ⟨g1, g2, g3, g4⟩ := C03_findBin a' hc v
  rw [hf]
  rw [e2, h4] at g1
  rw [e5, e6, ← htop] at g2
  rw [e5] at g3
  rw [e6, ← htop, e2, h4] at g4
  refine ⟨g1, fun hv1 hv2 i lo hi hb => g2 hv1 hv2 i lo hi ?_, g3, g4⟩
  unfold BinIs BinAxis.getBinLowEdge BinAxis.getBinHighEdge at hb ⊢
  rw [e3, e4]
  exact hb

/-! ### Lookup in several dimensions -/

/-- Two axes with the same name and bins. -/
def SameBins (a b : BinAxis α) : Prop := a.name = b.name ∧ a.nBins = b.nBins ∧ a.lowEdges = b.lowEdges ∧ a.highEdges = b.highEdges

theorem SameBins.findBin {a b : BinAxis α} (h : SameBins a b) (v : α) : a.findBin v = b.findBin v := by
  unfold BinAxis.findBin; rw [h.2.2.2, h.2.1]

theorem sameBins_shape {as bs : List (BinAxis α)} (h : List.Forall₂ SameBins as bs) : shape as = shape bs := by
  induction h with
  | nil => rfl
  | cons h _ ih => simp only [shape, List.map_cons] at ih ⊢; rw [ih, h.2.1]

theorem sameBins_zip {as bs : List (BinAxis α)} (h : List.Forall₂ SameBins as bs) (vs : List α) :
    List.zipWith BinAxis.findBin as vs = List.zipWith BinAxis.findBin bs vs := by
  induction h generalizing vs with
  | nil => rfl
  | cons h _ ih =>
    cases vs with
    | nil => rfl
    | cons v vs => simp only [List.zipWith_cons_cons]; rw [ih, h.findBin]

theorem findBin_congr {as bs : List (BinAxis α)} {c d : AxisCollection α} (hc : Holds c as) (hd : Holds d bs)
    (h : List.Forall₂ SameBins as bs) (hne : as ≠ []) (vs : List α) : c.findBin vs = d.findBin vs := by
  have hlen := h.length_eq
  have hne' : bs ≠ [] := by
    intro hb; subst hb; simp at hlen; exact hne hlen
  by_cases hl : vs.length = as.length
  · rw [hc.findBin hne hl, hd.findBin hne' (by omega), sameBins_shape h, sameBins_zip h]
  · have h1 : c.nDims = as.length := hc.dims
    have h2 : d.nDims = bs.length := hd.dims
    unfold AxisCollection.findBin
    rw [Res.throwIf_true_of (by omega), Res.throwIf_true_of (by omega)]
    rfl

/-! ### Counting -/

/-- The contents are natural numbers adding up to `s`. -/
def Counts (cs : List α) (s : Nat) : Prop := ∃ ks : List Nat, cs = ks.map (fun (k : Nat) => (k : α)) ∧ ks.sum = s

theorem sum_set_add (ks : List Nat) (b : Nat) {k : Nat} (hk : ks[b]? = some k) (d : Nat) :
    k ≤ ks.sum ∧ (ks.set b (k + d)).sum = ks.sum + d := by
  induction ks generalizing b with
  | nil => simp at hk
  | cons a ks ih =>
    cases b with
    | zero =>
      simp only [List.getElem?_cons_zero, Option.some.injEq] at hk
      subst hk
      simp; omega
    | succ b =>
      simp only [List.getElem?_cons_succ] at hk
      obtain ⟨h1, h2⟩ := ih b hk
      simp [h2]; omega

theorem Counts.step {cs : List α} {s : Nat} (h : Counts cs s) {b : Nat} {x : α} (hx : idx cs b = .ok x) :
    ∃ k : Nat, x = k ∧ k ≤ s ∧ ∀ (d : Nat) cs', setIdx cs b ((k : α) + d) = .ok cs' → Counts cs' (s + d) := by
  obtain ⟨ks, rfl, hs⟩ := h
  have hx' : (ks.map (fun (k : Nat) => (k : α)))[b]? = some x := by
    unfold idx at hx
    split at hx
    · rename_i y hy; cases hx; exact hy
    · cases hx
  simp only [List.getElem?_map, Option.map_eq_some_iff] at hx'
  obtain ⟨k, hk, rfl⟩ := hx'
  refine ⟨k, rfl, ?_, fun d cs' hcs => ⟨ks.set b (k + d), ?_, ?_⟩⟩
  · rw [← hs]; exact (sum_set_add ks b hk 0).1
  · unfold setIdx at hcs
    split at hcs
    · cases hcs
      rw [List.map_set]
      push_cast
      rfl
    · cases hcs
  · rw [(sum_set_add ks b hk d).2, hs]

theorem Counts.zeros (n : Nat) : Counts (List.replicate n (0 : α)) 0 :=
  ⟨List.replicate n 0, by simp, by simp⟩

/-- C102: filling with unit weights in machine arithmetic is filling exactly, as long as the number of events stays within what
the machine counts exactly — the same outcome for every sequence of values, in any histogram of counts. -/
theorem C102_fill (R : Rounding α) (h : Histogram α) (evs : List (List α)) (s : Nat) (hs : Counts h.contents s)
    (hB : s + evs.length ≤ R.exactTo) : h.fillUnitsR R evs = fillAll h (evs.map (fun vs => (vs, (1 : α)))) ∧
    ∀ h', h.fillUnitsR R evs = .ok h' → Counts h'.contents (s + evs.length) := by
  induction evs generalizing h s with
  | nil => exact ⟨rfl, fun h' e => by cases e; exact hs⟩
  | cons vs evs ih =>
    have hstep : h.fillR R vs 1 = h.fill vs 1 ∧ ∀ g, h.fill vs 1 = .ok g → Counts g.contents (s + 1) := by
      unfold fillR Histogram.fill
      cases Res.throwIf (vs.length ≠ h.nDims) .dimension with
      | throw e => exact ⟨rfl, fun g hg => by cases hg⟩
      | ub => exact ⟨rfl, fun g hg => by cases hg⟩
      | ok u =>
        simp only [Res.ok_bind]
        cases h.findBin vs with
        | throw e => exact ⟨rfl, fun g hg => by cases hg⟩
        | ub => exact ⟨rfl, fun g hg => by cases hg⟩
        | ok b =>
          simp only [Res.ok_bind]
          cases hx : idx h.contents b with
          | throw e => exact ⟨rfl, fun g hg => by cases hg⟩
          | ub => exact ⟨rfl, fun g hg => by cases hg⟩
          | ok x =>
            obtain ⟨k, rfl, hk, hset⟩ := hs.step hx
            simp only [Res.ok_bind]
            have hr : R.rnd ((k : α) + 1) = (k : α) + 1 := by
              have := R.exact (k + 1) (by simp at hB; omega)
              push_cast at this
              exact this
            rw [hr]
            refine ⟨rfl, fun g hg => ?_⟩
            obtain ⟨cs, hcs, hg⟩ := Res.bind_eq_ok.1 hg
            cases hg
            exact hset 1 cs (by simpa using hcs)
    simp only [fillUnitsR, fillAll, List.map_cons, Res.forFold]
    rw [hstep.1]
    cases hf : h.fill vs 1 with
    | throw e => exact ⟨rfl, fun h' e => by cases e⟩
    | ub => exact ⟨rfl, fun h' e => by cases e⟩
    | ok g =>
      simp only [Res.ok_bind]
      have := ih g (s + 1) (hstep.2 g hf) (by simp at hB; omega)
      refine ⟨this.1, fun h' he => ?_⟩
      have := this.2 h' he
      rw [List.length_cons]
      rwa [show s + (evs.length + 1) = s + 1 + evs.length by omega]

theorem foldl_rnd (R : Rounding α) (ks : List Nat) (s : Nat) (hB : s + ks.sum ≤ R.exactTo) :
    (ks.map (fun (k : Nat) => (k : α))).foldl (fun a b => R.rnd (a + b)) (s : α) = ((s + ks.sum : Nat) : α) := by
  induction ks generalizing s with
  | nil => simp
  | cons k ks ih =>
    simp only [List.map_cons, List.foldl_cons, List.sum_cons] at hB ⊢
    have : R.rnd ((s : α) + k) = ((s + k : Nat) : α) := by
      have := R.exact (s + k) (by omega)
      rw [← this]
      push_cast
      rfl
    rw [this, ih (s + k) (by omega)]
    congr 1; omega

/-- C102: the integral of a histogram of counts is their number exactly. -/
theorem C102_integral (R : Rounding α) (h : Histogram α) (s : Nat) (hs : Counts h.contents s) (hn : h.contents.length = h.nBins)
    (hB : s ≤ R.exactTo) : h.integralR R = s := by
  obtain ⟨ks, e, rfl⟩ := hs
  unfold integralR
  rw [← hn, List.take_length, e]
  have := foldl_rnd (α := α) R ks 0 (by omega)
  simpa using this

theorem margStepR_eq (R : Rounding α) (h : Histogram α) (idxs : List Nat) (m : Histogram α) (b s c : Nat)
    (hs : Counts m.contents s) (hc : ∀ x, at_ h.contents b = .ok x → x = (c : α)) (hB : s + c ≤ R.exactTo) :
    margStepR R h idxs m b = margStep h idxs m b ∧ ∀ m', margStep h idxs m b = .ok m' → Counts m'.contents (s + c) := by
  unfold margStepR margStep
  cases Res.traverse (fun i => h.axes.unflattenIndex b i) (List.range h.nDims) with
  | throw e => exact ⟨rfl, fun g hg => by cases hg⟩
  | ub => exact ⟨rfl, fun g hg => by cases hg⟩
  | ok old =>
    simp only [Res.ok_bind]
    cases Res.traverse (fun k => at_ old k) idxs with
    | throw e => exact ⟨rfl, fun g hg => by cases hg⟩
    | ub => exact ⟨rfl, fun g hg => by cases hg⟩
    | ok new =>
      simp only [Res.ok_bind]
      cases m.axes.flattenIndices new with
      | throw e => exact ⟨rfl, fun g hg => by cases hg⟩
      | ub => exact ⟨rfl, fun g hg => by cases hg⟩
      | ok nb =>
        simp only [Res.ok_bind]
        cases hx : at_ h.contents b with
        | throw e => exact ⟨rfl, fun g hg => by cases hg⟩
        | ub => exact ⟨rfl, fun g hg => by cases hg⟩
        | ok x =>
          have := hc x hx
          subst this
          simp only [Res.ok_bind]
          unfold addBinContentR addBinContent
          split
          · exact ⟨rfl, fun g hg => by cases hg⟩
          · cases hy : idx m.contents nb with
            | throw e => exact ⟨rfl, fun g hg => by cases hg⟩
            | ub => exact ⟨rfl, fun g hg => by cases hg⟩
            | ok y =>
              obtain ⟨k, rfl, hk, hset⟩ := hs.step hy
              simp only [Res.ok_bind]
              have hr : R.rnd ((k : α) + c) = (k : α) + c := by
                have := R.exact (k + c) (by omega)
                push_cast at this
                exact this
              rw [hr]
              refine ⟨rfl, fun g hg => ?_⟩
              obtain ⟨cs, hcs, hg⟩ := Res.bind_eq_ok.1 hg
              cases hg
              exact hset c cs hcs

theorem margLoop_eq (R : Rounding α) (h : Histogram α) (idxs : List Nat) (ks : List Nat)
    (hk : h.contents = ks.map (fun (k : Nat) => (k : α))) (l : List Nat) (m : Histogram α) (s : Nat) (hs : Counts m.contents s)
    (hB : s + (l.map (fun b => ks.getD b 0)).sum ≤ R.exactTo) :
    Res.forFold (margStepR R h idxs) m l = Res.forFold (margStep h idxs) m l := by
  induction l generalizing m s with
  | nil => rfl
  | cons b l ih =>
    simp only [List.map_cons, List.sum_cons] at hB
    have hstep := margStepR_eq R h idxs m b s (ks.getD b 0) hs (by
      intro x hx
      rw [hk] at hx
      unfold at_ at hx
      split at hx
      · rename_i y hy
        cases hx
        simp only [List.getElem?_map, Option.map_eq_some_iff] at hy
        obtain ⟨k, hk', rfl⟩ := hy
        simp [hk']
      · cases hx) (by omega)
    simp only [Res.forFold]
    rw [hstep.1]
    cases hf : margStep h idxs m b with
    | throw e => rfl
    | ub => rfl
    | ok m' =>
      simp only [Res.ok_bind]
      exact ih m' _ (hstep.2 m' hf) (by omega)

/-- C102: projecting a histogram of counts is exact, too. -/
theorem C102_marginalise (R : Rounding α) (h : Histogram α) (s : Nat) (hs : Counts h.contents s) (hn : h.contents.length = h.nBins)
    (hB : s ≤ R.exactTo) (names : List String) : h.marginaliseR R names = h.marginalise names := by
  obtain ⟨ks, hk, rfl⟩ := hs
  unfold marginaliseR marginalise
  cases Res.throwIf (∃ n ∈ names, findPos h.axes.axisNames n = none) .notFound with
  | throw e => rfl
  | ub => rfl
  | ok u =>
    simp only [Res.ok_bind]
    cases Res.traverse h.axes.getAxisIndex names with
    | throw e => rfl
    | ub => rfl
    | ok idxs =>
      simp only [Res.ok_bind]
      cases Res.forFold (fun c n => do
        let a ← h.axes.getAxisByName n
        AxisCollection.addAxis c a) AxisCollection.empty names with
      | throw e => rfl
      | ub => rfl
      | ok newAxes =>
        simp only [Res.ok_bind]
        have hz : Counts (ofAxes newAxes : Histogram α).contents 0 := by
          have : (ofAxes newAxes : Histogram α).contents = List.replicate newAxes.nBins 0 := by
            simp [ofAxes, setAxes, Histogram.empty, resize]
          rw [this]; exact Counts.zeros _
        refine margLoop_eq R h idxs ks hk _ _ 0 hz ?_
        have hl : ks.length = h.nBins := by rw [← hn, hk, List.length_map]
        have : (List.range h.nBins).map (fun b => ks.getD b 0) = ks := by
          rw [← hl]
          apply List.ext_getElem
          · simp
          · intro i h1 h2; simp [List.getD_eq_getElem?_getD, List.getElem?_eq_getElem h2]
        rw [this]
        omega

/-! ### Everything together -/

/-- An axis made by the equal-width constructor in machine arithmetic, from a minimum that is a machine number. -/
def MadeRounded (R : Rounding α) (fma : Bool) (a : BinAxis α) : Prop :=
  ∃ nm lx mn mx n, R.rnd mn = mn ∧ mkEqualR R fma nm mn mx n lx = .ok a

theorem ideals {R : Rounding α} {fma : Bool} {as : List (BinAxis α)} (h : ∀ a ∈ as, MadeRounded R fma a) :
    ∃ bs : List (BinAxis α), List.Forall₂ SameBins as bs ∧ ∀ b ∈ bs, b.Contiguous := by
  induction as with
  | nil => exact ⟨[], .nil, by simp⟩
  | cons a as ih =>
    obtain ⟨bs, h1, h2⟩ := ih (fun b hb => h b (by simp [hb]))
    obtain ⟨nm, lx, mn, mx, n, hmn, ha⟩ := h a (by simp)
    obtain ⟨a', hc, e1, e2, e3, e4, _, _⟩ := exists_ideal ha hmn
    refine ⟨a' :: bs, .cons ⟨e1.symm, e2.symm, e3.symm, e4.symm⟩ h1, ?_⟩
    intro b hb
    rcases List.mem_cons.1 hb with rfl | hb
    · exact hc
    · exact h2 b hb

theorem holds_ideal {as bs : List (BinAxis α)} {c : AxisCollection α} (h : Holds c as) (hs : List.Forall₂ SameBins as bs) :
    Holds { c with axes := bs } bs := by
  have hn : as.map (·.name) = bs.map (·.name) := by
    clear h
    induction hs with
    | nil => rfl
    | cons h _ ih => simp only [List.map_cons]; rw [ih, h.1]
  have he : as = [] ↔ bs = [] := by
    have := hs.length_eq
    constructor
    · rintro rfl; simpa using this.symm
    · rintro rfl; simpa using this
  refine ⟨rfl, by rw [← hn]; exact h.names, by rw [← sameBins_shape hs]; exact h.nbins, by rw [← hs.length_eq]; exact h.dims, ?_, ?_⟩
  · have := h.total
    by_cases ha : as = []
    · rw [if_pos ha] at this; rw [if_pos (he.1 ha)]; exact this
    · rw [if_neg ha] at this; rw [if_neg (fun hb => ha (he.2 hb)), ← sameBins_shape hs]; exact this
  · rw [← hn]; exact h.nodup

theorem fillAll_reaxis (c d : AxisCollection α) (hcd : ∀ vs, c.findBin vs = d.findBin vs) (evs : List (List α × α)) :
    ∀ h : Histogram α, h.axes = c → fillAll { h with axes := d } evs = fillAll h evs >>= fun g => .ok { g with axes := d } := by
  induction evs with
  | nil => intro h hh; rfl
  | cons e evs ih =>
    intro h hh
    have hstep : ({ h with axes := d } : Histogram α).fill e.1 e.2 = h.fill e.1 e.2 >>= fun g => .ok { g with axes := d } := by
      unfold Histogram.fill Histogram.findBin
      rw [hh, hcd]
      cases Res.throwIf (e.1.length ≠ h.nDims) .dimension with
      | throw e => rfl
      | ub => rfl
      | ok u =>
        simp only [Res.ok_bind]
        cases d.findBin e.1 with
        | throw e => rfl
        | ub => rfl
        | ok b =>
          simp only [Res.ok_bind]
          cases idx h.contents b with
          | throw e => rfl
          | ub => rfl
          | ok x =>
            simp only [Res.ok_bind]
            cases setIdx h.contents b (x + e.2) <;> rfl
    simp only [fillAll, Res.forFold]
    rw [hstep]
    cases hf : h.fill e.1 e.2 with
    | throw e => rfl
    | ub => rfl
    | ok g =>
      simp only [Res.ok_bind]
      have hg : g.axes = c := by
        unfold Histogram.fill at hf
        obtain ⟨_, _, hf⟩ := Res.bind_eq_ok.1 hf
        obtain ⟨_, _, hf⟩ := Res.bind_eq_ok.1 hf
        obtain ⟨_, _, hf⟩ := Res.bind_eq_ok.1 hf
        obtain ⟨_, _, hf⟩ := Res.bind_eq_ok.1 hf
        cases hf
        exact hh
      exact ih g hg

/-- C102: a histogram over axes made in machine arithmetic, filled in machine arithmetic with any sequence of at most as many
events as the machine counts exactly: every bin holds exactly the number of events looked up to it, and the integral computed
in machine arithmetic is exactly the number of events. -/
theorem C102_counts (R : Rounding α) (fma : Bool) (as : List (BinAxis α)) (hne : as ≠ []) (ha : ∀ a ∈ as, MadeRounded R fma a)
    (c : AxisCollection α) (hb : (empty : AxisCollection α).addAxes as = .ok c) (evs : List (List α))
    (hd : ∀ e ∈ evs, e.length = as.length) (hB : evs.length ≤ R.exactTo) :
    ∃ h', (ofAxes c).fillUnitsR R evs = .ok h' ∧ h'.nBins = c.nBins ∧
      (∀ b, b < c.nBins → h'.getBinContent b = .ok ((evs.filter (fun e => c.findBin e = .ok b)).length : α)) ∧
      h'.integralR R = (evs.length : α) := by
  have hH := holds_of_addAxes hb
  obtain ⟨bs, hs, hcon⟩ := ideals ha
  have hne' : bs ≠ [] := by intro h; subst h; have := hs.length_eq; simp at this; exact hne this
  have hI := holds_ideal hH hs
  have hcd : ∀ vs, c.findBin vs = ({ c with axes := bs } : AxisCollection α).findBin vs := findBin_congr hH hI hs hne
  have hcz : (ofAxes c : Histogram α).contents = List.replicate c.nBins 0 := by
    simp [ofAxes, setAxes, Histogram.empty, resize]
  have hz : Counts (ofAxes c : Histogram α).contents 0 := by rw [hcz]; exact Counts.zeros _
  obtain ⟨f1, f2⟩ := C102_fill R (ofAxes c) evs 0 hz (by omega)
  obtain ⟨g, g1, g2, g3, g4, g5⟩ := C07_fill_sequence bs _ (valid_ofAxes hI hne') hcon (evs.map (fun vs => (vs, (1 : α))))
    (by intro e he; simp only [List.mem_map] at he; obtain ⟨v, hv, rfl⟩ := he; rw [← hs.length_eq]; exact hd v hv)
  have hre : (ofAxes ({ c with axes := bs } : AxisCollection α) : Histogram α) = { (ofAxes c : Histogram α) with axes := { c with axes := bs } } := rfl
  rw [hre, fillAll_reaxis c _ hcd _ _ rfl] at g1
  obtain ⟨h', e1, e2⟩ := Res.bind_eq_ok.1 g1
  have e2 := Res.ok.inj e2
  subst e2
  have hc' : Counts h'.contents evs.length := by
    have := f2 h' (by rw [f1]; exact e1)
    simpa using this
  have hnb : h'.nBins = c.nBins := g3
  have hlen : h'.contents.length = h'.nBins := by
    have hv := valid_ofAxes hH hne
    have hl : ∀ (l : List (List α × α)) (h h' : Histogram α), fillAll h l = .ok h' → h'.contents.length = h.contents.length := by
      intro l
      induction l with
      | nil => intro h h' e; cases e; rfl
      | cons e l ih =>
        intro h h' he
        obtain ⟨m, hm, hl⟩ := Res.forFold_cons_eq_ok.1 he
        rw [ih m h' hl]
        unfold Histogram.fill at hm
        obtain ⟨_, _, hm⟩ := Res.bind_eq_ok.1 hm
        obtain ⟨_, _, hm⟩ := Res.bind_eq_ok.1 hm
        obtain ⟨_, _, hm⟩ := Res.bind_eq_ok.1 hm
        obtain ⟨cs, hcs, hm⟩ := Res.bind_eq_ok.1 hm
        cases hm
        unfold setIdx at hcs
        split at hcs
        · cases hcs; simp
        · cases hcs
    rw [hl _ _ _ e1, hnb, hcz, List.length_replicate]
  refine ⟨h', by rw [f1]; exact e1, hnb, fun b hb => ?_, C102_integral R h' _ hc' hlen hB⟩
  obtain ⟨x, x1, x2⟩ := g4 b hb
  have hx : x = 0 := by
    unfold Histogram.getBinContent at x1
    rw [if_neg (by show ¬ b > c.nBins; omega)] at x1
    have hz0 : (ofAxes ({ c with axes := bs } : AxisCollection α) : Histogram α).contents = List.replicate c.nBins 0 := hcz
    rw [hz0, idx_of_lt (by simpa using hb)] at x1
    have := Res.ok.inj x1
    simpa [hb] using this.symm
  have : h'.getBinContent b = ({ h' with axes := { c with axes := bs } } : Histogram α).getBinContent b := rfl
  rw [this, x2, hx, zero_add]
  congr 1
  have hfil : ∀ l : List (List α), (((l.map (fun vs => (vs, (1 : α)))).filter (fun e =>
      (ofAxes ({ c with axes := bs } : AxisCollection α) : Histogram α).findBin e.1 = .ok b)).map (·.2)).sum =
      ((l.filter (fun e => c.findBin e = .ok b)).length : α) := by
    intro l
    induction l with
    | nil => simp
    | cons v l ih =>
      have hv : (ofAxes ({ c with axes := bs } : AxisCollection α) : Histogram α).findBin v = c.findBin v := (hcd v).symm
      by_cases h : c.findBin v = .ok b
      · simp only [List.map_cons, List.filter_cons, hv, h, decide_true, if_true, List.sum_cons, List.length_cons, ih]
        push_cast; ring
      · simp only [List.map_cons, List.filter_cons, hv, h, decide_false, Bool.false_eq_true, if_false, ih]
  exact hfil evs

/-- C102, what rounding does change: on doubles, 49 equal bins from 0 to 1 do not end at 1, the stored maximum, but at the machine
number before it. -/
theorem C102_last_edge_wrong (fma : Bool) : ∃ a, mkEqualR (Ieee.double : Rounding ℚ) fma "x" 0 1 49 = .ok a ∧ a.max = 1 ∧
    a.getBinHighEdge 48 = .ok (1 - 1 / 2 ^ 53) := by
  cases fma <;> exact ⟨_, rfl, rfl, by decide +kernel⟩

/-- C102, the limit is real: on doubles a bin that holds 2^53 events does not take any more. -/
theorem C102_saturates_wrong (as : List (BinAxis ℚ)) (h : Histogram ℚ) (hv : h.Valid as) (hc : ∀ a ∈ as, a.Contiguous) (vs : List ℚ)
    (hl : vs.length = as.length) (hx : ∀ b, h.findBin vs = .ok b → h.contents[b]? = some (2 ^ 53)) :
    h.fillR (Ieee.double : Rounding ℚ) vs 1 = .ok h := by
  obtain ⟨b, h1, h2, h3⟩ := hv.fill hc hl 1
  have hb := hx b h1
  have hr : (Ieee.double : Rounding ℚ).rnd (2 ^ 53 + 1) = 2 ^ 53 := by decide +kernel
  have hlt : b < h.contents.length := by rw [hv.len, ← hv.nb]; exact h2
  unfold fillR
  rw [Res.throwIf_false_of (by rw [hv.nd]; omega)]
  simp only [Res.ok_bind, Histogram.findBin, h1]
  unfold idx setIdx
  simp only [hb, Res.ok_bind, hr, if_pos hlt]
  have : h.contents.set b (2 ^ 53) = h.contents := by
    have e : h.contents[b] = 2 ^ 53 := by
      rw [List.getElem?_eq_getElem hlt] at hb
      exact Option.some.inj hb
    rw [← e]; simp
  rw [this]
  rfl

/-- Beside them: three events in ten equal bins from 0 to 1, on doubles. The value 3/10, as a double, is below the fourth edge,
as a double, and counted in the third bin; a value between two edges is counted between them. -/
example : ∃ a c, mkEqualR (Ieee.double : Rounding ℚ) false "x" 0 1 10 = .ok a ∧ (empty : AxisCollection ℚ).addAxes [a] = .ok c ∧
    MadeRounded (Ieee.double : Rounding ℚ) false a ∧
    ((ofAxes c).fillUnitsR (Ieee.double : Rounding ℚ) [[Ieee.rnd 53 (3/10)], [Ieee.rnd 53 (31/100)], [5]] >>= fun h => Res.ok h.contents) =
      .ok [0, 0, 1, 1, 0, 0, 0, 0, 0, 1] := by
  have : (mkEqualR (Ieee.double : Rounding ℚ) false "x" 0 1 10 >>= fun a => (empty : AxisCollection ℚ).addAxes [a] >>= fun c =>
    (ofAxes c).fillUnitsR (Ieee.double : Rounding ℚ) [[Ieee.rnd 53 (3/10)], [Ieee.rnd 53 (31/100)], [5]] >>= fun h => Res.ok h.contents) =
      .ok [0, 0, 1, 1, 0, 0, 0, 0, 0, 1] := by decide +kernel
  obtain ⟨a, ha, this⟩ := Res.bind_eq_ok.1 this
  obtain ⟨c, hc, this⟩ := Res.bind_eq_ok.1 this
  exact ⟨a, c, ha, hc, ⟨_, _, _, _, _, by decide +kernel, ha⟩, this⟩

example : (Ieee.double : Rounding ℚ).exactTo = 2 ^ 53 := rfl

end Oxsx
