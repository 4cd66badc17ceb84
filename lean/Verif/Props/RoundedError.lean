import Verif.Lemmas.RoundedConstraint
import Verif.Props.Rounded
import Verif.Props.FitQuality
import Mathlib.Analysis.SpecialFunctions.Log.Basic
/-
C103: what rounding does to contents, integrals, normalised histograms, projections, expected numbers of events and the
likelihood: the errors are bounded, relative to the exact result, by the number of operations. The exception is the variance.
-/
set_option linter.unusedVariables false
set_option linter.unusedSectionVars false
set_option linter.unusedSimpArgs false
namespace Oxsx
variable {σ α : Type} [Field α] [LinearOrder α] [IsStrictOrderedRing α]

/-- C103: the rounding of doubles has a relative error of at most 2^-53, and `k` such errors amount to at most `2 k 2^-53` as
long as there are no more than 2^52 of them. -/
theorem C103_double [FloorRing α] : (∀ x : α, |Ieee.rnd 53 x - x| ≤ 1 / 2 ^ 53 * |x|) ∧
    (Ieee.doubleArith : Arith α).rnd = Ieee.rnd 53 ∧ (Ieee.doubleArith : Arith α).u = 1 / 2 ^ 53 ∧
    ∀ k : Nat, k ≤ 2 ^ 52 → 1 / (1 - (Ieee.doubleArith : Arith α).u) ^ k - 1 ≤ 2 * k * (1 / 2 ^ 53) := by
  refine ⟨Ieee.rnd_near 53, rfl, rfl, fun k hk => errors_le (Ieee.doubleArith : Arith α).u_nonneg ?_⟩
  show (k : α) * (1 / 2 ^ 53) ≤ 1 / 2
  have : (k : α) ≤ 2 ^ 52 := by exact_mod_cast hk
  calc (k : α) * (1 / 2 ^ 53) ≤ 2 ^ 52 * (1 / 2 ^ 53) := mul_le_mul_of_nonneg_right this (by positivity)
    _ = 1 / 2 := by norm_num

namespace Histogram

/-- Two histograms that differ in their contents only, and there by `k` relative errors. -/
structure NearBy (u : α) (k : Nat) (h h' : Histogram α) : Prop where
  same : h' = { h with contents := h'.contents }
  near : List.Forall₂ (Near u k) h.contents h'.contents

variable {u : α} (h0 : 0 ≤ u) (h1 : u < 1)
include h0 h1

theorem nearBy_refl (k : Nat) {h : Histogram α} (hc : ∀ x ∈ h.contents, 0 ≤ x) : NearBy u k h h := by
  refine ⟨rfl, ?_⟩
  have : ∀ l : List α, (∀ x ∈ l, 0 ≤ x) → List.Forall₂ (Near u k) l l := by
    intro l
    induction l with
    | nil => intro _; exact .nil
    | cons x l ih => intro hl; exact .cons (.refl h0 h1 k (hl x (by simp))) (ih (fun y hy => hl y (by simp [hy])))
  exact this _ hc

theorem NearBy.mono {k l : Nat} (hkl : k ≤ l) {h h' : Histogram α} (hn : NearBy u k h h') : NearBy u l h h' :=
  ⟨hn.same, hn.near.imp (fun _ _ a => a.mono h0 h1 hkl)⟩

omit h0 h1

theorem forall₂_get {P : α → α → Prop} {l l' : List α} (h : List.Forall₂ P l l') {b : Nat} {x : α} (hx : l[b]? = some x) :
    ∃ x', l'[b]? = some x' ∧ P x x' := by
  induction h generalizing b with
  | nil => simp at hx
  | cons a _ ih =>
    cases b with
    | zero => simp at hx; subst hx; exact ⟨_, rfl, a⟩
    | succ b => simp at hx ⊢; exact ih hx

theorem forall₂_set {P : α → α → Prop} {l l' : List α} (h : List.Forall₂ P l l') (b : Nat) {y y' : α} (hy : P y y') :
    List.Forall₂ P (l.set b y) (l'.set b y') := by
  induction h generalizing b with
  | nil => exact .nil
  | cons a t ih =>
    cases b with
    | zero => exact .cons hy t
    | succ b => exact .cons a (ih b)

theorem idx_eq_ok {l : List α} {b : Nat} {x : α} : idx l b = .ok x ↔ l[b]? = some x := by
  unfold idx
  cases l[b]? with
  | none => simp
  | some y => simp

/-- Adding to a content. -/
theorem near_bump (R : Arith α) {k : Nat} {cs cs' : List α} (hn : List.Forall₂ (Near R.u k) cs cs') {b : Nat} {w : α}
    (hw : 0 ≤ w) {x : α} (hx : idx cs b = .ok x) {ds : List α} (hs : setIdx cs b (x + w) = .ok ds) :
    ∃ x' ds', idx cs' b = .ok x' ∧ setIdx cs' b (R.rnd (x' + w)) = .ok ds' ∧ List.Forall₂ (Near R.u (k + 1)) ds ds' := by
  have h0 := R.u_nonneg
  have h1 := R.u_lt
  obtain ⟨x', hx', hnx⟩ := forall₂_get hn (idx_eq_ok.1 hx)
  have hlt : b < cs.length := by
    have := idx_eq_ok.1 hx
    exact (List.getElem?_eq_some_iff.1 this).1
  have hlt' : b < cs'.length := hn.length_eq ▸ hlt
  unfold setIdx at hs ⊢
  rw [if_pos hlt] at hs
  have hs := Res.ok.inj hs
  refine ⟨x', _, idx_eq_ok.2 hx', by rw [if_pos hlt'], ?_⟩
  rw [← hs]
  refine forall₂_set (hn.imp (fun _ _ a => a.mono h0 h1 (Nat.le_succ k))) b ?_
  exact Near.rounded R (hnx.add h0 h1 (.refl h0 h1 k hw))

theorem near_fill (R : Arith α) {k : Nat} {h h' g : Histogram α} (hn : NearBy R.u k h h') {vs : List α} {w : α} (hw : 0 ≤ w)
    (hg : h.fill vs w = .ok g) : ∃ g', h'.fillR R.toRounding vs w = .ok g' ∧ NearBy R.u (k + 1) g g' := by
  unfold Histogram.fill at hg
  obtain ⟨_, a1, hg⟩ := Res.bind_eq_ok.1 hg
  obtain ⟨b, a2, hg⟩ := Res.bind_eq_ok.1 hg
  obtain ⟨x, a3, hg⟩ := Res.bind_eq_ok.1 hg
  obtain ⟨ds, a4, hg⟩ := Res.bind_eq_ok.1 hg
  have hg := Res.ok.inj hg
  obtain ⟨x', ds', b1, b2, b3⟩ := near_bump R hn.near hw a3 a4
  refine ⟨{ h' with contents := ds' }, ?_, ?_, by rw [← hg]; exact b3⟩
  · unfold fillR
    have e1 : h'.nDims = h.nDims := by rw [hn.same]
    have e2 : h'.findBin vs = h.findBin vs := by rw [hn.same]; rfl
    rw [e1, a1, Res.ok_bind, e2, a2, Res.ok_bind, b1, Res.ok_bind, b2]
    rfl
  · rw [← hg, hn.same]

theorem near_fillAll (R : Arith α) (evs : List (List α × α)) : ∀ {k : Nat} {h h' g : Histogram α}, NearBy R.u k h h' →
    (∀ e ∈ evs, 0 ≤ e.2) → fillAll h evs = .ok g → ∃ g', h'.fillAllR R.toRounding evs = .ok g' ∧ NearBy R.u (k + evs.length) g g' := by
  induction evs with
  | nil =>
    intro k h h' g hn _ hg
    cases hg
    exact ⟨h', rfl, hn⟩
  | cons e evs ih =>
    intro k h h' g hn hw hg
    obtain ⟨m, hm, hg⟩ := Res.forFold_cons_eq_ok.1 hg
    obtain ⟨m', hm', hnm⟩ := near_fill R hn (hw e (by simp)) hm
    obtain ⟨g', hg', hng⟩ := ih hnm (fun e' he => hw e' (by simp [he])) hg
    refine ⟨g', ?_, hng.mono R.u_nonneg R.u_lt (by simp; omega)⟩
    exact Res.forFold_cons_eq_ok.2 ⟨m', hm', hg'⟩

theorem near_foldl (R : Arith α) {k : Nat} {cs cs' : List α} (hn : List.Forall₂ (Near R.u k) cs cs') : ∀ {j : Nat} {a a' : α}, k ≤ j →
    Near R.u j a a' → Near R.u (j + cs.length) (cs.foldl (· + ·) a) (cs'.foldl (fun a b => R.rnd (a + b)) a') := by
  have h0 := R.u_nonneg
  have h1 := R.u_lt
  induction hn with
  | nil => intro j a a' _ h; exact h
  | cons hx _ ih =>
    intro j a a' hkj h
    have := ih (j := j + 1) (by omega) (Near.rounded R (h.add h0 h1 (hx.mono h0 h1 hkj)))
    simp only [List.foldl_cons, List.length_cons]
    convert this using 1
    omega

theorem near_integral (R : Arith α) {k : Nat} {h h' : Histogram α} (hn : NearBy R.u k h h') :
    Near R.u (k + h.nBins) h.integral (h'.integralR R.toRounding) := by
  have h0 := R.u_nonneg
  have h1 := R.u_lt
  have hnb : h'.nBins = h.nBins := by rw [hn.same]
  unfold integral integralR
  rw [hnb]
  have hf : List.Forall₂ (Near R.u k) (h.contents.take h.nBins) (h'.contents.take h.nBins) := List.forall₂_take h.nBins hn.near
  refine (near_foldl R hf (le_refl k) (.refl h0 h1 k (le_refl 0))).mono h0 h1 ?_
  simp

theorem near_normalise (R : Arith α) {k : Nat} {h h' : Histogram α} (hn : NearBy R.u k h h') (hp : 0 < h.integral) :
    NearBy R.u (2 * k + h.nBins + 1) h.normalise (h'.normaliseR R.toRounding) := by
  have h0 := R.u_nonneg
  have h1 := R.u_lt
  have hi := near_integral R hn
  refine ⟨?_, ?_⟩
  · unfold normaliseR normalise
    rw [hn.same]
  · unfold normaliseR normalise
    simp only
    rw [List.forall₂_map_left_iff, List.forall₂_map_right_iff]
    refine hn.near.imp (fun x y hxy => ?_)
    exact (Near.rounded R (hxy.div h0 h1 hi hp)).mono h0 h1 (by omega)

theorem near_margStep (R : Arith α) {h : Histogram α} (hc : ∀ x ∈ h.contents, 0 ≤ x) (is : List Nat) {k : Nat} {m m' g : Histogram α}
    (hn : NearBy R.u k m m') (b : Nat) (hg : margStep h is m b = .ok g) :
    ∃ g', margStepR R.toRounding h is m' b = .ok g' ∧ NearBy R.u (k + 1) g g' := by
  unfold margStep at hg
  obtain ⟨o, a1, hg⟩ := Res.bind_eq_ok.1 hg
  obtain ⟨nw, a2, hg⟩ := Res.bind_eq_ok.1 hg
  obtain ⟨nb, a3, hg⟩ := Res.bind_eq_ok.1 hg
  obtain ⟨c, a4, hg⟩ := Res.bind_eq_ok.1 hg
  have hc0 : 0 ≤ c := by
    refine hc c ?_
    unfold at_ at a4
    split at a4
    · rename_i y hy; cases a4; exact List.mem_of_getElem? hy
    · cases a4
  unfold addBinContent at hg
  split at hg
  · cases hg
  · rename_i hle
    obtain ⟨x, b1, hg⟩ := Res.bind_eq_ok.1 hg
    obtain ⟨ds, b2, hg⟩ := Res.bind_eq_ok.1 hg
    have hg := Res.ok.inj hg
    obtain ⟨x', ds', c1, c2, c3⟩ := near_bump R hn.near hc0 b1 b2
    refine ⟨{ m' with contents := ds' }, ?_, ?_, by rw [← hg]; exact c3⟩
    · unfold margStepR
      have e1 : m'.axes = m.axes := by rw [hn.same]
      have e2 : m'.nBins = m.nBins := by rw [hn.same]
      rw [a1, Res.ok_bind, a2, Res.ok_bind, e1, a3, Res.ok_bind, a4, Res.ok_bind]
      unfold addBinContentR
      rw [e2, if_neg hle, c1, Res.ok_bind, c2]
      simp only [Res.ok_bind, e1]
      rfl
    · rw [← hg, hn.same]

theorem near_marginalise (R : Arith α) {h g : Histogram α} (hc : ∀ x ∈ h.contents, 0 ≤ x) (names : List String)
    (hg : h.marginalise names = .ok g) : ∃ g', h.marginaliseR R.toRounding names = .ok g' ∧ NearBy R.u h.nBins g g' := by
  have h0 := R.u_nonneg
  have h1 := R.u_lt
  unfold marginalise at hg
  obtain ⟨_, a1, hg⟩ := Res.bind_eq_ok.1 hg
  obtain ⟨is, a2, hg⟩ := Res.bind_eq_ok.1 hg
  obtain ⟨ax, a3, hg⟩ := Res.bind_eq_ok.1 hg
  have loop : ∀ (l : List Nat) (k : Nat) (m m' g : Histogram α), NearBy R.u k m m' → Res.forFold (margStep h is) m l = .ok g →
      ∃ g', Res.forFold (margStepR R.toRounding h is) m' l = .ok g' ∧ NearBy R.u (k + l.length) g g' := by
    intro l
    induction l with
    | nil => intro k m m' g hn hg; cases hg; exact ⟨m', rfl, hn⟩
    | cons b l ih =>
      intro k m m' g hn hg
      obtain ⟨q, hq, hg⟩ := Res.forFold_cons_eq_ok.1 hg
      obtain ⟨q', hq', hnq⟩ := near_margStep R hc is hn b hq
      obtain ⟨g', hg', hng⟩ := ih _ q q' g hnq hg
      exact ⟨g', Res.forFold_cons_eq_ok.2 ⟨q', hq', hg'⟩, hng.mono h0 h1 (by simp; omega)⟩
  have hz : ∀ x ∈ (ofAxes ax : Histogram α).contents, 0 ≤ x := by
    have : (ofAxes ax : Histogram α).contents = List.replicate ax.nBins 0 := by
      simp [ofAxes, setAxes, Histogram.empty, resize]
    rw [this]
    intro x hx
    rw [(List.mem_replicate.1 hx).2]
  obtain ⟨g', hg', hn⟩ := loop (List.range h.nBins) 0 _ _ g (nearBy_refl h0 h1 0 hz) hg
  refine ⟨g', ?_, by simpa using hn⟩
  unfold marginaliseR
  rw [a1, Res.ok_bind, a2, Res.ok_bind, a3, Res.ok_bind]
  exact hg'

/-- What a user sees of two nearby histograms. -/
theorem NearBy.content {u : α} (h0 : 0 ≤ u) (h1 : u < 1) {k : Nat} {h h' : Histogram α} (hn : NearBy u k h h') {b : Nat} {x : α}
    (hx : h.getBinContent b = .ok x) : ∃ x', h'.getBinContent b = .ok x' ∧ |x' - x| ≤ (1 / (1 - u) ^ k - 1) * x := by
  have e : h'.nBins = h.nBins := by rw [hn.same]
  unfold getBinContent at hx ⊢
  rw [e]
  split at hx
  · cases hx
  · rename_i hle
    obtain ⟨x', hx', hnx⟩ := forall₂_get hn.near (idx_eq_ok.1 hx)
    exact ⟨x', by rw [if_neg hle]; exact idx_eq_ok.2 hx', hnx.abs_le' h0 h1⟩

end Histogram
open Histogram

/-- C103: filling with any sequence of events of weights that are not negative. Wherever the exact fill succeeds so does the one in
machine arithmetic, every bin is exact up to as many relative errors as there are events, and so is the integral up to as many as
there are events and bins. -/
theorem C103_fill (R : Arith α) (h g : Histogram α) (hc : ∀ x ∈ h.contents, 0 ≤ x) (evs : List (List α × α)) (hw : ∀ e ∈ evs, 0 ≤ e.2)
    (hg : fillAll h evs = .ok g) : ∃ g', h.fillAllR R.toRounding evs = .ok g' ∧ g'.axes = g.axes ∧
      (∀ b x, g.getBinContent b = .ok x → ∃ x', g'.getBinContent b = .ok x' ∧ |x' - x| ≤ (1 / (1 - R.u) ^ evs.length - 1) * x) ∧
      |g'.integralR R.toRounding - g.integral| ≤ (1 / (1 - R.u) ^ (evs.length + g.nBins) - 1) * g.integral := by
  have h0 := R.u_nonneg
  have h1 := R.u_lt
  obtain ⟨g', hg', hn⟩ := near_fillAll R evs (nearBy_refl h0 h1 0 hc) hw hg
  rw [Nat.zero_add] at hn
  exact ⟨g', hg', by rw [hn.same], fun b x hx => hn.content h0 h1 hx, (near_integral R hn).abs_le' h0 h1⟩

/-- C103: normalising. The integral of the normalised histogram is 1 up to two relative errors for every bin and one more, and every
bin is the exact one up to one for every bin and one more. -/
theorem C103_normalise (R : Arith α) (h : Histogram α) (hc : ∀ x ∈ h.contents, 0 ≤ x) (hn : h.contents.length = h.nBins)
    (hp : 0 < h.integral) :
    |(h.normaliseR R.toRounding).integralR R.toRounding - 1| ≤ 1 / (1 - R.u) ^ (2 * h.nBins + 1) - 1 ∧
    ∀ b x, h.normalise.getBinContent b = .ok x →
      ∃ x', (h.normaliseR R.toRounding).getBinContent b = .ok x' ∧ |x' - x| ≤ (1 / (1 - R.u) ^ (h.nBins + 1) - 1) * x := by
  have h0 := R.u_nonneg
  have h1 := R.u_lt
  have hN := near_normalise R (nearBy_refl h0 h1 0 hc) hp
  rw [Nat.mul_zero, Nat.zero_add] at hN
  refine ⟨?_, fun b x hx => hN.content h0 h1 hx⟩
  have hi := (near_integral R hN).abs_le' h0 h1
  have hone : h.normalise.integral = 1 := by
    have e : ∀ (l : List α) (s a : α), (l.map (· / s)).foldl (· + ·) (a / s) = l.foldl (· + ·) a / s := by
      intro l s
      induction l with
      | nil => intro a; rfl
      | cons x l ih => intro a; simp only [List.map_cons, List.foldl_cons]; rw [← add_div, ih]
    unfold Histogram.integral Histogram.normalise
    simp only
    have ht : (h.contents.map (· / h.integral)).take h.nBins = (h.contents.take h.nBins).map (· / h.integral) := by rw [List.map_take]
    rw [ht]
    have := e (h.contents.take h.nBins) h.integral 0
    rw [zero_div] at this
    rw [this]
    exact div_self hp.ne'
  rw [hone, mul_one] at hi
  have e2 : h.normalise.nBins = h.nBins := rfl
  rw [e2, show h.nBins + 1 + h.nBins = 2 * h.nBins + 1 by ring] at hi
  exact hi

/-- C103: projecting. Every bin of the projection is exact up to as many relative errors as the histogram has bins. -/
theorem C103_marginalise (R : Arith α) (h g : Histogram α) (hc : ∀ x ∈ h.contents, 0 ≤ x) (names : List String)
    (hg : h.marginalise names = .ok g) : ∃ g', h.marginaliseR R.toRounding names = .ok g' ∧ g'.axes = g.axes ∧
      ∀ b x, g.getBinContent b = .ok x → ∃ x', g'.getBinContent b = .ok x' ∧ |x' - x| ≤ (1 / (1 - R.u) ^ h.nBins - 1) * x := by
  have h0 := R.u_nonneg
  have h1 := R.u_lt
  obtain ⟨g', hg', hn⟩ := near_marginalise R hc names hg
  exact ⟨g', hg', by rw [hn.same], fun b x hx => hn.content h0 h1 hx⟩

/-- C103, from events to a probability distribution: a histogram filled with weighted events and then normalised, all in machine
arithmetic, is in every bin the exact result up to `2 N + n + 1` relative errors, `N` events and `n` bins. -/
theorem C103_distribution (R : Arith α) (h g : Histogram α) (hc : ∀ x ∈ h.contents, 0 ≤ x) (evs : List (List α × α))
    (hw : ∀ e ∈ evs, 0 ≤ e.2) (hg : fillAll h evs = .ok g) (hp : 0 < g.integral) : ∃ g', h.fillAllR R.toRounding evs = .ok g' ∧
      ∀ b x, g.normalise.getBinContent b = .ok x → ∃ x', (g'.normaliseR R.toRounding).getBinContent b = .ok x' ∧
        |x' - x| ≤ (1 / (1 - R.u) ^ (2 * evs.length + g.nBins + 1) - 1) * x := by
  have h0 := R.u_nonneg
  have h1 := R.u_lt
  obtain ⟨g', hg', hn⟩ := near_fillAll R evs (nearBy_refl h0 h1 0 hc) hw hg
  rw [Nat.zero_add] at hn
  exact ⟨g', hg', fun b x hx => (near_normalise R hn hp).content h0 h1 hx⟩


/-! ### Moments -/

/-- A running sum in machine arithmetic beside the exact one. -/
theorem close_forFold {u : α} {N : Nat} {f f' : α → Nat → Res α} {t q : Nat → α} {k0 : Nat}
    (hex : ∀ b, b < N → ∀ a, f a b = .ok (a + q b)) (h0 : Close u k0 0 0 0)
    (hstep : ∀ b, b < N → ∀ k, k0 ≤ k → ∀ s a a', Close u k s a a' → ∃ r, f' a' b = .ok r ∧ Close u (k + 1) (s + t b) (a + q b) r) :
    ∃ r, Res.forFold f 0 (List.range N) = .ok ((List.range N).map q).sum ∧ Res.forFold f' 0 (List.range N) = .ok r ∧
      Close u (k0 + N) ((List.range N).map t).sum ((List.range N).map q).sum r := by
  have loop : ∀ n, n ≤ N → ∃ r, Res.forFold f 0 (List.range n) = .ok ((List.range n).map q).sum ∧ Res.forFold f' 0 (List.range n) = .ok r ∧
      Close u (k0 + n) ((List.range n).map t).sum ((List.range n).map q).sum r := by
    intro n
    induction n with
    | zero => intro _; exact ⟨0, rfl, rfl, h0⟩
    | succ n ih =>
      intro hn
      obtain ⟨r, e1, e2, e3⟩ := ih (by omega)
      obtain ⟨r', g1, g2⟩ := hstep n (by omega) _ (by omega) _ _ _ e3
      refine ⟨r', ?_, ?_, ?_⟩
      · rw [List.range_succ, Res.forFold_append, e1]
        simp only [Res.bind, Res.forFold, hex n (by omega)]
        simp
      · rw [List.range_succ, Res.forFold_append, e2]
        simp only [Res.bind, Res.forFold, g1]
      · rw [List.range_succ, List.map_append, List.map_append, List.sum_append, List.sum_append]
        rw [← Nat.add_assoc]
        simpa using g2
  exact loop N le_rfl

theorem traverse_both {β : Type} {P : Nat → β → β → Prop} {f f' : Nat → Res β} {n : Nat}
    (h : ∀ j, j < n → ∃ x y, f j = .ok x ∧ f' j = .ok y ∧ P j x y) : ∃ xs ys, Res.traverse f (List.range n) = .ok xs ∧
      Res.traverse f' (List.range n) = .ok ys ∧ xs.length = n ∧ ys.length = n ∧
      ∀ j, j < n → ∃ x y, xs[j]? = some x ∧ ys[j]? = some y ∧ P j x y := by
  classical
  by_cases hn : n = 0
  · subst hn; exact ⟨[], [], rfl, rfl, rfl, rfl, fun j hj => by omega⟩
  obtain ⟨x0, _, _, _, _⟩ := h 0 (by omega)
  have hx : ∀ j, ∃ x y, j < n → f j = .ok x ∧ f' j = .ok y ∧ P j x y := by
    intro j
    by_cases hj : j < n
    · obtain ⟨x, y, hxy⟩ := h j hj; exact ⟨x, y, fun _ => hxy⟩
    · exact ⟨x0, x0, fun h => absurd h hj⟩
  choose x y hxy using hx
  refine ⟨(List.range n).map x, (List.range n).map y, Res.traverse_ok (fun j hj => (hxy j (List.mem_range.1 hj)).1),
    Res.traverse_ok (fun j hj => (hxy j (List.mem_range.1 hj)).2.1), by simp, by simp, ?_⟩
  intro j hj
  exact ⟨x j, y j, by simp [hj], by simp [hj], (hxy j hj).2.2⟩

/-- C103 (partial), moments: on any histogram with `N` bins whose contents are not negative, `x b j` the centres, the means are exact up
to `N + 1` relative errors of the sum of content times |centre|, and the variances up to `2 N + 4` relative errors of the second moment
plus the square of that sum. Missing: an error relative to the variance itself, which does not hold (`C103_variance_wrong`). -/
theorem C103_moments_partial (R : Arith α) (fma : Bool) (h : Histogram α) (hc : ∀ y ∈ h.contents, 0 ≤ y) (hl : h.contents.length = h.nBins)
    (x : Nat → Nat → α) (hx : ∀ b j, b < h.nBins → j < h.nDims → h.axes.getBinCentre b j = .ok (x b j)) :
    ∃ ms ms' vs vs', h.means = .ok ms ∧ h.meansR R.toRounding fma = .ok ms' ∧ h.variances = .ok vs ∧ h.variancesR R.toRounding fma = .ok vs' ∧
      ∀ j, j < h.nDims → ∃ m m' v v', ms[j]? = some m ∧ ms'[j]? = some m' ∧ vs[j]? = some v ∧ vs'[j]? = some v' ∧
        |m' - m| ≤ (1 / (1 - R.u) ^ (h.nBins + 1) - 1) * ((List.range h.nBins).map (fun b => h.contents.getD b 0 * |x b j|)).sum ∧
        |v' - v| ≤ (1 / (1 - R.u) ^ (2 * h.nBins + 4) - 1) *
          (((List.range h.nBins).map (fun b => h.contents.getD b 0 * x b j ^ 2)).sum +
            ((List.range h.nBins).map (fun b => h.contents.getD b 0 * |x b j|)).sum ^ 2) := by
  have h0 := R.u_nonneg
  have h1 := R.u_lt
  have hat : ∀ b, b < h.nBins → at_ h.contents b = .ok (h.contents.getD b 0) := by
    intro b hb
    rw [at_ok.2 (getElem?_eq_getD (by omega))]
  have hcn : ∀ b, b < h.nBins → 0 ≤ h.contents.getD b 0 := by
    intro b hb
    simp only [List.getD, show b < h.contents.length by omega, List.getElem?_eq_getElem, Option.getD_some]
    exact hc _ (List.getElem_mem _)
  have hz : ∀ k, Close R.u k (0 : α) 0 0 := by
    intro k
    have := Close.refl h0 h1 k (0 : α)
    rwa [abs_zero] at this
  have hmean := traverse_both (n := h.nDims) (P := fun j m m' => Close R.u (1 + h.nBins)
      ((List.range h.nBins).map (fun b => h.contents.getD b 0 * |x b j|)).sum m m')
      (f := fun j => Res.forFold (fun m i => (do
        let c ← at_ h.contents i
        let x ← h.axes.getBinCentre i j
        pure (m + c * x) : Res α)) 0 (List.range h.nBins))
      (f' := fun j => Res.forFold (fun m i => (do
        let c ← at_ h.contents i
        let x ← h.axes.getBinCentre i j
        pure (BinAxis.mulAdd R.toRounding fma m c x) : Res α)) 0 (List.range h.nBins)) (by
    intro j hj
    obtain ⟨r, e1, e2, e3⟩ := close_forFold (u := R.u) (N := h.nBins) (k0 := 1) (t := fun b => h.contents.getD b 0 * |x b j|)
      (q := fun b => h.contents.getD b 0 * x b j)
      (f := fun m i => (do
        let c ← at_ h.contents i
        let x ← h.axes.getBinCentre i j
        pure (m + c * x) : Res α))
      (f' := fun m i => (do
        let c ← at_ h.contents i
        let x ← h.axes.getBinCentre i j
        pure (BinAxis.mulAdd R.toRounding fma m c x) : Res α))
      (fun b hb a => by rw [hat b hb, hx b j hb hj]; rfl) (hz 1)
      (fun b hb k hk s a a' ha => by
        refine ⟨_, by rw [hat b hb, hx b j hb hj]; rfl, ?_⟩
        refine Close.mulAdd R fma (l := 0) (by omega) ha ?_
        have := Close.refl h0 h1 0 (h.contents.getD b 0 * x b j)
        rwa [abs_mul, abs_of_nonneg (hcn b hb)] at this)
    exact ⟨_, r, e1, e2, e3⟩)
  have hvar := traverse_both (n := h.nDims) (P := fun j m m' => Close R.u (2 + h.nBins)
      ((List.range h.nBins).map (fun b => h.contents.getD b 0 * x b j ^ 2)).sum m m')
      (f := fun j => Res.forFold (fun v i => (do
        let x ← h.axes.getBinCentre i j
        let c ← at_ h.contents i
        pure (v + x * x * c) : Res α)) 0 (List.range h.nBins))
      (f' := fun j => Res.forFold (fun v i => (do
        let x ← h.axes.getBinCentre i j
        let c ← at_ h.contents i
        pure (BinAxis.mulAdd R.toRounding fma v (R.rnd (x * x)) c) : Res α)) 0 (List.range h.nBins)) (by
    intro j hj
    obtain ⟨r, e1, e2, e3⟩ := close_forFold (u := R.u) (N := h.nBins) (k0 := 2) (t := fun b => h.contents.getD b 0 * x b j ^ 2)
      (q := fun b => x b j * x b j * h.contents.getD b 0)
      (f := fun v i => (do
        let x ← h.axes.getBinCentre i j
        let c ← at_ h.contents i
        pure (v + x * x * c) : Res α))
      (f' := fun v i => (do
        let x ← h.axes.getBinCentre i j
        let c ← at_ h.contents i
        pure (BinAxis.mulAdd R.toRounding fma v (R.rnd (x * x)) c) : Res α))
      (fun b hb a => by rw [hx b j hb hj, hat b hb]; rfl) (hz 2)
      (fun b hb k hk s a a' ha => by
        refine ⟨_, by rw [hx b j hb hj, hat b hb]; rfl, ?_⟩
        refine Close.mulAdd R fma (l := 1) (by omega) ha ?_
        have := (Close.of_rel R (x b j * x b j)).smul h0 h1 (hcn b hb)
        rw [abs_mul_self, mul_comm (h.contents.getD b 0) (R.rnd _), mul_comm (h.contents.getD b 0) (x b j * x b j)] at this
        rwa [show h.contents.getD b 0 * x b j ^ 2 = x b j * x b j * h.contents.getD b 0 by ring])
    exact ⟨_, r, e1, e2, e3⟩)
  obtain ⟨ms, ms', m1, m2, m3, m4, m5⟩ := hmean
  obtain ⟨ss, ss', s1, s2, s3, s4, s5⟩ := hvar
  have hfin := traverse_both (n := h.nDims) (P := fun j v v' => |v' - v| ≤ (1 / (1 - R.u) ^ (2 * h.nBins + 4) - 1) *
          (((List.range h.nBins).map (fun b => h.contents.getD b 0 * x b j ^ 2)).sum +
            ((List.range h.nBins).map (fun b => h.contents.getD b 0 * |x b j|)).sum ^ 2))
      (f := fun i => (do
        let v ← idx ss i
        let m ← at_ ms i
        pure (v - m * m) : Res α))
      (f' := fun i => (do
        let v ← idx ss' i
        let m ← at_ ms' i
        pure (if fma then R.rnd (v - m * m) else R.rnd (v - R.rnd (m * m))) : Res α)) (by
    intro j hj
    obtain ⟨m, m', a1, a2, a3⟩ := m5 j hj
    obtain ⟨s, s', b1, b2, b3⟩ := s5 j hj
    refine ⟨_, _, by rw [idx_eq_ok.2 b1, at_ok.2 a1]; rfl, by rw [idx_eq_ok.2 b2, at_ok.2 a2]; rfl, ?_⟩
    have c1 := a3.sq h0 h1
    have c2 := b3.mono h0 h1 (show 2 + h.nBins ≤ 2 * h.nBins + 3 by omega)
    have : Close R.u (2 * h.nBins + 4) (((List.range h.nBins).map (fun b => h.contents.getD b 0 * x b j ^ 2)).sum +
            ((List.range h.nBins).map (fun b => h.contents.getD b 0 * |x b j|)).sum ^ 2) (s - m * m)
        (if fma then R.rnd (s' - m' * m') else R.rnd (s' - R.rnd (m' * m'))) := by
      rw [pow_two]
      split
      · exact (c2.sub h0 h1 (c1.mono h0 h1 (by omega))).rounded R
      · exact (c2.sub h0 h1 ((c1.rounded R).mono h0 h1 (by omega))).rounded R
    exact this.2)
  obtain ⟨vs, vs', v1, v2, v3, v4, v5⟩ := hfin
  refine ⟨ms, ms', vs, vs', m1, m2, ?_, ?_, ?_⟩
  · have m1' : h.means = .ok ms := m1
    unfold Histogram.variances
    rw [s1, Res.ok_bind, m1', Res.ok_bind]
    exact v1
  · have m2' : h.meansR R.toRounding fma = .ok ms' := m2
    unfold Histogram.variancesR
    rw [s2, Res.ok_bind, m2', Res.ok_bind]
    exact v2
  · intro j hj
    obtain ⟨m, m', a1, a2, a3⟩ := m5 j hj
    obtain ⟨v, v', b1, b2, b3⟩ := v5 j hj
    refine ⟨m, m', v, v', a1, a2, b1, b2, ?_, b3⟩
    rw [Nat.add_comm]
    exact a3.2

/-- Contents 1/8 and 7/8 in two bins of width 1 at 10^9. -/
def exFar : Res (Histogram ℚ) := do
  let a ← BinAxis.mkEqualR (Ieee.double : Rounding ℚ) false "x" 1000000000 1000000002 2
  let c ← AxisCollection.addAxes AxisCollection.empty [a]
  (Histogram.ofAxes c).fillAllR (Ieee.double : Rounding ℚ) [([1000000000], 1 / 8), ([1000000001], 7 / 8)]

/-- C103, the variance is the exception: it is computed as the difference of two large numbers, and on doubles, with or without fused
operations, a normalised histogram with no negative content has a negative variance. -/
theorem C103_variance_wrong (fma : Bool) : ∃ h v, exFar = .ok h ∧ h.contents = [1 / 8, 7 / 8] ∧ h.integral = 1 ∧
    h.variances = .ok [7 / 64] ∧ h.variancesR (Ieee.double : Rounding ℚ) fma = .ok [v] ∧ v < -1 := by
  have key : (exFar >>= fun h => Res.ok (h.contents, h.integral, h.variances, h.variancesR (Ieee.double : Rounding ℚ) fma)) =
      .ok ([1 / 8, 7 / 8], 1, .ok [7 / 64], .ok [if fma then -121 / 64 else -128]) := by
    cases fma <;> decide +kernel
  obtain ⟨h, e, key⟩ := Res.bind_eq_ok.1 key
  have k := Res.ok.inj key
  simp only [Prod.mk.injEq] at k
  exact ⟨h, _, e, k.1, k.2.1, k.2.2.1, k.2.2.2, by cases fma <;> norm_num⟩

/-! ### Expected numbers of events -/

namespace PdfManager
open Oxsx

/-- The sum over the distributions in machine arithmetic, beside the exact one. -/
theorem prob_loopR (R : Arith α) (fma : Bool) {log : List (BinnedED α × NormStatus)} {m : PdfManager α} (hi : Inv log m)
    (hd : PdfLog.DistinctNames log) (ho : PdfLog.Before .direct .indirect log)
    (value : String → α) (hv : ∀ n ∈ PdfLog.fitted log, m.getParameter n = .ok (value n)) (bin : Nat) (g : BinnedED α → α)
    (hf : ∀ w ∈ m.work, w.hist.getBinContent bin = .ok (g w)) (hg : ∀ w ∈ m.work, 0 ≤ g w)
    (hnn : ∀ n ∈ PdfLog.fitted log, 0 ≤ value n) :
    ∃ (ns : List α) (t : α) (j : Nat), m.reassertNorms true = .ok { m with norms := ns } ∧
      Res.forFold (PdfManager.probStepR R.toRounding fma { m with norms := ns } bin) (0, 0) (List.range m.work.length) = .ok (t, j) ∧
      Near R.u (log.length + 1) ((log.zip m.work).map (fun q => normOf value q.1 * g q.2)).sum t := by
  have u0 := R.u_nonneg
  have u1 := R.u_lt
  have hmem : ∀ {i : Nat} {p : BinnedED α × NormStatus}, log[i]? = some p → p.2.fittable = true →
      p.1.name ∈ PdfLog.fitted log := by
    intro i p hp hfp
    unfold PdfLog.fitted
    exact List.mem_map.2 ⟨p, List.mem_filter.2 ⟨List.mem_of_getElem? hp, hfp⟩, rfl⟩
  have hns : ∃ ns : List α, m.reassertNorms true = .ok { m with norms := ns } ∧
      ∀ (i : Nat) p, log[i]? = some p → p.2 = .direct → ns[i]? = some (value p.1.name) := by
    by_cases ha : m.allDirect = true
    · refine ⟨m.norms, ?_, ?_⟩
      · unfold reassertNorms; rw [if_pos ha]
      · intro i p hp hpd
        obtain ⟨v, h1, h2, _⟩ := value_at hi hd hp (by rw [hpd]; rfl)
        rw [hv _ (hmem hp (by rw [hpd]; rfl))] at h1
        cases h1
        exact h2 ha
    · have ha' : m.allDirect = false := by simpa using ha
      obtain ⟨ns, h1, h2, h3⟩ := reassert_ok hi true ha' .direct rfl
      refine ⟨ns, h1, ?_⟩
      intro i p hp hpd
      obtain ⟨hil, hpe⟩ := List.getElem?_eq_some_iff.1 hp
      rw [h3 i hil, if_pos (by simp [hp, hpd]), before_rank ho fittable_cases hp hpd]
      obtain ⟨v, e1, _, e2⟩ := value_at hi hd hp (by rw [hpd]; rfl)
      rw [hv _ (hmem hp (by rw [hpd]; rfl))] at e1
      cases e1
      exact e2 ha'
  obtain ⟨ns, h1, h4⟩ := hns
  have hloop := Res.forFold_range (f := PdfManager.probStepR R.toRounding fma { m with norms := ns } bin) (n := m.work.length)
    (s := ((0 : α), 0))
    (fun k (s : α × Nat) => Near R.u (k + 1) (((log.zip m.work).take k).map (fun q => normOf value q.1 * g q.2)).sum s.1 ∧
      s.2 = rank (fun p => p.2.fittable) log k)
    ⟨by simpa using Near.refl u0 u1 1 (le_refl (0 : α)), by simp [rank]⟩ (by
      rintro k ⟨s, j⟩ hk ⟨hs1, hs2⟩
      simp only at hs1 hs2
      have hkl : k < log.length := by rw [← hi.work]; exact hk
      have hlk : log[k]? = some log[k] := by simp [hkl]
      have hzk : (log.zip m.work)[k]? = some (log[k], m.work[k]) := by simp [hkl, hk]
      have hsum : (((log.zip m.work).take (k + 1)).map (fun q => normOf value q.1 * g q.2)).sum
          = (((log.zip m.work).take k).map (fun q => normOf value q.1 * g q.2)).sum + normOf value log[k] * g m.work[k] := by
        rw [List.take_add_one, hzk, List.map_append, List.sum_append]; simp
      have hj := rank_succ (p := fun p : BinnedED α × NormStatus => p.2.fittable) hlk
      have hfk := hf m.work[k] (List.getElem_mem hk)
      have hgk := hg m.work[k] (List.getElem_mem hk)
      have hst : at_ m.status k = .ok log[k].2 := by
        rw [hi.status, at_ok]; simp [hkl]
      unfold probStepR
      simp only
      rw [hst, at_of_lt hk]
      simp only [Res.ok_bind]
      cases hsk : log[k].2 with
      | off =>
        simp only [hfk, Res.ok_bind]
        refine ⟨_, rfl, ?_, ?_⟩
        · simp only [hsum]
          have : normOf value log[k] = 1 := by unfold normOf; rw [hsk]; rfl
          rw [this, one_mul]
          exact Near.rounded R (hs1.add u0 u1 (.refl u0 u1 _ hgk))
        · show _ = rank (fun p : BinnedED α × NormStatus => p.2.fittable) log (k + 1)
          rw [hj, ← hs2, hsk]; rfl
      | direct =>
        have hn := h4 k _ hlk hsk
        rw [show at_ ns k = .ok _ from at_ok.2 hn]
        simp only [hfk, Res.ok_bind]
        refine ⟨_, rfl, ?_, ?_⟩
        · simp only [hsum]
          have : normOf value log[k] = value log[k].1.name := by unfold normOf; rw [hsk]; rfl
          rw [this]
          have := Near.mulAdd R fma (le_refl (k + 1)) hs1 (hnn _ (hmem hlk (by rw [hsk]; rfl))) hgk (b' := 0)
          rwa [Nat.max_eq_left (by omega)] at this
        · show _ = rank (fun p : BinnedED α × NormStatus => p.2.fittable) log (k + 1)
          rw [hj, ← hs2, hsk]; rfl
      | indirect =>
        have ha : m.allDirect = false := by
          rw [hi.alld]
          refine Bool.eq_false_iff.2 (fun h => ?_)
          have := List.all_eq_true.1 h _ (List.getElem_mem hkl)
          rw [hsk] at this; simp at this
        obtain ⟨v, e1, _, e2⟩ := value_at hi hd hlk (by rw [hsk]; rfl)
        rw [hv _ (hmem hlk (by rw [hsk]; rfl))] at e1
        cases e1
        rw [show at_ m.fitNorms j = .ok _ from at_ok.2 (hs2 ▸ e2 ha)]
        simp only [hfk, Res.ok_bind]
        refine ⟨_, rfl, ?_, ?_⟩
        · simp only [hsum]
          have : normOf value log[k] = value log[k].1.name := by unfold normOf; rw [hsk]; rfl
          rw [this]
          have := Near.mulAdd R fma (le_refl (k + 1)) hs1 (hnn _ (hmem hlk (by rw [hsk]; rfl))) hgk (b' := 0)
          rwa [Nat.max_eq_left (by omega)] at this
        · show _ = rank (fun p : BinnedED α × NormStatus => p.2.fittable) log (k + 1)
          rw [hj, ← hs2, hsk]; rfl)
  obtain ⟨⟨t, j⟩, hl1, hl2, _⟩ := hloop
  refine ⟨ns, t, j, h1, hl1, ?_⟩
  rw [List.take_of_length_le (by simp)] at hl2
  rwa [hi.work] at hl2

theorem near_binProbability (R : Arith α) (fma : Bool) {log : List (BinnedED α × NormStatus)} {m : PdfManager α}
    (h : PdfManager.Built log m) (hd : PdfLog.DistinctNames log) (ho : PdfLog.Before .direct .indirect log) (bin : Nat)
    (hb : ∀ w ∈ m.work, bin < w.hist.nBins ∧ w.hist.contents.length = w.hist.nBins) (hg : ∀ w ∈ m.work, ∀ x ∈ w.hist.contents, 0 ≤ x)
    (value : String → α) (hv : ∀ n ∈ PdfLog.fitted log, m.getParameter n = .ok (value n)) (hnn : ∀ n ∈ PdfLog.fitted log, 0 ≤ value n) :
    ∃ m' p', m.binProbability bin = .ok (expectedRate value log m.work bin, m') ∧
      m.binProbabilityR R.toRounding fma bin = .ok (p', m') ∧ Near R.u (log.length + 1) (expectedRate value log m.work bin) p' := by
  have hi := PdfManager.inv_of_built h
  obtain ⟨v', hv', m', e1, _, _⟩ := C27_bin_rate_partial h hd ho bin hb
  have hveq : expectedRate v' log m.work bin = expectedRate value log m.work bin := by
    refine expectedRate_congr (fun k hk' => ?_) _ _
    have := hv' k hk'
    rw [hv k hk'] at this
    exact (Res.ok.inj this).symm
  rw [hveq] at e1
  obtain ⟨ns, t, j, r1, r2, r3⟩ := prob_loopR R fma hi hd ho value hv bin (fun w => w.hist.contents.getD bin 0) (by
      intro w hw
      obtain ⟨e1, e2⟩ := hb w hw
      simp only [Histogram.getBinContent]
      rw [if_neg (by omega), idx_of_lt (by omega)]
      simp [List.getD, show bin < w.hist.contents.length by omega]) (by
      intro w hw
      obtain ⟨e1, e2⟩ := hb w hw
      simp only [List.getD, show bin < w.hist.contents.length by omega, List.getElem?_eq_getElem, Option.getD_some]
      exact hg w hw _ (List.getElem_mem _)) hnn
  have hm' := NLLH.binProbability_facts e1
  rw [r1] at hm'
  have hm'' := Res.ok.inj hm'
  refine ⟨m', t, e1, ?_, r3⟩
  unfold PdfManager.binProbabilityR
  rw [r1]
  simp only [Res.ok_bind]
  rw [r2, ← hm'']
  rfl

end PdfManager

/-- C103: the expected number of events in a bin. After any history (fitted distributions of different names, those fitted directly
added first), if the current normalisations and the contents of the distributions are not negative, the expected number computed in
machine arithmetic is the exact one up to as many relative errors as there are distributions, and one more; the manager left behind
is the same. -/
theorem C103_expected (R : Arith α) (fma : Bool) {log : List (BinnedED α × NormStatus)} {m : PdfManager α}
    (h : PdfManager.Built log m) (hd : PdfLog.DistinctNames log) (ho : PdfLog.Before .direct .indirect log) (bin : Nat)
    (hb : ∀ w ∈ m.work, bin < w.hist.nBins ∧ w.hist.contents.length = w.hist.nBins) (hg : ∀ w ∈ m.work, ∀ x ∈ w.hist.contents, 0 ≤ x)
    (value : String → α) (hv : ∀ n ∈ PdfLog.fitted log, m.getParameter n = .ok (value n)) (hnn : ∀ n ∈ PdfLog.fitted log, 0 ≤ value n) :
    ∃ m' p', m.binProbability bin = .ok (expectedRate value log m.work bin, m') ∧ m.binProbabilityR R.toRounding fma bin = .ok (p', m') ∧
      |p' - expectedRate value log m.work bin| ≤ (1 / (1 - R.u) ^ (log.length + 1) - 1) * expectedRate value log m.work bin := by
  obtain ⟨m', p', e1, e2, e3⟩ := PdfManager.near_binProbability R fma h hd ho bin hb hg value hv hnn
  exact ⟨m', p', e1, e2, e3.abs_le' R.u_nonneg R.u_lt⟩

/-! ### The likelihood -/

/-- The logarithms of two nearby numbers. -/
theorem Close.log {u : ℝ} (h0 : 0 ≤ u) (h1 : u < 1) {k : Nat} {p p' : ℝ} (hp : 0 < p) (h : Near u k p p') :
    Close u k (|Real.log p| + 1) (Real.log p) (Real.log p') := by
  have hp' := h.pos h0 h1 hp
  have hw := Near.pow_pos' h0 h1 k
  have hb : |Real.log p' - Real.log p| ≤ 1 / (1 - u) ^ k - 1 := by
    have key : Real.log (1 / (1 - u) ^ k) ≤ 1 / (1 - u) ^ k - 1 := Real.log_le_sub_one_of_pos (by positivity)
    have e1 : p' / p ≤ 1 / (1 - u) ^ k := by rw [div_le_div_iff₀ hp hw, one_mul]; exact h.2.2.2
    have e2 : p / p' ≤ 1 / (1 - u) ^ k := by rw [div_le_div_iff₀ hp' hw, one_mul]; exact h.2.2.1
    have l1 := Real.log_le_log (by positivity) e1
    have l2 := Real.log_le_log (by positivity) e2
    rw [Real.log_div hp'.ne' hp.ne'] at l1
    rw [Real.log_div hp.ne' hp'.ne'] at l2
    rw [abs_le]
    constructor <;> linarith
  refine ⟨by linarith [abs_nonneg (Real.log p)], hb.trans ?_⟩
  have := Close.factor_nonneg h0 h1 k
  nlinarith [abs_nonneg (Real.log p)]

/-- One bin of the sum. -/
theorem near_addTerm (R : Arith ℝ) (fma : Bool) {lg : ℝ → ℝ} (hlg : ∀ x, 0 < x → |lg x - Real.log x| ≤ R.u * |Real.log x|)
    {j k : Nat} (hkj : k + 2 ≤ j) {s a a' n p p' : ℝ} (hn : 0 ≤ n) (hp : 0 < p) (ha : Close R.u j s a a') (h : Near R.u k p p') :
    Close R.u (j + 2) (s + (n * (|Real.log p| + 1) + p)) (a + poissonTerm n p) (NLLH.addTermR R.toRounding fma a' n (lg p') p') := by
  have h0 := R.u_nonneg
  have h1 := R.u_lt
  have hp' := h.pos h0 h1 hp
  have l1 := ((Close.log h0 h1 hp h).err h0 h1 (hlg p' hp')).smul h0 h1 hn
  have l2 : Close R.u (j + 1) (s + n * (|Real.log p| + 1)) (a - n * Real.log p)
      (if fma then R.rnd (a' - n * lg p') else R.rnd (a' - R.rnd (n * lg p'))) := by
    split
    · exact (ha.sub h0 h1 (l1.mono h0 h1 (by omega))).rounded R
    · exact (ha.sub h0 h1 ((l1.rounded R).mono h0 h1 hkj)).rounded R
  have l3 : R.rnd (if fma then R.rnd (a' - n * lg p') else R.rnd (a' - R.rnd (n * lg p'))) =
      (if fma then R.rnd (a' - n * lg p') else R.rnd (a' - R.rnd (n * lg p'))) := by
    split <;> exact R.idem _
  unfold NLLH.addTermR
  simp only [add_zero]
  rw [l3]
  have l4 := (l2.add h0 h1 ((Close.of_near h0 h1 h).mono h0 h1 (show k ≤ j + 1 by omega))).rounded R
  have e1 : a - n * Real.log p + p = a + poissonTerm n p := by unfold poissonTerm; ring
  have e2 : s + n * (|Real.log p| + 1) + p = s + (n * (|Real.log p| + 1) + p) := by ring
  rw [e1, e2] at l4
  exact l4

/-- The size of the terms of a Poisson sum, against which its rounding errors are measured. -/
noncomputable def sumScale (N : Nat) (n mu : Nat → ℝ) : ℝ :=
  ((List.range N).map (fun b => n b * (|Real.log (mu b)| + 1) + mu b)).sum

/-- C103: the likelihood. Any evaluation without Barlow-Beeston: once the distributions have been prepared, if the current
normalisations, the contents of the prepared distributions and of the data are not negative and every bin expects events, the value
the machine returns differs from the exact one by at most `T + 2 N + 4` relative errors, `T` distributions and `N` bins, of the
size of the terms summed: events times (|log| + 1) plus expectation in each bin, and the constraint term; or one more than the constraint
term has, `kc` of the size `tc`, if that is more (`C103_constraints_partial`). The logarithm of the machine is any function with a
relative error of at most `u`. -/
theorem C103_evaluate (R : Arith ℝ) (fma : Bool) (lg : ℝ → ℝ) (hlg : ∀ x, 0 < x → |lg x - Real.log x| ≤ R.u * |Real.log x|)
    {C : FitSys σ ℝ} {log : List (BinnedED ℝ × NormStatus)} {L P : NLLH σ ℝ} (hb : PdfManager.Built log L.pdfs) (hbb : L.useBB = false)
    (hd : PdfLog.DistinctNames log) (ho : PdfLog.Before .direct .indirect log) (hP : L.prepare C = .ok P)
    (hdata : P.dataDist.hist.contents.length = P.dataDist.hist.nBins)
    (hdim : ∀ w ∈ P.pdfs.work, P.dataDist.hist.nBins ≤ w.hist.nBins ∧ w.hist.contents.length = w.hist.nBins)
    (value : String → ℝ) (hval : ∀ n ∈ PdfLog.fitted log, L.pdfs.getParameter n = .ok (value n))
    (hg : ∀ w ∈ P.pdfs.work, ∀ x ∈ w.hist.contents, 0 ≤ x) (hnn : ∀ n ∈ PdfLog.fitted log, 0 ≤ value n)
    (hdn : ∀ x ∈ P.dataDist.hist.contents, 0 ≤ x)
    (hpos : ∀ b, b < P.dataDist.hist.nBins → 0 < expectedRate value log P.pdfs.work b)
    {ps : ParamDict ℝ} {kc : Nat} {tc : ℝ} (hps : P.getParameters C = .ok ps)
    (hcc : CloseTo R.u kc tc (L.constraints.evaluate ps) (L.constraints.evaluateR R.toRounding fma ps)) :
    ∃ v v' L' L'', L.evaluate C CMath.real = .ok (some v, L') ∧ L.evaluateR R.toRounding fma lg C = .ok (some v', L'') ∧
      |v' - v| ≤ (1 / (1 - R.u) ^ (max (log.length + 2 * P.dataDist.hist.nBins + 3) kc + 1) - 1) *
        (sumScale P.dataDist.hist.nBins (fun b => P.dataDist.hist.contents.getD b 0) (expectedRate value log P.pdfs.work) + tc) := by
  obtain ⟨c, c', hc, hc', hclose⟩ := hcc
  have h0 := R.u_nonneg
  have h1 := R.u_lt
  obtain ⟨hbP, hsame, hbbP, hcP⟩ := NLLH.prepare_facts hb hP
  obtain ⟨L', hL'⟩ := (C31_value_partial hb hbb hd ho hP hdata hdim value hval).2 ps (some c) (fun b h => (hpos b h).ne') hps hc
  rw [if_pos hpos] at hL'
  set mu := expectedRate value log P.pdfs.work with hmu
  set n := fun b => P.dataDist.hist.contents.getD b 0 with hn
  set N := P.dataDist.hist.nBins with hN
  have hiP := PdfManager.inv_of_built hbP
  have hvalP : ∀ k ∈ PdfLog.fitted log, P.pdfs.getParameter k = .ok (value k) := by
    intro k hk
    rw [PdfManager.getParameter_congr hsame hiP k]
    exact hval k hk
  have hnb : ∀ b, b < N → 0 ≤ n b := by
    intro b hbN
    simp only [hn, List.getD, show b < P.dataDist.hist.contents.length by omega, List.getElem?_eq_getElem, Option.getD_some]
    exact hdn _ (List.getElem_mem _)
  have step : ∀ b, b < N → ∀ (m : PdfManager ℝ), PdfManager.Built log m → m.work = P.pdfs.work →
      PdfManager.Same m P.pdfs → ∀ j, log.length + 3 ≤ j → ∀ s a a', Close R.u j s a a' →
      ∃ m' v', NLLH.binStepR R.toRounding fma lg P (some a', m) b = .ok (some v', m') ∧
        Close R.u (j + 2) (s + (n b * (|Real.log (mu b)| + 1) + mu b)) (a + poissonTerm (n b) (mu b)) v' ∧
        PdfManager.Built log m' ∧ m'.work = P.pdfs.work ∧ PdfManager.Same m' P.pdfs := by
    intro b hbN m hbm hw hk j hj s a a' ha
    have hbin : ∀ w ∈ m.work, b < w.hist.nBins ∧ w.hist.contents.length = w.hist.nBins := fun w hw' => by
      have := hdim w (hw ▸ hw')
      exact ⟨by omega, this.2⟩
    obtain ⟨m', p', e1, e2, e3⟩ := PdfManager.near_binProbability R fma hbm hd ho b hbin (fun w hw' => hg w (hw ▸ hw')) value
      (fun k hk' => by rw [PdfManager.getParameter_congr hk (PdfManager.inv_of_built hbm) k]; exact hvalP k hk') hnn
    have hf := PdfManager.reassert_facts (NLLH.binProbability_facts e1)
    have f2 := hf.2.1
    have f3 := hf.1
    rw [hw] at e1 e3
    have hp' := e3.pos h0 h1 (hpos b hbN)
    have hcont : P.dataDist.hist.getBinContent b = .ok (n b) := by
      unfold Histogram.getBinContent
      rw [if_neg (by omega), idx_of_lt (by omega)]
      simp [hn, List.getD, show b < P.dataDist.hist.contents.length by omega]
    refine ⟨m', NLLH.addTermR R.toRounding fma a' (n b) (lg p') p', ?_, ?_, hbm.binProbability b e1, f2.trans hw, f3.trans hk⟩
    · unfold NLLH.binStepR
      simp only
      rw [e2]
      simp only [Res.ok_bind]
      rw [Res.throwIf_false_of hp'.ne']
      simp only [Res.ok_bind]
      rw [hcont]
      simp only [Res.ok_bind]
      rw [if_neg (not_le.2 hp')]
      rfl
    · exact near_addTerm R fma hlg (by omega) (hnb b hbN) (hpos b hbN) ha e3
  have loop : ∀ k, k ≤ N → ∃ m v', Res.forFold (NLLH.binStepR R.toRounding fma lg P) (some 0, P.pdfs) (List.range k) = .ok (some v', m) ∧
      Close R.u (log.length + 3 + 2 * k) (sumScale k n mu) ((List.range k).map (fun b => poissonTerm (n b) (mu b))).sum v' ∧
      PdfManager.Built log m ∧ m.work = P.pdfs.work ∧ PdfManager.Same m P.pdfs := by
    intro k
    induction k with
    | zero =>
      intro _
      refine ⟨P.pdfs, 0, rfl, ?_, hbP, rfl, .refl _⟩
      have := Close.refl h0 h1 (log.length + 3 + 2 * 0) (0 : ℝ)
      rw [abs_zero] at this
      exact this
    | succ k ih =>
      intro hk
      obtain ⟨m, v', i1, i2, i3, i4, i5⟩ := ih (by omega)
      obtain ⟨m', w', s1, s2, s3, s4, s5⟩ := step k (by omega) m i3 i4 i5 _ (by omega) _ _ _ i2
      refine ⟨m', w', ?_, ?_, s3, s4, s5⟩
      · rw [List.range_succ, Res.forFold_append, i1]
        simp only [Res.bind, Res.forFold]
        rw [s1]
      · unfold sumScale
        rw [List.range_succ, List.map_append, List.map_append, List.sum_append, List.sum_append]
        simp only [List.map_cons, List.map_nil, List.sum_cons, List.sum_nil, add_zero]
        exact s2
  obtain ⟨m, v', l1, l2, l3, l4, l5⟩ := loop N le_rfl
  refine ⟨_, R.rnd (v' + c'), L', { P with pdfs := m }, hL', ?_, ?_⟩
  · unfold NLLH.evaluateR
    rw [hP]
    simp only [Res.ok_bind]
    rw [l1]
    simp only [Res.ok_bind]
    have hg : ({ P with pdfs := m } : NLLH σ ℝ).getParameters C = P.getParameters C :=
      NLLH.getParameters_sim rfl l5 (PdfManager.inv_of_built l3) (fun p => .refl C _)
    rw [hg, hps]
    simp only [Res.ok_bind]
    rw [hcP, hc']
    rfl
  · exact (((l2.mono h0 h1 (show log.length + 3 + 2 * N ≤ max (log.length + 2 * N + 3) kc by omega)).add h0 h1
      (hclose.mono h0 h1 (le_max_right _ _))).rounded R).2

/-- C103 (partial), from the configuration to the value: a fit without systematics and buffers as in `C31_configured_partial`, with
parameters, distributions and data that are not negative. The value the machine returns is the Poisson sum plus the constraint term
up to `T + 2 N + 4` relative errors of the size of the terms summed, or one more than the constraint term has; for doubles
`T + 2 N + 4` relative errors are at most `2 (T + 2 N + 4) 2^-53`. Missing: Barlow-Beeston. -/
theorem C103_likelihood_partial (R : Arith ℝ) (fma : Bool) (lg : ℝ → ℝ) (hlg : ∀ x, 0 < x → |lg x - Real.log x| ≤ R.u * |Real.log x|)
    {name : Nat → String} {C : FitSys σ ℝ} {objs : Nat → σ} {log : List (BinnedED ℝ × NormStatus)} {cons : ConstraintManager ℝ}
    {d : BinnedED ℝ} {ps : ParamDict ℝ} {c : ℝ} (h : CanFit log d) (hp : FitPoint log cons d ps c) {kc : Nat} {tc : ℝ}
    (hcc : CloseTo R.u kc tc (cons.evaluate (ps.filter (fun p => p.1 ∈ PdfLog.fitted log)))
      (cons.evaluateR R.toRounding fma (ps.filter (fun p => p.1 ∈ PdfLog.fitted log))))
    (hnn : ∀ n ∈ PdfLog.fitted log, ∀ v, SMap.find ps n = some v → 0 ≤ v) (hg : ∀ p ∈ log, ∀ x ∈ p.1.hist.contents, 0 ≤ x)
    (hdn : ∀ x ∈ d.hist.contents, 0 ≤ x) :
    ∃ L v' L', NLLH.configured name C objs log cons ps d = .ok L ∧ L.evaluateR R.toRounding fma lg C = .ok (some v', L') ∧
      |v' - (nllAt log d ps + c)| ≤ (1 / (1 - R.u) ^ (max (log.length + 2 * d.hist.nBins + 3) kc + 1) - 1) *
        (sumScale d.hist.nBins (countIn d) (rateAt log ps) + tc) := by
  obtain ⟨L, h1, hS, hset⟩ := NLLH.configured_simple (name := name) (C := C) (objs := objs) (cons := cons) (d := d) h.distinct
    hp.nonempty hp.all
  have hval : ∀ n ∈ PdfLog.fitted log, ∃ v, SMap.find ps n = some v ∧ L.pdfs.getParameter n = .ok v := fun n hn => by
    obtain ⟨v, hv⟩ := Option.isSome_iff_exists.1 (hp.all n hn)
    exact ⟨v, hv, hset n hn v hv⟩
  obtain ⟨m, sh, hsb, p1, _, hP⟩ := NLLH.configured_prepare (C := C) hS.built hS.work hS.buf hS.sys hS.calced
    (by rw [hS.data]; exact fun p hp => (h.obs p hp).1) h.distinct
  obtain ⟨hbP, hsame, _, _⟩ := NLLH.prepare_facts hS.built hP
  simp only at hbP hsame
  have hSP : ({ L with pdfs := m, shrinker := sh, alreadyShrunk := true } : NLLH σ ℝ).Simple log cons d :=
    ⟨hbP, p1, hS.bb, hsb, hS.sys, hS.data, hS.calced, hS.cons, hS.comp⟩
  have hgp := hSP.getParameters C h.distinct hp.sorted (by
    intro n hn
    obtain ⟨v, e1, e2⟩ := hval n hn
    exact ⟨v, e1, (PdfManager.getParameter_congr hsame (PdfManager.inv_of_built hbP) n).trans e2⟩)
  have hwork : ∀ w ∈ m.work, ∃ p ∈ log, p.1 = w := by
    intro w hw
    rw [p1] at hw
    obtain ⟨p, hp, rfl⟩ := List.mem_map.1 hw
    exact ⟨p, hp, rfl⟩
  have main := C103_evaluate R fma lg hlg hS.built hS.bb h.distinct h.order hP (by
      show L.dataDist.hist.contents.length = L.dataDist.hist.nBins
      rw [hS.data]; exact h.data) (by
      intro w hw
      obtain ⟨p, hp, rfl⟩ := hwork w hw
      obtain ⟨_, e2, e3⟩ := h.obs p hp
      show L.dataDist.hist.nBins ≤ _ ∧ _
      rw [hS.data]
      exact ⟨e2.ge, e3.trans e2.symm⟩) (fun n => (SMap.find ps n).getD 0) (by
      intro n hn
      obtain ⟨v, e1, e2⟩ := hval n hn
      rw [e2, e1]; rfl) (by
      intro w hw
      obtain ⟨p, hp, rfl⟩ := hwork w hw
      exact hg p hp) (by
      intro n hn
      obtain ⟨v, e1, _⟩ := hval n hn
      show 0 ≤ (SMap.find ps n).getD 0
      rw [e1]
      exact hnn n hn v e1) (by
      show ∀ x ∈ L.dataDist.hist.contents, 0 ≤ x
      rw [hS.data]; exact hdn) (by
      show ∀ b, b < L.dataDist.hist.nBins → 0 < expectedRate _ log m.work b
      rw [hS.data, p1]
      exact hp.positive) hgp (by
      show CloseTo R.u kc tc (L.constraints.evaluate _) (L.constraints.evaluateR _ _ _)
      rw [hS.cons]
      exact hcc)
  simp only at main
  rw [p1, hS.data] at main
  obtain ⟨v, v', L', L'', e1, e2, e3⟩ := main
  obtain ⟨M, M', f1, f2⟩ := C31_configured_partial (name := name) (C := C) (objs := objs) h.distinct h.order hp.nonempty hp.sorted hp.all
    h.obs h.data hp.positive hp.constraint
  rw [h1] at f1
  cases f1
  rw [e1] at f2
  have f3 := (Prod.mk.inj (Res.ok.inj f2)).1
  have hv : v = nllAt log d ps + c := by
    simpa [Fl.add, binnedNLL, nllAt, countIn, rateAt] using f3
  rw [hv] at e3
  exact ⟨L, v', L'', h1, e2, e3⟩

/-! ### The hypotheses are met -/

/-- Three events of weight a tenth in two bins: in doubles 0.1 + 0.1 + 0.1 is not three times 0.1. -/
def exTenths : Res (Histogram ℚ × Histogram ℚ) := do
  let a ← BinAxis.mkEqualR (Ieee.double : Rounding ℚ) false "x" 0 2 2
  let c ← AxisCollection.addAxes AxisCollection.empty [a]
  let evs := [([1 / 2], Ieee.rnd 53 (1 / 10)), ([1 / 2], Ieee.rnd 53 (1 / 10)), ([1 / 2], Ieee.rnd 53 (1 / 10)), ([3 / 2], 1)]
  let g ← fillAll (Histogram.ofAxes c) evs
  let g' ← (Histogram.ofAxes c).fillAllR (Ieee.double : Rounding ℚ) evs
  .ok (g, g')

-- the rounded content differs from the exact one, and the normalised histogram does not quite have integral 1
example : (exTenths >>= fun q => Res.ok (decide (q.1.contents = q.2.contents), decide (q.1.integral > 0),
    decide (|q.2.contents.getD 0 0 - q.1.contents.getD 0 0| ≤ 1 / 2 ^ 54))) = .ok (false, true, true) := by decide +kernel

-- a fit of a signal and a background to data, in doubles
example (C : FitSys σ ℝ) (objs : Nat → σ) : ∃ L v' L', NLLH.configured exSysName C objs exTwo .empty [("b", 3), ("s", 2)] (exRealPdf "d" 4 5) = .ok L ∧
    L.evaluateR (Ieee.doubleArith : Arith ℝ).toRounding false (fun x => Ieee.rnd 53 (Real.log x)) C = .ok (some v', L') ∧
      |v' - nllAt exTwo (exRealPdf "d" 4 5) [("b", 3), ("s", 2)]| ≤ 20 / 2 ^ 53 *
        sumScale 2 (countIn (exRealPdf "d" 4 5)) (rateAt exTwo [("b", 3), ("s", 2)]) := by
  obtain ⟨L, v', L', h1, h2, h3⟩ := C103_likelihood_partial (Ieee.doubleArith : Arith ℝ) false (fun x => Ieee.rnd 53 (Real.log x))
    (fun x _ => Ieee.rnd_near 53 _) (name := exSysName) (C := C) (objs := objs) (exTwo_canFit 4 5)
    (exTwo_point 4 5 (b := 3) (s := 2) (by norm_num) (by norm_num)) (kc := 0) (tc := 0)
    ⟨0, 0, rfl, rfl, by simp [Close]⟩ (by
      intro n hn v hv
      have : n ∈ (["s", "b"] : List String) := hn
      simp only [List.mem_cons, List.not_mem_nil, or_false] at this
      rcases this with rfl | rfl
      · have e : SMap.find ([("b", 3), ("s", 2)] : ParamDict ℝ) "s" = some 2 := by simp [SMap.find]
        rw [e] at hv; cases hv; norm_num
      · have e : SMap.find ([("b", 3), ("s", 2)] : ParamDict ℝ) "b" = some 3 := by simp [SMap.find]
        rw [e] at hv; cases hv; norm_num) (by
      intro p hp x hx
      simp only [exTwo, List.mem_cons, List.not_mem_nil, or_false] at hp
      rcases hp with rfl | rfl
      · have : x ∈ ([1 / 2, 1 / 2] : List ℝ) := hx
        simp only [List.mem_cons, List.not_mem_nil, or_false] at this
        rcases this with rfl | rfl <;> norm_num
      · have : x ∈ ([1 / 4, 3 / 4] : List ℝ) := hx
        simp only [List.mem_cons, List.not_mem_nil, or_false] at this
        rcases this with rfl | rfl <;> norm_num) (by
      intro x hx
      have : x ∈ ([4, 5] : List ℝ) := hx
      simp only [List.mem_cons, List.not_mem_nil, or_false] at this
      rcases this with rfl | rfl <;> norm_num)
  refine ⟨L, v', L', h1, h2, ?_⟩
  rw [add_zero, add_zero] at h3
  have hN : (exRealPdf "d" 4 5).hist.nBins = 2 := rfl
  rw [hN] at h3
  refine h3.trans (mul_le_mul_of_nonneg_right ?_ ?_)
  · have := (C103_double (α := ℝ)).2.2.2 10 (by norm_num)
    refine le_trans this ?_
    norm_num
  · unfold sumScale
    have hr : ∀ b, b < 2 → 0 < rateAt exTwo [("b", 3), ("s", 2)] b := fun b hb =>
      (exTwo_point 4 5 (b := 3) (s := 2) (by norm_num) (by norm_num)).positive b hb
    refine List.sum_nonneg ?_
    intro y hy
    obtain ⟨b, hb, rfl⟩ := List.mem_map.1 hy
    have hb := List.mem_range.1 hb
    have hcb : 0 ≤ countIn (exRealPdf "d" 4 5) b := by
      have : b = 0 ∨ b = 1 := by omega
      rcases this with rfl | rfl <;> simp [countIn, exRealPdf]
    have := hr b hb
    positivity

end Oxsx
