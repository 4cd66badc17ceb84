import Verif.Model.BinnedEDGenerator
import Verif.Lemmas.Histogram
import Verif.Lemmas.Accum
import Verif.Lemmas.Basic
import Verif.Props.BayesInterval
import Mathlib.Tactic.Linarith
import Mathlib.Tactic.FieldSimp
import Mathlib.Tactic.Ring
import Mathlib.Data.Rat.Floor
set_option linter.unusedSectionVars false
set_option linter.unusedSimpArgs false
set_option linter.unusedVariables false
/-
C58: random bins and fake distributions. C76: uniform numbers and rejection sampling.
-/
namespace Oxsx
open BinnedEDGenerator AxisCollection
variable {α : Type} [Field α] [LinearOrder α] [IsStrictOrderedRing α]

/-- A distribution with contents that are not negative and not all zero. -/
structure BinnedED.Usable (d : BinnedED α) (as : List (BinAxis α)) : Prop where
  valid : d.hist.Valid as
  nonneg : ∀ x ∈ d.hist.contents, 0 ≤ x
  pos : 0 < d.hist.contents.sum

theorem BinnedEDGenerator.cdf_fold {as : List (BinAxis α)} {h : Histogram α} (hv : h.Valid as) (k : Nat) (hk : k ≤ h.nBins) :
    Res.forFold (cdfStep h) (0, []) (List.range k) = .ok ((h.contents.take k).sum, (List.range k).map (fun i => (h.contents.take (i + 1)).sum)) := by
  induction k with
  | zero => simp [Res.forFold]
  | succ k ih =>
    have hlen : h.contents.length = h.nBins := by rw [hv.len, hv.nb]
    have hx := List.getElem?_eq_getElem (l := h.contents) (i := k) (by omega)
    have hs : (h.contents.take (k + 1)).sum = (h.contents.take k).sum + h.contents[k] := by
      rw [List.take_add_one, List.sum_append, hx, Option.toList_some, List.sum_singleton]
    rw [List.range_succ, Res.forFold_append, ih (by omega)]
    have hg : h.getBinContent k = .ok (h.contents[k]) := Histogram.getBinContent_ok_iff.2 ⟨by omega, hx⟩
    simp only [Res.ok_bind, Res.forFold, cdfStep, hg, List.map_append, List.map_cons, List.map_nil]
    rw [hs]
    rfl

/-- C58: a number r in (0, 1] gives the one bin b such that the fraction of the content before b is less than r and the fraction up to and including b
is not: each bin has the numbers of an interval as long as its share of the content. -/
theorem C58_bin {as : List (BinAxis α)} {d : BinnedED α} (hd : d.Usable as) {r : α} (h0 : 0 < r) (h1 : r ≤ 1) :
    (∃ b, randomBin d r = .ok b ∧ b < d.hist.nBins) ∧
    (∀ b, b < d.hist.nBins → (randomBin d r = .ok b ↔ fraction d.hist b < r ∧ r ≤ fraction d.hist (b + 1))) ∧
    (∀ b x, d.hist.contents[b]? = some x → fraction d.hist (b + 1) - fraction d.hist b = x / d.hist.contents.sum) ∧
    (∀ b x, randomBin d r = .ok b → d.hist.contents[b]? = some x → 0 < x) := by
  have hv := hd.valid
  have hlen : d.hist.contents.length = d.hist.nBins := by rw [hv.len, hv.nb]
  have hnd : d.hist.nDims ≠ 0 := by rw [hv.nd]; exact fun e => hv.ne (List.length_eq_zero_iff.1 e)
  have hsum : d.hist.contents.take d.hist.nBins = d.hist.contents := List.take_of_length_le (by omega)
  set F : Nat → α := fun k => fraction d.hist k with hF
  set below : Fl α → Bool := fun x => match x with | some y => decide (y < r) | none => false with hbelow
  set cdf : List (Fl α) := (List.range d.hist.nBins).map (fun i => some (F (i + 1))) with hcdf
  have hrb : randomBin d r = .ok (lowerBound cdf below) := by
    unfold randomBin
    rw [if_neg hnd, cdf_fold hv _ (le_refl _), hsum]
    simp only [Res.ok_bind]
    congr 2
    rw [List.map_map, hcdf]
    apply List.map_congr_left
    intro i _
    simp only [Function.comp, Fl.div]
    rw [if_neg hd.pos.ne']
    rfl
  have hstep : ∀ k, k < d.hist.nBins → F k ≤ F (k + 1) := by
    intro k hk
    have hx := List.getElem?_eq_getElem (l := d.hist.contents) (i := k) (by omega)
    simp only [hF]
    rw [fraction_succ hx]
    have : 0 ≤ d.hist.contents[k] / d.hist.contents.sum := div_nonneg (hd.nonneg _ (List.getElem_mem _)) hd.pos.le
    linarith
  have hmono : ∀ i j, i ≤ j → j ≤ d.hist.nBins → F i ≤ F j := by
    intro i j hij
    induction j, hij using Nat.le_induction with
    | base => intro _; exact le_refl _
    | succ j hij ih => intro hj; exact (ih (by omega)).trans (hstep j (by omega))
  have hget : ∀ i, i < d.hist.nBins → cdf[i]? = some (some (F (i + 1))) := by
    intro i hi
    rw [hcdf, List.getElem?_map, List.getElem?_range hi]; rfl
  have hcl : cdf.length = d.hist.nBins := by simp [hcdf]
  have hpart : Partitioned cdf below := by
    intro i j x y hij hx hy hb
    have hj : j < d.hist.nBins := hcl ▸ (List.getElem?_eq_some_iff.1 hy).1
    rw [hget i (by omega)] at hx
    rw [hget j hj] at hy
    cases hx; cases hy
    simp only [hbelow, decide_eq_true_eq] at hb ⊢
    exact lt_of_le_of_lt (hmono _ _ (by omega) (by omega)) hb
  obtain ⟨l1, l2, l3⟩ := lowerBound_spec cdf below hpart
  have hone : F d.hist.nBins = 1 := by simp only [hF]; unfold fraction; rw [hsum, div_self hd.pos.ne']
  have hlt : lowerBound cdf below < d.hist.nBins := by
    by_contra hge
    have hn0 : d.hist.nBins ≠ 0 := by
      intro e
      have : d.hist.contents = [] := List.length_eq_zero_iff.1 (by omega)
      have := hd.pos
      rw [‹d.hist.contents = []›] at this
      simp at this
    have hb := l2 (d.hist.nBins - 1) _ (by omega) (hget _ (by omega))
    simp only [hbelow, decide_eq_true_eq, show d.hist.nBins - 1 + 1 = d.hist.nBins by omega, hone] at hb
    linarith
  have hlow : F (lowerBound cdf below) < r := by
    rcases Nat.eq_zero_or_pos (lowerBound cdf below) with e | e
    · rw [e]; simp only [hF, fraction_zero]; exact h0
    · have hb := l2 (lowerBound cdf below - 1) _ (by omega) (hget _ (by omega))
      have hb : decide (F (lowerBound cdf below - 1 + 1) < r) = true := hb
      rw [show lowerBound cdf below - 1 + 1 = lowerBound cdf below by omega] at hb
      exact of_decide_eq_true hb
  have hhigh : r ≤ F (lowerBound cdf below + 1) := by
    have hb := l3 _ _ (le_refl _) (hget _ hlt)
    simp only [hbelow, decide_eq_false_iff_not, not_lt] at hb
    exact hb
  have hshare : ∀ b x, d.hist.contents[b]? = some x → fraction d.hist (b + 1) - fraction d.hist b = x / d.hist.contents.sum := by
    intro b x hx; rw [fraction_succ hx]; ring
  refine ⟨⟨_, hrb, hlt⟩, ?_, hshare, ?_⟩
  · intro b hb
    rw [hrb]
    constructor
    · intro e
      have e := Res.ok.inj e
      rw [← e]; exact ⟨hlow, hhigh⟩
    · rintro ⟨a1, a2⟩
      congr 1
      rcases Nat.lt_trichotomy (lowerBound cdf below) b with h | h | h
      · have := hmono (lowerBound cdf below + 1) b (by omega) (by omega)
        simp only [hF] at this hhigh
        linarith
      · exact h
      · have := hmono (b + 1) (lowerBound cdf below) (by omega) (by omega)
        simp only [hF] at this hlow
        linarith
  · intro b x hb hx
    rw [hrb] at hb
    have hb := Res.ok.inj hb
    have hs := hshare b x hx
    rw [← hb] at hs
    have : 0 < x / d.hist.contents.sum := by
      rw [← hs]; simp only [hF] at hlow hhigh; linarith
    by_contra hneg
    exact absurd this (not_lt.2 (div_nonpos_of_nonpos_of_nonneg (not_lt.1 hneg) hd.pos.le))

/-- The bins `bins` were drawn from the distributions `owners`, one each, with the numbers `rs 0, rs 1, …`. -/
def DrawnFrom (rs : Nat → α) (owners : List (BinnedED α)) (bins : List Nat) : Prop :=
  bins.length = owners.length ∧ ∀ (j : Nat) (p : BinnedED α) (b : Nat), owners[j]? = some p → bins[j]? = some b → randomBin p (rs j) = .ok b

theorem DrawnFrom.snoc {rs : Nat → α} {owners : List (BinnedED α)} {bins : List Nat} (h : DrawnFrom rs owners bins) {p : BinnedED α} {b : Nat}
    (hb : randomBin p (rs owners.length) = .ok b) : DrawnFrom rs (owners ++ [p]) (bins ++ [b]) := by
  refine ⟨by simp [h.1], ?_⟩
  intro j q c hq hc
  rcases Nat.lt_trichotomy j owners.length with hj | hj | hj
  · rw [List.getElem?_append_left hj] at hq
    rw [List.getElem?_append_left (by rw [h.1]; exact hj)] at hc
    exact h.2 j q c hq hc
  · rw [hj, List.getElem?_append_right (le_refl _)] at hq
    rw [hj, ← h.1, List.getElem?_append_right (le_refl _)] at hc
    simp only [Nat.sub_self, List.getElem?_cons_zero, Option.some.injEq] at hq hc
    rw [← hq, ← hc, hj]; exact hb
  · have := (List.getElem?_eq_some_iff.1 hq).1
    simp at this; omega

/-- The state while generating: `bins` have been filled. -/
structure GenState (as : List (BinAxis α)) (rs : Nat → α) (start : BinnedED α) (owners : List (BinnedED α)) (s : BinnedED α × Nat) : Prop where
  ex : ∃ bins : List Nat, DrawnFrom rs owners bins ∧ (∀ b ∈ bins, b < start.hist.nBins) ∧
    s = ({ start with hist := { start.hist with contents := accum start.hist.contents (bins.map (fun b => (b, 1))) } }, owners.length)

theorem accum_snoc (l : List α) (ops : List (Nat × α)) (p : Nat × α) : accum l (ops ++ [p]) = addAt (accum l ops) p.1 p.2 := by
  unfold accum; rw [List.foldl_append]; rfl

theorem GenState.draw {as : List (BinAxis α)} {rs : Nat → α} {start : BinnedED α} (hst : start.hist.Valid as) {owners : List (BinnedED α)}
    {s : BinnedED α × Nat} (h : GenState as rs start owners s) {src : BinnedED α} (hsrc : src.Usable as) (hr : ∀ k, 0 < rs k ∧ rs k ≤ 1) :
    ∃ t, drawOne rs src s = .ok t ∧ GenState as rs start (owners ++ [src]) t := by
  obtain ⟨bins, h1, h2, rfl⟩ := h.ex
  obtain ⟨⟨b, hb, hlt⟩, _⟩ := C58_bin hsrc (hr owners.length).1 (hr owners.length).2
  have hn : src.hist.nBins = start.hist.nBins := by rw [hsrc.valid.nb, hst.nb]
  have hv : ({ start.hist with contents := accum start.hist.contents (bins.map (fun b => (b, (1 : α)))) } : Histogram α).Valid as :=
    hst.withContents (by simp)
  have hadd := hv.addBin (b := b) (by show b < start.hist.nBins; omega) 1
  refine ⟨({ start with hist := { start.hist with contents := accum start.hist.contents ((bins ++ [b]).map (fun b => (b, (1 : α)))) } },
    (owners ++ [src]).length), ?_, ?_⟩
  · unfold drawOne
    simp only [hb, Res.ok_bind, hadd]
    simp only [List.map_append, List.map_cons, List.map_nil, accum_snoc, List.length_append, List.length_cons, List.length_nil]
  · refine ⟨⟨bins ++ [b], h1.snoc hb, ?_, rfl⟩⟩
    intro c hc
    rcases List.mem_append.1 hc with hc | hc
    · exact h2 c hc
    · simp only [List.mem_cons, List.not_mem_nil, or_false] at hc; omega

theorem GenState.drawMany {as : List (BinAxis α)} {rs : Nat → α} {start : BinnedED α} (hst : start.hist.Valid as) {src : BinnedED α} (hsrc : src.Usable as)
    (hr : ∀ k, 0 < rs k ∧ rs k ≤ 1) (n : Nat) : ∀ {owners : List (BinnedED α)} {s : BinnedED α × Nat}, GenState as rs start owners s →
    ∃ t, BinnedEDGenerator.drawMany rs src n s = .ok t ∧ GenState as rs start (owners ++ List.replicate n src) t := by
  unfold BinnedEDGenerator.drawMany
  induction n with
  | zero => intro owners s h; exact ⟨s, by simp [Res.forFold], by simpa using h⟩
  | succ n ih =>
    intro owners s h
    obtain ⟨t, h1, h2⟩ := ih h
    obtain ⟨u, h3, h4⟩ := h2.draw hst hsrc hr
    refine ⟨u, ?_, ?_⟩
    · rw [List.range_succ, Res.forFold_append, h1]
      show Res.forFold (fun s _ => drawOne rs src s) t [n] = Res.ok u
      simp only [Res.forFold, h3]
    · rw [List.replicate_succ']
      simpa using h4

/-- C58, whole distributions: with usable distributions over the same bins, the numbers of events `ns` obtained from the rates and any random numbers in
(0, 1], the distribution generated has, in every bin, exactly the number of draws that gave that bin; draw number j is from the distribution whose turn it is;
and the integral is the total number of events. -/
theorem C58_generate {as : List (BinAxis α)} {g : BinnedEDGenerator α} (hne : g.pdfs ≠ []) (hp : ∀ d ∈ g.pdfs, d.Usable as) {cnt : Nat → α → Res Nat}
    {ns : List Nat} (hl : g.pdfs.length = g.rates.length) (hn : ns.length = g.rates.length)
    (hc : ∀ (k : Nat) (rate : α) (n : Nat), g.rates[k]? = some rate → ns[k]? = some n → cnt k rate = .ok n)
    {rs : Nat → α} (hr : ∀ k, 0 < rs k ∧ rs k ≤ 1) (pre name : String) :
    ∃ out bins, g.generate pre cnt rs name = .ok out ∧ out.hist.Valid as ∧ DrawnFrom rs ((g.pdfs.zip ns).flatMap (fun p => List.replicate p.2 p.1)) bins ∧
      bins.length = ns.sum ∧ (∀ b, b < out.hist.nBins → out.hist.getBinContent b = .ok (bins.count b)) ∧ out.hist.integral = (ns.sum : Nat) ∧
      out.name = genName pre g.pdfs name ∧ out.obs = (g.pdfs.head hne).obs := by
  obtain ⟨pdfs, rates⟩ := g
  simp only at *
  cases pdfs with
  | nil => exact absurd rfl hne
  | cons d ds =>
    set start : BinnedED α := ⟨genName pre (d :: ds) name, d.hist.emptyContents, d.obs⟩ with hstart
    have hd := (hp d List.mem_cons_self).valid
    have hst : start.hist.Valid as := hd.withContents (by simp)
    have gen : ∀ (ps : List (BinnedED α)) (rts : List α) (nn : List Nat) (k : Nat) (owners : List (BinnedED α)) (s : BinnedED α × Nat),
        ps.length = rts.length → nn.length = rts.length → (∀ p ∈ ps, p.Usable as) →
        (∀ (i : Nat) (rate : α) (n : Nat), rts[i]? = some rate → nn[i]? = some n → cnt (k + i) rate = .ok n) → GenState as rs start owners s →
        ∃ t j, Res.forFold (genStep cnt rs) (s, k) (ps.zip rts) = .ok (t, j) ∧
          GenState as rs start (owners ++ (ps.zip nn).flatMap (fun p => List.replicate p.2 p.1)) t := by
      intro ps
      induction ps with
      | nil => intro rts nn k owners s _ _ _ _ h; exact ⟨s, k, rfl, by simpa using h⟩
      | cons p ps ih =>
        intro rts nn k owners s e1 e2 hu hcnt h
        cases rts with
        | nil => simp at e1
        | cons rt rts =>
          cases nn with
          | nil => simp at e2
          | cons n nn =>
            have h0 := hcnt 0 rt n rfl rfl
            obtain ⟨t, t1, t2⟩ := GenState.drawMany hst (hu p List.mem_cons_self) hr n h
            obtain ⟨u, j, u1, u2⟩ := ih rts nn (k + 1) _ t (by simpa using e1) (by simpa using e2) (fun q hq => hu q (List.mem_cons_of_mem _ hq))
              (fun i rate m a b => by rw [Nat.add_assoc, Nat.add_comm 1 i]; exact hcnt (i + 1) rate m (by simpa using a) (by simpa using b)) t2
            refine ⟨u, j, ?_, ?_⟩
            · rw [List.zip_cons_cons]
              have : genStep cnt rs (s, k) (p, rt) = .ok (t, k + 1) := by
                unfold genStep
                simp only [Nat.add_zero] at h0
                simp only [h0, Res.ok_bind, t1]
              rw [Res.forFold_cons_ok this]
              exact u1
            · rw [List.zip_cons_cons, List.flatMap_cons, ← List.append_assoc]
              exact u2
    have h0 : GenState as rs start [] (start, 0) := ⟨⟨[], ⟨rfl, by simp⟩, by simp, rfl⟩⟩
    obtain ⟨t, j, t1, t2⟩ := gen (d :: ds) rates ns 0 [] (start, 0) hl hn hp (fun i rate n a b => by rw [Nat.zero_add]; exact hc i rate n a b) h0
    obtain ⟨bins, b1, b2, rfl⟩ := t2.ex
    rw [List.nil_append] at b1
    have hlen : bins.length = ns.sum := by
      rw [b1.1, List.length_flatMap]
      simp only [List.length_replicate]
      rw [show (fun p : BinnedED α × Nat => p.2) = Prod.snd from rfl, List.map_snd_zip (by omega)]
    have hz : start.hist.contents.length = start.hist.nBins := by rw [hst.len, hst.nb]
    have hv : ({ start.hist with contents := accum start.hist.contents (bins.map (fun b => (b, (1 : α)))) } : Histogram α).Valid as :=
      hst.withContents (by simp)
    have hops : ∀ q ∈ bins.map (fun b => (b, (1 : α))), q.1 < start.hist.contents.length := by
      intro q hq
      obtain ⟨b, hb, rfl⟩ := List.mem_map.1 hq
      rw [hz]; exact b2 b hb
    have hzero : ∀ b, start.hist.contents.getD b 0 = 0 := by
      intro b
      simp only [hstart, Histogram.emptyContents, List.getD, List.getElem?_map]
      cases d.hist.contents[b]? <;> rfl
    refine ⟨{ start with hist := { start.hist with contents := accum start.hist.contents (bins.map (fun b => (b, (1 : α)))) } }, bins, ?_, hv, b1, hlen, ?_, ?_, rfl, rfl⟩
    · unfold generate
      simp only
      rw [if_neg (not_not.2 hl), t1]
      rfl
    · intro b hb
      rw [hv.get hb]
      simp only
      rw [accum_getD _ _ hops, hzero, zero_add]
      congr 1
      rw [List.filter_map, List.map_map]
      have : ∀ l : List Nat, (List.map ((fun x : Nat × α => x.2) ∘ fun b => (b, (1 : α))) (List.filter ((fun p : Nat × α => decide (p.1 = b)) ∘ fun b => (b, (1 : α))) l)).sum = (l.count b : Nat) := by
        intro l
        induction l with
        | nil => simp
        | cons c l ih =>
          by_cases e : c = b
          · subst e
            rw [List.filter_cons_of_pos (by simp), List.map_cons, List.sum_cons, ih, List.count_cons_self]
            simp [add_comm]
          · rw [List.filter_cons_of_neg (by simpa using e), ih, List.count_cons_of_ne e]
      exact this bins
    · rw [hv.integral]
      simp only
      rw [accum_sum _ _ hops, ← hlen]
      have e1 : start.hist.contents.sum = 0 := by
        simp [hstart, Histogram.emptyContents]
      rw [e1, zero_add, List.map_map]
      have : ((fun x : Nat × α => x.2) ∘ fun b : Nat => (b, (1 : α))) = fun _ => 1 := rfl
      rw [this, List.map_const', List.sum_replicate, nsmul_eq_mul, mul_one]

/-- C58: the number of events from a rate that is not negative is the rate rounded to a nearest whole number. -/
theorem C58_rounding [FloorRing α] {rate : α} (h0 : 0 ≤ rate) (h1 : rate + 1 / 2 < 2 ^ 32) :
    ∃ n : Nat, roundCounts rate = .ok n ∧ |(n : α) - rate| ≤ 1 / 2 := by
  have hf : 0 ≤ ⌊rate + 1 / 2⌋ := Int.floor_nonneg.2 (by linarith)
  have hlt : ⌊rate + 1 / 2⌋ < 2 ^ 32 := by rw [Int.floor_lt]; push_cast; norm_num at h1 ⊢; exact h1
  refine ⟨⌊rate + 1 / 2⌋.toNat, ?_, ?_⟩
  · unfold roundCounts
    simp only [if_pos h0]
    rw [if_pos ⟨hf, hlt⟩]
  · have : ((⌊rate + 1 / 2⌋.toNat : Nat) : α) = ((⌊rate + 1 / 2⌋ : Int) : α) := by
      rw [← Int.cast_natCast, Int.toNat_of_nonneg hf]
    rw [this, abs_le]
    have a := Int.floor_le (rate + 1 / 2)
    have b := Int.lt_floor_add_one (rate + 1 / 2)
    constructor <;> linarith

/-- C58, refusals: a logic error if there is not one rate per distribution, if there are none, or (when something is to be drawn) if a distribution has no
dimensions. -/
theorem C58_refused (g : BinnedEDGenerator α) (pre name : String) (cnt : Nat → α → Res Nat) (rs : Nat → α) :
    (g.pdfs.length ≠ g.rates.length → g.generate pre cnt rs name = .throw .logic) ∧ (g.pdfs = [] → g.generate pre cnt rs name = .throw .logic) ∧
    (∀ d : BinnedED α, d.hist.nDims = 0 → ∀ r, randomBin d r = .throw .logic) := by
  refine ⟨fun h => by unfold generate; rw [if_pos h], fun h => ?_, fun d hd r => by unfold randomBin; rw [if_pos hd]⟩
  unfold generate
  split
  · rfl
  · rw [h]

/-- C58, the two public ways to generate. From the expected rates: `n` is the rate of each distribution rounded to the nearest integer. With Poisson
fluctuations: `n` is the number returned for it by the random generator, the k-th number for the k-th distribution. In both cases exactly `n` entries are
drawn from each distribution, and the result carries the name asked for, or one made of the names of the distributions, and the observables of the first
distribution. -/
theorem C58_both [FloorRing α] {as : List (BinAxis α)} {g : BinnedEDGenerator α} (hne : g.pdfs ≠ []) (hp : ∀ d ∈ g.pdfs, d.Usable as)
    (hl : g.pdfs.length = g.rates.length) {rs : Nat → α} (hr : ∀ k, 0 < rs k ∧ rs k ≤ 1) (name : String) :
    (∀ pois : Nat → Nat, ∃ out bins, g.poissonFluctuatedED pois rs name = .ok out ∧ out.hist.Valid as ∧
      DrawnFrom rs ((g.pdfs.zip ((List.range g.pdfs.length).map pois)).flatMap (fun p => List.replicate p.2 p.1)) bins ∧
      (∀ b, b < out.hist.nBins → out.hist.getBinContent b = .ok (bins.count b)) ∧ out.hist.integral = (((List.range g.pdfs.length).map pois).sum : Nat) ∧
      out.name = (if name = "" then "Gen_Poi" ++ "_".intercalate (g.pdfs.map (·.name)) else name) ∧ out.obs = (g.pdfs.head hne).obs) ∧
    (∀ ns : List Nat, List.Forall₂ (fun (rate : α) (n : Nat) => 0 ≤ rate ∧ rate + 1 / 2 < 2 ^ 32 ∧ (n : α) ≤ rate + 1 / 2 ∧ rate + 1 / 2 < n + 1) g.rates ns →
      ∃ out bins, g.expectedRatesED rs name = .ok out ∧ out.hist.Valid as ∧
      DrawnFrom rs ((g.pdfs.zip ns).flatMap (fun p => List.replicate p.2 p.1)) bins ∧
      (∀ b, b < out.hist.nBins → out.hist.getBinContent b = .ok (bins.count b)) ∧ out.hist.integral = (ns.sum : Nat) ∧
      out.name = (if name = "" then "Gen_Exp" ++ "_".intercalate (g.pdfs.map (·.name)) else name) ∧ out.obs = (g.pdfs.head hne).obs) := by
  constructor
  · intro pois
    obtain ⟨out, bins, h1, h2, h3, _, h5, h6, h7⟩ := C58_generate hne hp (cnt := fun k _ => .ok (pois k)) (ns := (List.range g.pdfs.length).map pois) hl
      (by simp [hl]) (by
        intro k rate n _ hn
        simp only [List.getElem?_map, Option.map_eq_some_iff] at hn
        obtain ⟨j, hj, rfl⟩ := hn
        rw [List.getElem?_eq_some_iff] at hj
        obtain ⟨_, rfl⟩ := hj
        simp) hr "Gen_Poi" name
    exact ⟨out, bins, h1, h2, h3, h5, h6, h7⟩
  · intro ns hns
    obtain ⟨out, bins, h1, h2, h3, _, h5, h6, h7⟩ := C58_generate hne hp (cnt := fun _ => roundCounts) (ns := ns) hl hns.length_eq.symm (by
        intro k rate n hk hn
        have hF := (List.forall₂_iff_get.1 hns).2 k (List.getElem?_eq_some_iff.1 hk).1 (List.getElem?_eq_some_iff.1 hn).1
        obtain ⟨_, rfl⟩ := List.getElem?_eq_some_iff.1 hk
        obtain ⟨_, rfl⟩ := List.getElem?_eq_some_iff.1 hn
        simp only [List.get_eq_getElem] at hF
        obtain ⟨a1, a2, a3, a4⟩ := hF
        have hfl : ⌊g.rates[k] + 1 / 2⌋ = (ns[k] : Int) := by rw [Int.floor_eq_iff]; exact ⟨by exact_mod_cast a3, by exact_mod_cast a4⟩
        have hlt : ⌊g.rates[k] + 1 / 2⌋ < 2 ^ 32 := by rw [Int.floor_lt]; push_cast; norm_num at a2 ⊢; exact a2
        show roundCounts g.rates[k] = .ok ns[k]
        unfold roundCounts
        simp only [if_pos a1]
        rw [if_pos ⟨by rw [hfl]; omega, hlt⟩, hfl]; rfl) hr "Gen_Exp" name
    exact ⟨out, bins, h1, h2, h3, h5, h6, h7⟩

/-! Concrete cases. -/

def genEx (cs : List ℚ) : BinnedED ℚ := ⟨"d", postHist cs, .ofNames ["x"]⟩

example : (genEx [1, 0, 2, 1]).Usable [postAxis] ∧ randomBin (genEx [1, 0, 2, 1]) (1 / 4) = .ok 0 ∧ randomBin (genEx [1, 0, 2, 1]) (1 / 3) = .ok 2 ∧
    randomBin (genEx [1, 0, 2, 1]) 1 = .ok 3 :=
  ⟨⟨postHist_valid _ rfl, by decide +kernel, by decide +kernel⟩, by decide +kernel, by decide +kernel, by decide +kernel⟩

set_option synthInstance.maxSize 4000 in
set_option synthInstance.maxHeartbeats 400000 in
example : ((⟨[genEx [1, 0, 2, 1], genEx [0, 1, 0, 0]], [3, 7 / 4]⟩ : BinnedEDGenerator ℚ).poissonFluctuatedED (fun k => k + 1) (fun k => (k + 1) / 10) "" >>=
    fun d => Res.ok (d.name, d.hist.contents)) = .ok ("Gen_Poid_d", [1, 2, 0, 0]) := by decide +kernel

example : ((⟨[genEx [1, 0, 2, 1], genEx [0, 1, 0, 0]], [3, 7 / 4]⟩ : BinnedEDGenerator ℚ).expectedRatesED (fun k => (k + 1) / 10) "" >>= fun d =>
    Res.ok (d.name, d.hist.contents)) = .ok ("Gen_Expd_d", [2, 2, 1, 0]) := by decide +kernel

/-- C58, what is not checked: an empty distribution puts all its events in bin 0; a distribution over other bins is drawn from all the same and its bin numbers
used for the first one's bins. -/
theorem C58_unchecked_wrong :
    (∀ r : ℚ, randomBin (genEx [0, 0, 0, 0]) r = .ok 0) ∧
    ((⟨[genEx [1, 0, 0, 0], ⟨"e", ⟨⟨[⟨"x", "x", 1, 100, 200, [100], [200], [150], [100]⟩], ["x"], [1], 1, 1⟩, [1], 1, 1⟩, .ofNames ["x"]⟩], [1, 1]⟩ :
        BinnedEDGenerator ℚ).expectedRatesED (fun _ => 1 / 2) "" >>= fun d => Res.ok d.hist.contents) = .ok [2, 0, 0, 0] := by
  refine ⟨fun r => ?_, by decide +kernel⟩
  have h : Res.forFold (cdfStep (genEx [0, 0, 0, 0]).hist) (0, []) (List.range (genEx [0, 0, 0, 0]).hist.nBins) = .ok (0, [0, 0, 0, 0]) := by decide +kernel
  unfold randomBin
  rw [if_neg (by decide), h]
  simp only [Res.ok_bind, Fl.div, if_true, List.map_cons, List.map_nil]
  rfl

/-! C76: uniform numbers. -/

/-- C76: for u in [0, 1), `UniformRange` lies in (lo, hi], and `Shoot` gives one of 0, …, max - 1, each from an interval of length 1 / max. -/
theorem C76_uniform [FloorRing α] {u : α} (h0 : 0 ≤ u) (h1 : u < 1) :
    (∀ lo hi : α, lo < hi → lo < Rand.uniformRange u lo hi ∧ Rand.uniformRange u lo hi ≤ hi) ∧
    (∀ max : Nat, 0 < max → ∃ k : Nat, k < max ∧ Rand.shoot u max = k ∧
      ∀ j : Nat, Rand.shoot u max = j ↔ (j : α) / max ≤ u ∧ u < (j + 1) / max) := by
  constructor
  · intro lo hi h
    unfold Rand.uniformRange
    have : 0 ≤ (hi - lo) * u := mul_nonneg (by linarith) h0
    have : (hi - lo) * u < (hi - lo) * 1 := mul_lt_mul_of_pos_left h1 (by linarith)
    constructor <;> linarith
  · intro max hmax
    have hm : (0 : α) < max := by exact_mod_cast hmax
    unfold Rand.shoot
    have hf : 0 ≤ ⌊(max : α) * u⌋ := Int.floor_nonneg.2 (mul_nonneg hm.le h0)
    refine ⟨⌊(max : α) * u⌋.toNat, ?_, (Int.toNat_of_nonneg hf).symm, ?_⟩
    · have : ⌊(max : α) * u⌋ < max := by
        rw [Int.floor_lt]
        push_cast
        calc (max : α) * u < max * 1 := mul_lt_mul_of_pos_left h1 hm
          _ = max := mul_one _
      omega
    · intro j
      rw [Int.floor_eq_iff, div_le_iff₀ hm, lt_div_iff₀ hm]
      push_cast
      rw [mul_comm u]

/-- C76, rejection sampling is false: whatever the function, range, maximum and random numbers, the sample is 0 (the loop is never entered), even if 0 is outside
the range. -/
theorem C76_vonNeumann_wrong (f : α → Res α) {lo hi yMax : α} (h1 : lo < hi) (h2 : 0 < yMax) (us : Nat → α) (fuel : Nat) :
    Rand.vonNeumannSample 1 f lo hi yMax us (fuel + 1) = some (.ok 0) := by
  unfold Rand.vonNeumannSample
  rw [if_neg (not_le.2 h1), if_neg (not_le.2 h2), if_neg (by simp)]
  unfold Rand.vonLoop
  rw [if_neg (by simp)]

/-- C76, refusals of rejection sampling. -/
theorem C76_vonNeumann_refused (n : Nat) (f : α → Res α) {lo hi yMax : α} (us : Nat → α) (fuel : Nat) (h : hi ≤ lo ∨ yMax ≤ 0 ∨ n ≠ 1) :
    Rand.vonNeumannSample n f lo hi yMax us fuel = some (.throw .value) := by
  unfold Rand.vonNeumannSample
  by_cases a : lo ≥ hi
  · rw [if_pos a]
  · rw [if_neg a]
    by_cases b : yMax ≤ 0
    · rw [if_pos b]
    · rw [if_neg b, if_pos (by tauto)]

example : Rand.uniformRange (1 / 4 : ℚ) 2 6 = 5 ∧ Rand.shoot (3 / 4 : ℚ) 10 = 7 := by decide +kernel

end Oxsx
