import Verif.Lemmas.Histogram
import Verif.Props.AxisCollection
/-
Properties C06 (out-of-range access), C07 (filling), C08 (scale, normalise), C11 (arithmetic).
-/
set_option linter.unusedSectionVars false
set_option linter.unusedSimpArgs false
namespace Oxsx
open AxisCollection Histogram
variable {α : Type} [Field α] [LinearOrder α]

theorem setIdx_length {l l' : List α} {i : Nat} {x : α} (h : setIdx l i x = .ok l') :
    l'.length = l.length := by
  unfold setIdx at h; split at h
  · cases h; simp
  · cases h

theorem forFold_setBin_valid {as : List (BinAxis α)} {h h' o : Histogram α} {f : α → α → α}
    (l : List Nat) (hv : h.Valid as)
    (hr : Res.forFold (fun (s : Histogram α) i => do
      let x ← s.getBinContent i
      let y ← o.getBinContent i
      s.setBinContent i (f x y)) h l = .ok h') : h'.Valid as := by
  refine Res.forFold_inv (fun s => s.Valid as) hv hr ?_
  intro s i s' hs _ h1
  obtain ⟨x, _, h2⟩ := Res.bind_eq_ok.1 h1
  obtain ⟨y, _, h3⟩ := Res.bind_eq_ok.1 h2
  unfold setBinContent at h3
  split at h3
  · cases h3
  · obtain ⟨cs, h4, h5⟩ := Res.bind_eq_ok.1 h3
    cases h5
    exact hs.withContents (setIdx_length h4)

theorem fill_valid {as : List (BinAxis α)} {h h' : Histogram α} {vs : List α} {w : α}
    (ih : h.Valid as) (h1 : h.fill vs w = .ok h') : h'.Valid as := by
  unfold Histogram.fill at h1
  obtain ⟨_, _, h2⟩ := Res.bind_eq_ok.1 h1
  obtain ⟨b, _, h3⟩ := Res.bind_eq_ok.1 h2
  obtain ⟨x, _, h4⟩ := Res.bind_eq_ok.1 h3
  obtain ⟨cs, h5, h6⟩ := Res.bind_eq_ok.1 h4
  cases h6
  exact ih.withContents (setIdx_length h5)

/-- Every reachable histogram over at least one axis has exactly one content per bin of its axes. This is
the hypothesis used by the histogram theorems below. -/
theorem C06_reachable_valid (as : List (BinAxis α)) (hn : as ≠ []) (h : Histogram α)
    (hr : Reachable as h) : h.Valid as := by
  induction hr with
  | new c hc => exact valid_ofAxes (holds_of_addAxes hc) hn
  | fill h h' vs w _ h1 ih => exact fill_valid ih h1
  | fillMap h h' m w _ h1 ih =>
    unfold Histogram.fillMap at h1
    rw [Res.mapExc_eq_ok] at h1
    obtain ⟨vs, _, h2⟩ := Res.bind_eq_ok.1 h1
    exact fill_valid ih h2
  | addBin h h' b x _ h1 ih =>
    unfold addBinContent at h1
    split at h1
    · cases h1
    · obtain ⟨y, _, h2⟩ := Res.bind_eq_ok.1 h1
      obtain ⟨cs, h4, h5⟩ := Res.bind_eq_ok.1 h2
      cases h5
      exact ih.withContents (setIdx_length h4)
  | setBin h h' b x _ h1 ih =>
    unfold setBinContent at h1
    split at h1
    · cases h1
    · obtain ⟨cs, h4, h5⟩ := Res.bind_eq_ok.1 h1
      cases h5
      exact ih.withContents (setIdx_length h4)
  | setAll h h' cs _ h1 ih =>
    unfold setBinContents at h1
    split at h1
    · cases h1
    · rename_i hl
      push Not at hl
      cases h1
      exact ⟨ih.axes, ih.ne, by simp only; rw [hl, ih.nb], ih.nd, by simp only; rw [hl, ih.nb]⟩
  | scale h s _ ih => exact ih.withContents (by simp)
  | normalise h _ ih => exact ih.withContents (by simp)
  | clear h _ ih => exact ih.withContents (by simp)
  | pad h p _ ih => exact ih.withContents (by simp)
  | combine h o h' f _ h1 ih =>
    unfold Histogram.combine at h1
    split at h1
    · cases h1
    · exact forFold_setBin_valid _ ih h1

/-! ### C06 -/

/-- C06 (partial): every bin number strictly above the number of bins is rejected by the three content
accessors, every valid bin is accepted and gives read-your-write. Missing: `bin = nBins`, see
`C06_boundary_ub`. -/
theorem C06_access_partial (as : List (BinAxis α)) (h : Histogram α) (hv : h.Valid as) (b : Nat) (x : α) :
    (h.nBins < b → h.getBinContent b = .throw .notFound ∧ h.setBinContent b x = .throw .notFound ∧
      h.addBinContent b x = .throw .notFound) ∧
    (b < h.nBins → ∃ y, h.getBinContent b = .ok y ∧
      (∃ h', h.setBinContent b x = .ok h' ∧ h'.getBinContent b = .ok x ∧
        h'.nBins = h.nBins ∧ h'.axes = h.axes ∧
        ∀ b', b' ≠ b → b' < h.nBins → h'.getBinContent b' = h.getBinContent b') ∧
      (∃ h', h.addBinContent b x = .ok h' ∧ h'.getBinContent b = .ok (y + x) ∧
        h'.nBins = h.nBins ∧ h'.axes = h.axes ∧
        ∀ b', b' ≠ b → b' < h.nBins → h'.getBinContent b' = h.getBinContent b')) := by
  constructor
  · intro hb
    simp [getBinContent, setBinContent, addBinContent, hb]
  · intro hb
    have hl : b < h.contents.length := by rw [hv.len, ← hv.nb]; exact hb
    refine ⟨_, hv.get hb, ⟨_, hv.setBin hb x, ?_, rfl, rfl, ?_⟩, ⟨_, hv.addBin hb x, ?_, rfl, rfl, ?_⟩⟩
    · have hv' : ({ h with contents := h.contents.set b x } : Histogram α).Valid as :=
        hv.withContents (by simp)
      rw [hv'.get hb]; simp [List.getD, hl]
    · intro b' hne hb'
      have hv' : ({ h with contents := h.contents.set b x } : Histogram α).Valid as :=
        hv.withContents (by simp)
      rw [hv'.get hb', hv.get hb']; simp [List.getD, Ne.symm hne]
    · have hv' : ({ h with contents := addAt h.contents b x } : Histogram α).Valid as :=
        hv.withContents (by simp)
      rw [hv'.get hb, addAt_getD _ _ _ _ hl]; simp
    · intro b' hne hb'
      have hv' : ({ h with contents := addAt h.contents b x } : Histogram α).Valid as :=
        hv.withContents (by simp)
      rw [hv'.get hb', hv.get hb', addAt_getD _ _ _ _ hl]; simp [Ne.symm hne]

/-- C06 is false at the boundary: for **every** histogram, the bin number `GetNBins()` passes the guard
`bin_ > fNBins` and indexes one past the end of the content vector: undefined behaviour in all three
accessors. -/
theorem C06_boundary_ub (as : List (BinAxis α)) (h : Histogram α) (hv : h.Valid as) (x : α) :
    h.getBinContent h.nBins = .ub ∧ h.setBinContent h.nBins x = .ub ∧
    h.addBinContent h.nBins x = .ub := by
  have hl : h.contents.length ≤ h.nBins := by rw [hv.len, hv.nb]
  simp [getBinContent, setBinContent, addBinContent, idx_of_ge hl, setIdx_of_ge hl]

/-- C06 (whole-vector setter): only vectors with one entry per bin are accepted. -/
theorem C06_setBinContents (h : Histogram α) (cs : List α) :
    (cs.length ≠ h.nBins → h.setBinContents cs = .throw .dimension) ∧
    (cs.length = h.nBins → ∃ h', h.setBinContents cs = .ok h' ∧ h'.contents = cs ∧
      h'.nBins = h.nBins ∧ h'.axes = h.axes ∧
      ∀ b x, cs[b]? = some x → h'.getBinContent b = .ok x) := by
  constructor
  · intro hl; simp [setBinContents, hl]
  · intro hl
    refine ⟨{ h with contents := cs, nBins := cs.length }, by simp [setBinContents, hl], rfl, hl, rfl, ?_⟩
    intro b x hx
    have hb := (List.getElem?_eq_some_iff.1 hx).1
    unfold getBinContent
    rw [if_neg (by simp only; omega)]
    exact idx_ok.2 hx

/-! ### C07 -/

/-- Fill a sequence of (point, weight) entries. -/
def fillAll (h : Histogram α) (evs : List (List α × α)) : Res (Histogram α) :=
  Res.forFold (fun h e => h.fill e.1 e.2) h evs

variable [IsStrictOrderedRing α]

/-- C07 (one fill): a point of the right dimension goes to the bin reported by `FindBin`, all other bins
are untouched; a point of the wrong dimension throws and nothing is returned. -/
theorem C07_fill_one (as : List (BinAxis α)) (h : Histogram α) (hv : h.Valid as)
    (hc : ∀ a ∈ as, a.Contiguous) (vs : List α) (w : α) :
    (vs.length ≠ as.length → h.fill vs w = .throw .dimension) ∧
    (vs.length = as.length → ∃ h' b x, h.fill vs w = .ok h' ∧ h.findBin vs = .ok b ∧ b < h.nBins ∧
      h.getBinContent b = .ok x ∧ h'.getBinContent b = .ok (x + w) ∧
      h'.axes = h.axes ∧ h'.nBins = h.nBins ∧
      ∀ b', b' ≠ b → b' < h.nBins → h'.getBinContent b' = h.getBinContent b') := by
  constructor
  · intro hl; exact hv.fill_dim hl w
  · intro hl
    obtain ⟨b, h1, h2, h3⟩ := hv.fill hc hl w
    have hlb : b < h.contents.length := by rw [hv.len, ← hv.nb]; exact h2
    have hv' : ({ h with contents := addAt h.contents b w } : Histogram α).Valid as :=
      hv.withContents (by simp)
    refine ⟨_, b, _, h3, h1, h2, hv.get h2, ?_, rfl, rfl, ?_⟩
    · rw [hv'.get h2, addAt_getD _ _ _ _ hlb]; simp
    · intro b' hne hb'
      rw [hv'.get hb', hv.get hb', addAt_getD _ _ _ _ hlb]; simp [Ne.symm hne]

/-- C07 (sequences): after any sequence of fills of well-dimensioned points, each bin has gained exactly
the weights of the points found in it, and the integral has gained the sum of all weights (under- and
overflow included, since every point is found in some bin). -/
theorem C07_fill_sequence (as : List (BinAxis α)) (h : Histogram α) (hv : h.Valid as)
    (hc : ∀ a ∈ as, a.Contiguous) (evs : List (List α × α))
    (hd : ∀ e ∈ evs, e.1.length = as.length) :
    ∃ h', fillAll h evs = .ok h' ∧ h'.axes = h.axes ∧ h'.nBins = h.nBins ∧
      (∀ b, b < h.nBins → ∃ x, h.getBinContent b = .ok x ∧ h'.getBinContent b =
        .ok (x + ((evs.filter (fun e => h.findBin e.1 = .ok b)).map (·.2)).sum)) ∧
      h'.integral = h.integral + (evs.map (·.2)).sum := by
  let bin : List α × α → Nat := fun e => rowMajor (shape as) (List.zipWith BinAxis.findBin as e.1)
  have hbin : ∀ e ∈ evs, h.axes.findBin e.1 = .ok (bin e) := fun e he =>
    hv.axes.findBin hv.ne (hd e he)
  have hlt : ∀ e ∈ evs, bin e < h.nBins := by
    intro e he; rw [hv.nb]; exact rowMajor_lt (findBins_inRange hc (hd e he))
  have key := hv.accumLoop evs bin (fun e => e.2) (fun h e => h.fill e.1 e.2) (by
    intro m e hm hax he
    obtain ⟨b, h1, h2, h3⟩ := hm.fill hc (hd e he) e.2
    rw [hax, hbin e he] at h1
    cases h1
    rw [h3, hm.addBin h2]) hlt
  have hops : ∀ p ∈ evs.map (fun e => (bin e, e.2)), p.1 < h.contents.length := by
    intro p hp
    simp only [List.mem_map] at hp
    obtain ⟨e, he, rfl⟩ := hp
    rw [hv.len, ← hv.nb]; exact hlt e he
  have hv' : ({ h with contents := accum h.contents (evs.map (fun e => (bin e, e.2))) } :
      Histogram α).Valid as := hv.withContents (by simp)
  refine ⟨_, key, rfl, rfl, ?_, ?_⟩
  · intro b hb
    refine ⟨_, hv.get hb, ?_⟩
    rw [hv'.get hb, accum_getD _ _ hops]
    congr 2
    rw [List.filter_map, List.map_map]
    congr 1
    simp only [Function.comp_def]
    congr 1
    apply List.filter_congr
    intro e he
    unfold Histogram.findBin
    rw [hbin e he]; simp
  · rw [hv'.integral, hv.integral, accum_sum _ _ hops, List.map_map]
    rfl

/-- C07 (map version): the observables are picked by axis name; a missing one is `NotFoundError`. -/
theorem C07_fill_map (as : List (BinAxis α)) (h : Histogram α) (hv : h.Valid as)
    (m : List (String × α)) (w : α) :
    ((∃ a ∈ as, m.lookup a.name = none) → h.fillMap m w = .throw .notFound) ∧
    (∀ vs, as.map (fun a => m.lookup a.name) = vs.map some → ∀ h', h.fill vs w = .ok h' →
      h.fillMap m w = .ok h') := by
  constructor
  · rintro ⟨a, ha, hlook⟩
    unfold fillMap
    have : getValues m h.axes.axisNames = .throw .outOfRange := by
      rw [hv.axes.names]
      unfold getValues
      have key : ∀ l : List (BinAxis α), (∃ a ∈ l, m.lookup a.name = none) →
          Res.traverse (fun k => match m.lookup k with
            | some v => Res.ok v
            | none => Res.throw Exc.outOfRange) (l.map (·.name)) = .throw .outOfRange := by
        intro l
        induction l with
        | nil => rintro ⟨a, ha, _⟩; simp at ha
        | cons b l ih =>
          rintro ⟨a, ha, hl⟩
          simp only [List.map_cons, Res.traverse]
          cases hb : m.lookup b.name with
          | none => rfl
          | some v =>
            rcases List.mem_cons.1 ha with rfl | ha
            · rw [hb] at hl; cases hl
            · simp only [ih ⟨a, ha, hl⟩]
      exact key as ⟨a, ha, hlook⟩
    rw [this]; rfl
  · intro vs hvs h' hfill
    unfold fillMap
    rw [Res.mapExc_eq_ok]
    have : getValues m h.axes.axisNames = .ok vs := by
      rw [hv.axes.names]
      unfold getValues
      have key : ∀ (l : List (BinAxis α)) (vs : List α), l.map (fun a => m.lookup a.name) = vs.map some →
          Res.traverse (fun k => match m.lookup k with
            | some v => Res.ok v
            | none => Res.throw Exc.outOfRange) (l.map (·.name)) = .ok vs := by
        intro l
        induction l with
        | nil => intro vs h; cases vs <;> simp_all
        | cons b l ih =>
          intro vs h
          cases vs with
          | nil => simp at h
          | cons v vs =>
            simp only [List.map_cons, List.cons.injEq] at h
            simp only [List.map_cons, Res.traverse, h.1, ih vs h.2]
      exact key as vs hvs
    rw [this]; exact hfill

/-! ### C08 -/

/-- C08 (scale). -/
theorem C08_scale (as : List (BinAxis α)) (h : Histogram α) (hv : h.Valid as) (s : α) :
    (h.scale s).integral = h.integral * s ∧
    ∀ b x, h.getBinContent b = .ok x → (h.scale s).getBinContent b = .ok (x * s) := by
  have hv' : (h.scale s).Valid as := hv.withContents (by simp)
  constructor
  · rw [hv'.integral, hv.integral]
    simp only [scale]
    induction h.contents with
    | nil => simp
    | cons a l ih => simp [ih, add_mul]
  · intro b x hx
    rw [getBinContent_ok_iff] at hx ⊢
    simp [scale, hx]

theorem map_div_sum (l : List α) (c : α) : (l.map (· / c)).sum = l.sum / c := by
  induction l with
  | nil => simp
  | cons a l ih => simp [ih, add_div]

/-- C08 (normalise): with a non-zero integral `I`, every content is divided by `I`, the integral becomes
exactly one, all ratios are kept and a second normalisation changes nothing. -/
theorem C08_normalise (as : List (BinAxis α)) (h : Histogram α) (hv : h.Valid as) (hI : h.integral ≠ 0) :
    h.normalise.integral = 1 ∧
    (∀ b x, h.getBinContent b = .ok x → h.normalise.getBinContent b = .ok (x / h.integral)) ∧
    (∀ b b' x x' y y', h.getBinContent b = .ok x → h.getBinContent b' = .ok x' →
      h.normalise.getBinContent b = .ok y → h.normalise.getBinContent b' = .ok y' →
      y * x' = y' * x) ∧
    h.normalise.normalise = h.normalise := by
  have hv' : h.normalise.Valid as := hv.withContents (by simp)
  have h1 : h.normalise.integral = 1 := by
    rw [hv'.integral]
    simp only [normalise]
    rw [map_div_sum, ← hv.integral]
    exact div_self hI
  have h2 : ∀ b x, h.getBinContent b = .ok x → h.normalise.getBinContent b = .ok (x / h.integral) := by
    intro b x hx
    rw [getBinContent_ok_iff] at hx ⊢
    simp [normalise, hx]
  refine ⟨h1, h2, ?_, ?_⟩
  · intro b b' x x' y y' hx hx' hy hy'
    rw [h2 b x hx] at hy; rw [h2 b' x' hx'] at hy'
    cases hy; cases hy'
    ring
  · rw [show h.normalise.normalise =
      { h.normalise with contents := h.normalise.contents.map (· / h.normalise.integral) } from rfl, h1]
    simp

/-! ### C11 -/

/-- C11 (errors): axes with different edges (or a different number of axes) are refused. -/
theorem C11_arith_rejects (as bs : List (BinAxis α)) (h o : Histogram α) (hv : h.Valid as)
    (ho : o.Valid bs) (hs : ¬ SameBinning as bs) (w : α) :
    h.add o w = .throw .value ∧ h.multiply o = .throw .value ∧ h.divide o = .throw .value :=
  ⟨combine_bad hv ho hs _, combine_bad hv ho hs _, combine_bad hv ho hs _⟩

theorem zipWith_content {h o : Histogram α} (f : α → α → α) {b : Nat} {x y : α} (hx : h.getBinContent b = .ok x)
    (hy : o.getBinContent b = .ok y) :
    ({ h with contents := List.zipWith f h.contents o.contents } : Histogram α).getBinContent b
      = .ok (f x y) := by
  rw [getBinContent_ok_iff] at hx hy ⊢
  exact ⟨hx.1, by rw [List.getElem?_zipWith, hx.2, hy.2]⟩

theorem zipWith_add_sum (l m : List α) (w : α) (hl : l.length = m.length) :
    (List.zipWith (fun x y => x + y * w) l m).sum = l.sum + w * m.sum := by
  induction l generalizing m with
  | nil => cases m <;> simp_all
  | cons a l ih =>
    cases m with
    | nil => simp at hl
    | cons b m => simp [ih m (by simpa using hl)]; ring

/-- C11: between histograms with the same edges, the three operations act bin by bin, `Add` is linear on
integrals, and adding with weight `w` then `-w` restores the histogram. -/
theorem C11_arith (as bs : List (BinAxis α)) (h o : Histogram α) (hv : h.Valid as) (ho : o.Valid bs)
    (ha : ∀ a ∈ as, a.Contiguous) (hb : ∀ b ∈ bs, b.Contiguous) (hs : SameBinning as bs) (w : α) :
    (∃ r, h.add o w = .ok r ∧ r.axes = h.axes ∧ r.nBins = h.nBins ∧
      (∀ b x y, h.getBinContent b = .ok x → o.getBinContent b = .ok y →
        r.getBinContent b = .ok (x + w * y)) ∧
      r.integral = h.integral + w * o.integral ∧ r.add o (-w) = .ok h) ∧
    (∃ r, h.multiply o = .ok r ∧ r.axes = h.axes ∧ r.nBins = h.nBins ∧
      ∀ b x y, h.getBinContent b = .ok x → o.getBinContent b = .ok y →
        r.getBinContent b = .ok (x * y)) ∧
    (∃ r, h.divide o = .ok r ∧ r.axes = h.axes ∧ r.nBins = h.nBins ∧
      ∀ b x y, h.getBinContent b = .ok x → o.getBinContent b = .ok y → y ≠ 0 →
        r.getBinContent b = .ok (x / y)) := by
  have hsh := Histogram.SameBinning.shape ha hb hs
  have hll : h.contents.length = o.contents.length := by rw [hv.len, ho.len, hsh]
  refine ⟨?_, ?_, ?_⟩
  · have hv' : ({ h with contents := List.zipWith (fun x y => x + y * w) h.contents o.contents } :
        Histogram α).Valid as := hv.withContents (by simp [hll])
    refine ⟨_, combine_ok hv ho hs hsh _, rfl, rfl, ?_, ?_, ?_⟩
    · intro b x y hx hy
      rw [zipWith_content _ hx hy, mul_comm w]
    · rw [hv'.integral, hv.integral, ho.integral]
      exact zipWith_add_sum _ _ _ hll
    · unfold Histogram.add
      rw [combine_ok hv' ho hs hsh]
      have : List.zipWith (fun x y => x + y * -w) (List.zipWith (fun x y => x + y * w) h.contents o.contents)
          o.contents = h.contents := by
        apply List.ext_getElem
        · simp [hll]
        · intro i h1 h2
          simp
      simp only [this]
  · refine ⟨_, combine_ok hv ho hs hsh _, rfl, rfl, fun b x y hx hy => zipWith_content _ hx hy⟩
  · refine ⟨_, combine_ok hv ho hs hsh _, rfl, rfl, fun b x y hx hy _ => zipWith_content _ hx hy⟩

/-! ### Non-vacuity -/

/-- A 2 x 3 x 2 histogram with a few fills is reachable, hence valid. -/
theorem exHist_reachable : ∃ c h, (AxisCollection.empty : AxisCollection ℚ).addAxes exAxes = .ok c ∧
    fillAll (ofAxes c) [([1/2, 5/2, 3/2], 2), ([-7, 1/2, 1/2], 3), ([9, 9, 9], 5)] = .ok h ∧
    Reachable exAxes h ∧ h.Valid exAxes ∧ h.integral = 10 := by
  obtain ⟨c, hc⟩ := (C04_build exAxes).1 (by decide +kernel)
  have hv : (ofAxes c).Valid exAxes := C06_reachable_valid _ (by decide) _ (Reachable.new c hc)
  obtain ⟨h, h1, _, _, _, h2⟩ := C07_fill_sequence exAxes (ofAxes c) hv exAxes_contiguous
    [([1/2, 5/2, 3/2], 2), ([-7, 1/2, 1/2], 3), ([9, 9, 9], 5)] (by decide)
  have hr : Reachable exAxes h := by
    refine Res.forFold_inv (Reachable exAxes) (Reachable.new c hc) h1 ?_
    intro s a s' hs _ hf
    exact Reachable.fill _ _ _ _ hs hf
  refine ⟨c, h, hc, h1, hr, C06_reachable_valid _ (by decide) _ hr, ?_⟩
  rw [h2, hv.integral, ofAxes_contents]
  simp; norm_num

/-- C11 (padding): every bin that holds nought afterwards holds the padding, every other bin is unchanged; axes, bin count and dimensions are
kept, so that with a positive padding and no negative content every bin is positive afterwards. -/
theorem C11_padding (as : List (BinAxis α)) (h : Histogram α) (hv : h.Valid as) (p : α) :
    (h.addPadding p).Valid as ∧ (h.addPadding p).axes = h.axes ∧
    (∀ b x, b < h.nBins → h.getBinContent b = .ok x → (h.addPadding p).getBinContent b = .ok (if x = 0 then p else x)) ∧
    (0 < p → (∀ b x, b < h.nBins → h.getBinContent b = .ok x → 0 ≤ x) → ∀ b x, b < h.nBins → (h.addPadding p).getBinContent b = .ok x → 0 < x) := by
  have hv' : (h.addPadding p).Valid as := hv.withContents (by simp)
  have hnb : (h.addPadding p).nBins = h.nBins := rfl
  have key : ∀ b x, b < h.nBins → h.getBinContent b = .ok x → (h.addPadding p).getBinContent b = .ok (if x = 0 then p else x) := by
    intro b x hb hx
    have hl : b < h.contents.length := by rw [hv.len, ← hv.nb]; exact hb
    rw [hv.get hb] at hx
    rw [hv'.get (by rw [hnb]; exact hb), ← Res.ok.inj hx]
    congr 1
    show (h.contents.map (fun x => if x = 0 then p else x)).getD b 0 = _
    rw [List.getD_eq_getElem?_getD, List.getD_eq_getElem?_getD, List.getElem?_map, List.getElem?_eq_getElem hl]
    rfl
  refine ⟨hv', rfl, key, ?_⟩
  intro hp hnn b x hb hx
  have h1 := key b _ hb (hv.get hb)
  rw [hx] at h1
  rw [Res.ok.inj h1]
  have h2 := hnn b _ hb (hv.get hb)
  split
  · exact hp
  · rename_i hne
    exact lt_of_le_of_ne h2 (Ne.symm hne)

/-- The hypotheses of C08 and C11 are met: non-zero integral, and equal binning with itself. -/
example : ∃ h : Histogram ℚ, h.Valid exAxes ∧ h.integral ≠ 0 ∧ SameBinning exAxes exAxes := by
  obtain ⟨c, h, _, _, _, h1, h2⟩ := exHist_reachable
  refine ⟨h, h1, by rw [h2]; norm_num, ?_⟩
  exact List.forall₂_same.2 (fun _ _ => ⟨rfl, rfl⟩)

/-- And of C11's rejection: dropping an axis changes the binning. -/
example : ¬ SameBinning exAxes exAxes.tail := by
  intro h; have := List.Forall₂.length_eq h; simp [exAxes] at this
end Oxsx
