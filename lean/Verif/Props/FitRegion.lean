import Verif.Spec.FitRegion
import Verif.Props.Shrinker
import Verif.Props.Likelihood
import Verif.Props.Histogram
/-
The fit region in the likelihood: C30 (what the distribution manager makes of its distributions) and C90 (the value).
-/
set_option linter.unusedSectionVars false
set_option linter.unusedSimpArgs false
set_option linter.unusedVariables false
namespace Oxsx
open AxisCollection
variable {σ α : Type} [Field α] [LinearOrder α] [IsStrictOrderedRing α]

theorem regionShape_eq {bufs : SMap (Nat × Nat)} {as as' : List (BinAxis α)} (h : List.Forall₂ (FitAxis bufs) as as') :
    shape as' = regionShape bufs as := by
  induction h with
  | nil => rfl
  | @cons a a' as as' h _ ih =>
    have := h.count
    simp only [shape, regionShape, List.map_cons, List.cons.injEq] at ih ⊢
    exact ⟨by omega, ih⟩

theorem regionShape_pos {bufs : SMap (Nat × Nat)} {as as' : List (BinAxis α)} (h : List.Forall₂ (FitAxis bufs) as as') :
    ∀ n ∈ regionShape bufs as, 0 < n := by
  rw [← regionShape_eq h]
  intro n hn
  obtain ⟨a, ha, rfl⟩ := List.mem_map.1 hn
  obtain ⟨i, hi, rfl⟩ := List.mem_iff_getElem.1 ha
  have := (List.forall₂_iff_get.1 h).2 i (by rw [h.length_eq]; exact hi) hi
  exact this.proper.pos

/-- Both cases of C30 at once: the shrinker of the data `d` applied to any distribution binned alike. -/
theorem shrink_region (calls : List (String × Nat × Nat)) (ov : Bool) (hcalls : calls ≠ [])
    (d : BinnedED α) (as : List (BinAxis α)) (hv : d.hist.Valid as)
    (hc : ∀ a ∈ as, a.Contiguous) (hb : ∀ a ∈ as, LeavesABin (buffersOf calls) a)
    (hsize : (shape as).prod ≤ 2 ^ 31) :
    ∃ s' as', (configureShrinker calls ov : Shrinker α).setBinMap d = .ok s' ∧ s'.buffers = buffersOf calls ∧
      List.Forall₂ (FitAxis (buffersOf calls)) as as' ∧
      ∀ (d' : BinnedED α) (bs : List (BinAxis α)), d'.hist.Valid bs → shape bs = shape as → ∃ out,
        s'.shrinkDist d' = .ok out ∧ out.obs = d'.obs ∧ out.name = d'.name ++ "_shrunk" ∧ out.hist.Valid as' ∧
        out.hist.contents = (List.range (regionShape (buffersOf calls) as).prod).map (fun b =>
          regionContent (buffersOf calls) ov as d'.hist (digits (regionShape (buffersOf calls) as) b)) := by
  obtain ⟨c1, c2, c3, c4⟩ := configure_foldl calls (Shrinker.new : Shrinker α)
  have hbufs : (configureShrinker calls ov : Shrinker α).buffers = buffersOf calls := c4
  have hne := buffersOf_ne calls hcalls
  obtain ⟨s', as', e1, e2, e3, e4, e5, e6⟩ := setBinMap_ok (s := configureShrinker calls ov) hv hc
    (by rw [hbufs]; exact hb) hsize c1 c2 (by rw [hbufs]; exact hne)
  rw [hbufs] at e2 e4 e5 e6
  refine ⟨s', as', e1, e2, e4, ?_⟩
  intro d' bs hv' hsh
  have hsr := regionShape_eq e4
  have key : ∃ out as'', s'.shrinkDist d' = .ok out ∧ out.obs = d'.obs ∧ out.name = d'.name ++ "_shrunk" ∧ out.hist.Valid as'' ∧
      List.Forall₂ (FitAxis (buffersOf calls)) as as'' ∧
      ∀ is, InRange is (shape as'') → out.hist.content (rowMajor (shape as'') is) =
        regionContent (buffersOf calls) ov as d'.hist is := by
    cases ov with
    | false =>
      obtain ⟨t, as'', out, f1, f2, f3, f4, f5, f6, f7⟩ := C30_overflow_off calls hcalls d d' as bs hv hc hb hsize hv' hsh
      rw [e1] at f1
      cases f1
      exact ⟨out, as'', f2, f4, f3, f6, f5, f7⟩
    | true =>
      obtain ⟨t, as'', out, f1, f2, f3, f4, f5, f6, f7, _⟩ := C30_overflow_on calls hcalls d d' as bs hv hc hb hsize hv' hsh
      rw [e1] at f1
      cases f1
      refine ⟨out, as'', f2, f4, f3, f6, f5, ?_⟩
      intro is his
      rw [f7 is his]
      unfold regionContent
      rw [if_pos rfl]
  obtain ⟨out0, f1, f2, f3, f4, f5⟩ := shrinkDist_ok (s := s') (d := d') (ov := ov) hc hsize
    (by rw [e2]; exact hne) e3 hv.ne e4 e5 e6 hv' hsh
  obtain ⟨out, as'', k1, k2, k3, k4, k5, k6⟩ := key
  rw [f1] at k1
  cases k1
  have hs2 := regionShape_eq k5
  refine ⟨_, f1, k2, k3, f4, ?_⟩
  apply List.ext_getElem?
  intro b
  by_cases hbl : b < (regionShape (buffersOf calls) as).prod
  · have hin : InRange (digits (shape as'') b) (shape as'') := by
      rw [hs2]; exact digits_inRange (regionShape_pos e4) b
    have := k6 _ hin
    rw [rowMajor_digits (by rw [hs2]; exact hbl), contentOf k4 (by rw [hs2]; exact hbl)] at this
    rw [List.getElem?_map, List.getElem?_range hbl, Option.map_some]
    have hl : b < out0.hist.contents.length := by rw [k4.len, hs2]; exact hbl
    rw [List.getElem?_eq_getElem hl]
    rw [List.getD_eq_getElem?_getD, List.getElem?_eq_getElem hl] at this
    rw [← hs2, ← this]; rfl
  · rw [List.getElem?_eq_none (by rw [k4.len, hs2]; omega), List.getElem?_eq_none (by simp; omega)]

/-- What shrinking makes of one working distribution, given its shrunk version. -/
def PdfManager.shrunkAs (st : NormStatus) (w' : BinnedED α) : BinnedED α :=
  if st = .direct then { w' with hist := w'.hist.normalise } else w'

/-- What shrinking makes of its normalisation, given the distribution before and after. -/
def PdfManager.shrunkNorm (st : NormStatus) (n : α) (w w' : BinnedED α) : α :=
  match st with
  | .direct => n
  | .off => w'.hist.integral
  | .indirect => if w.hist.integral = 0 ∧ w'.hist.integral = 0 then 0 else n * (w'.hist.integral / w.hist.integral)

theorem PdfManager.applyShrink_ok {log : List (BinnedED α × NormStatus)} {m : PdfManager α} {s : Shrinker α}
    (hi : PdfManager.Inv log m) (hbuf : s.buffers ≠ [])
    (hsum : 0 < (s.buffers.map (fun (p : String × (Nat × Nat)) => p.2.1 + p.2.2)).sum) (hlog : log ≠ [])
    (h0 : ∀ w o, m.work[0]? = some w → m.orig[0]? = some o → w.hist.nBins = o.hist.nBins)
    (F : BinnedED α → BinnedED α) (hF : ∀ w ∈ m.work, s.shrinkDist w = .ok (F w)) :
    ∃ m', m.applyShrink s = .ok m' ∧ m'.work.length = log.length ∧ m'.norms.length = log.length ∧
      ∀ (j : Nat) p w n, log[j]? = some p → m.work[j]? = some w → m.norms[j]? = some n →
        m'.work[j]? = some (PdfManager.shrunkAs p.2 (F w)) ∧ m'.norms[j]? = some (PdfManager.shrunkNorm p.2 n w (F w)) := by
  have hpos : 0 < log.length := List.length_pos_iff.2 hlog
  have hw0 : 0 < m.work.length := by rw [hi.work]; exact hpos
  have ho0 : 0 < m.orig.length := by rw [hi.orig]; simpa using hpos
  have hn0 := h0 m.work[0] m.orig[0] (List.getElem?_eq_getElem hw0) (List.getElem?_eq_getElem ho0)
  obtain ⟨m', e1, e2, e3, e4, e5, e6⟩ := Res.forFold_range (f := PdfManager.shrinkStep s) (s := m) (n := m.work.length)
    (fun k (t : PdfManager α) => t.status = m.status ∧ t.work.length = m.work.length ∧ t.norms.length = m.norms.length ∧
      (∀ j, k ≤ j → t.work[j]? = m.work[j]? ∧ t.norms[j]? = m.norms[j]?) ∧
      (∀ (j : Nat) p w n, j < k → log[j]? = some p → m.work[j]? = some w → m.norms[j]? = some n →
        t.work[j]? = some (PdfManager.shrunkAs p.2 (F w)) ∧ t.norms[j]? = some (PdfManager.shrunkNorm p.2 n w (F w))))
    ⟨rfl, rfl, rfl, fun _ _ => ⟨rfl, rfl⟩, fun _ _ _ _ h => by omega⟩ (by
      rintro k t hk ⟨t1, t2, t3, t4, t5⟩
      obtain ⟨u1, u2⟩ := t4 k le_rfl
      have hkl : k < log.length := by rw [← hi.work]; exact hk
      have hkn : k < m.norms.length := by rw [hi.norms]; exact hkl
      have a1 : at_ t.work k = .ok m.work[k] := at_ok.2 (u1.trans (List.getElem?_eq_getElem hk))
      have a2 : s.shrinkDist m.work[k] = .ok (F m.work[k]) := hF _ (List.getElem_mem hk)
      have a3 : at_ t.status k = .ok log[k].2 := at_ok.2 (by rw [t1, hi.status, List.getElem?_map, List.getElem?_eq_getElem hkl]; rfl)
      have a4 : idx t.norms k = .ok m.norms[k] := idx_ok.2 (u2.trans (List.getElem?_eq_getElem hkn))
      have a5 : ∀ x, setIdx t.work k x = .ok (t.work.set k x) := fun x => setIdx_of_lt (by omega)
      have a6 : ∀ x, setIdx t.norms k x = .ok (t.norms.set k x) := fun x => setIdx_of_lt (by omega)
      have hstep : PdfManager.shrinkStep s t k = .ok { t with
          work := t.work.set k (PdfManager.shrunkAs log[k].2 (F m.work[k]))
          norms := t.norms.set k (PdfManager.shrunkNorm log[k].2 m.norms[k] m.work[k] (F m.work[k])) } := by
        unfold PdfManager.shrinkStep
        rw [a1]
        simp only [Res.ok_bind]
        rw [a2]
        simp only [Res.ok_bind]
        rw [a3]
        simp only [Res.ok_bind]
        cases hst : log[k].2 with
        | direct =>
          simp only
          rw [a5]
          simp only [Res.ok_bind, PdfManager.shrunkAs, PdfManager.shrunkNorm, if_true, Res.pure_eq]
          have : t.norms.set k m.norms[k] = t.norms := by
            apply List.ext_getElem?
            intro j
            rw [List.getElem?_set]
            by_cases hj : k = j
            · subst hj
              rw [if_pos rfl, if_pos (by omega), u2, List.getElem?_eq_getElem hkn]
            · rw [if_neg hj]
          rw [this]
        | off =>
          simp only
          rw [a5]
          simp only [Res.ok_bind]
          rw [a6]
          simp only [Res.ok_bind, PdfManager.shrunkAs, PdfManager.shrunkNorm, Res.pure_eq]
          simp
        | indirect =>
          simp only
          rw [a5]
          simp only [Res.ok_bind]
          rw [a4]
          simp only [Res.ok_bind]
          rw [a6]
          simp only [Res.ok_bind, PdfManager.shrunkAs, PdfManager.shrunkNorm, Res.pure_eq]
          simp
      refine ⟨_, hstep, t1, by simp [t2], by simp [t3], ?_, ?_⟩
      · intro j hj
        simp only [List.getElem?_set]
        rw [if_neg (by omega), if_neg (by omega)]
        exact t4 j (by omega)
      · intro j p w n hj hp hw hn
        simp only [List.getElem?_set]
        by_cases hjk : k = j
        · subst hjk
          rw [if_pos rfl, if_pos (by omega), if_pos rfl, if_pos (by omega)]
          rw [List.getElem?_eq_getElem hkl] at hp
          rw [List.getElem?_eq_getElem hk] at hw
          rw [List.getElem?_eq_getElem hkn] at hn
          cases hp; cases hw; cases hn
          exact ⟨rfl, rfl⟩
        · rw [if_neg hjk, if_neg hjk]
          exact t5 j p w n (by omega) hp hw hn)
  refine ⟨m', ?_, by rw [e3, hi.work], by rw [e4, hi.norms], ?_⟩
  · unfold PdfManager.applyShrink
    rw [if_neg hbuf]
    simp only
    rw [at_of_lt hw0, at_of_lt ho0]
    simp only [Res.ok_bind]
    rw [if_neg (by omega), if_neg (by rw [hn0]; simp)]
    exact e1
  · intro j p w n hp hw hn
    exact e6 j p w n (List.getElem?_eq_some_iff.1 hw).1 hp hw hn

theorem integral_of_region {h : Histogram α} {as' : List (BinAxis α)} {bufs : SMap (Nat × Nat)} {ov : Bool} {as : List (BinAxis α)}
    {g : Histogram α} (hv : h.Valid as') (hc : h.contents = (List.range (regionShape bufs as).prod).map (fun b =>
      regionContent bufs ov as g (digits (regionShape bufs as) b))) : h.integral = regionIntegral bufs ov as g := by
  rw [hv.integral, hc]; rfl

/-- C30, in the distribution manager: for any manager whose working distributions are binned as `as`, and buffers leaving a bin on
every axis of the data `d` (binned as `as`) and not all zero, shrinking gives working distributions over the fit region only; a
directly fitted one is normalised to one within the region and keeps its normalisation; one whose normalisation is not fitted keeps
its contents and its normalisation becomes its integral over the region; an indirectly fitted one keeps its contents and its
normalisation is scaled by the fraction of its integral inside the region. -/
theorem C30_manager {log : List (BinnedED α × NormStatus)} {m : PdfManager α} (hb : PdfManager.Built log m) (hlog : log ≠ [])
    (calls : List (String × Nat × Nat)) (ov : Bool) (hcalls : calls ≠ [])
    (hsum : 0 < ((buffersOf calls).map (fun p => p.2.1 + p.2.2)).sum)
    (d : BinnedED α) (as : List (BinAxis α)) (hv : d.hist.Valid as)
    (hc : ∀ a ∈ as, a.Contiguous) (hl : ∀ a ∈ as, LeavesABin (buffersOf calls) a) (hsize : (shape as).prod ≤ 2 ^ 31)
    (hw : ∀ w ∈ m.work, ∃ bs, w.hist.Valid bs ∧ shape bs = shape as)
    (ho : ∀ p ∈ log, p.1.hist.nBins = (shape as).prod) :
    ∃ s' m', (configureShrinker calls ov : Shrinker α).setBinMap d = .ok s' ∧ m.applyShrink s' = .ok m' ∧
      ∀ (j : Nat) p w n, log[j]? = some p → m.work[j]? = some w → m.getNormalisations[j]? = some n → ∃ w',
        m'.work[j]? = some w' ∧ w'.hist.nBins = (regionShape (buffersOf calls) as).prod ∧
        (∀ b, b < (regionShape (buffersOf calls) as).prod → w'.hist.getBinContent b =
          .ok (regionContent (buffersOf calls) ov as w.hist (digits (regionShape (buffersOf calls) as) b) /
            (if p.2 = .direct then regionIntegral (buffersOf calls) ov as w.hist else 1))) ∧
        (p.2 = .direct → m'.getNormalisations[j]? = some n) ∧
        (p.2 = .off → m'.getNormalisations[j]? = some (regionIntegral (buffersOf calls) ov as w.hist)) ∧
        (p.2 = .indirect → w.hist.integral ≠ 0 → m'.getNormalisations[j]? =
          some (n * (regionIntegral (buffersOf calls) ov as w.hist / w.hist.integral))) := by
  obtain ⟨s', as', e1, e2, e3, e4⟩ := shrink_region calls ov hcalls d as hv hc hl hsize
  have hi := PdfManager.inv_of_built hb
  have hF : ∃ F : BinnedED α → BinnedED α, ∀ w ∈ m.work, s'.shrinkDist w = .ok (F w) := by
    classical
    refine ⟨fun w => if h : ∃ w', s'.shrinkDist w = .ok w' then h.choose else w, ?_⟩
    intro w hwm
    obtain ⟨bs, b1, b2⟩ := hw w hwm
    obtain ⟨out, o1, _⟩ := e4 w bs b1 b2
    have hex : ∃ w', s'.shrinkDist w = .ok w' := ⟨out, o1⟩
    show _ = Res.ok (if h : ∃ w', s'.shrinkDist w = .ok w' then h.choose else w)
    rw [dif_pos hex]
    exact hex.choose_spec
  obtain ⟨F, hF⟩ := hF
  obtain ⟨m', f1, f2, f3, f4⟩ := PdfManager.applyShrink_ok hi (by rw [e2]; exact buffersOf_ne calls hcalls) (by rw [e2]; exact hsum) hlog
    (by
      intro w o h1 h2
      obtain ⟨bs, b1, b2⟩ := hw w (List.mem_of_getElem? h1)
      rw [hi.orig] at h2
      obtain ⟨p, hp, rfl⟩ := List.mem_map.1 (List.mem_of_getElem? h2)
      rw [b1.nb, b2, ho p hp]) F hF
  refine ⟨s', m', e1, f1, ?_⟩
  intro j p w n hp hwj hn
  obtain ⟨g1, g2⟩ := f4 j p w n hp hwj hn
  have hwm := List.mem_of_getElem? hwj
  obtain ⟨bs, b1, b2⟩ := hw w hwm
  obtain ⟨out, o1, o2, o3, o4, o5⟩ := e4 w bs b1 b2
  rw [hF w hwm] at o1
  cases o1
  have hint := integral_of_region o4 o5
  have hsh := regionShape_eq e3
  have hnb : (F w).hist.nBins = (regionShape (buffersOf calls) as).prod := by rw [o4.nb, hsh]
  refine ⟨_, g1, ?_, ?_, ?_, ?_, ?_⟩
  · unfold PdfManager.shrunkAs
    split
    · exact hnb
    · exact hnb
  · intro b hbl
    have hcb : (F w).hist.contents[b]? =
        some (regionContent (buffersOf calls) ov as w.hist (digits (regionShape (buffersOf calls) as) b)) := by
      rw [o5, List.getElem?_map, List.getElem?_range hbl]; rfl
    unfold PdfManager.shrunkAs Histogram.getBinContent
    by_cases hst : p.2 = .direct
    · rw [if_pos hst, if_pos hst]
      show (if b > (F w).hist.nBins then Res.throw Exc.notFound
        else idx ((F w).hist.contents.map (· / (F w).hist.integral)) b) = _
      rw [if_neg (by rw [hnb]; omega)]
      apply idx_ok.2
      rw [List.getElem?_map, hcb, hint]; rfl
    · rw [if_neg hst, if_neg hst, if_neg (by rw [hnb]; omega), div_one]
      exact idx_ok.2 hcb
  · intro hst
    show m'.norms[j]? = _
    rw [g2, hst]; rfl
  · intro hst
    show m'.norms[j]? = _
    rw [g2, hst]
    simp only [PdfManager.shrunkNorm, hint]
  · intro hst hne
    show m'.norms[j]? = _
    rw [g2, hst]
    simp only [PdfManager.shrunkNorm, hint]
    rw [if_neg (fun h => hne h.1)]

/-! ### C90: the likelihood -/

/-- The working distributions are the shrunk originals. -/
def RegionWork (s : Shrinker α) (log : List (BinnedED α × NormStatus)) (work : List (BinnedED α)) : Prop :=
  work.length = log.length ∧ ∀ (j : Nat) p, log[j]? = some p → ∃ w', s.shrinkDist p.1 = .ok w' ∧
    work[j]? = some (PdfManager.shrunkAs p.2 w')

/-- A likelihood without systematics and Barlow-Beeston, with the buffers of `calls` and the data `d`: either not yet evaluated, or
already shrunk to the fit region. -/
structure NLLH.InRegion (log : List (BinnedED α × NormStatus)) (cons : ConstraintManager α) (d : BinnedED α)
    (calls : List (String × Nat × Nat)) (ov : Bool) (fresh : Bool) (L : NLLH σ α) : Prop where
  built : PdfManager.Built log L.pdfs
  bb : L.useBB = false
  sys : L.sys.countSystematics = 0
  calced : L.calculated = true
  cons : L.constraints = cons
  comp : L.components = [.pdfs]
  shrunk : L.alreadyShrunk = !fresh
  new : fresh = true → L.shrinker = configureShrinker calls ov ∧ L.dataDist = d ∧ L.pdfs.work = log.map (·.1)
  old : fresh = false → (configureShrinker calls ov : Shrinker α).setBinMap d = .ok L.shrinker ∧
    L.shrinker.shrinkDist d = .ok L.dataDist ∧ RegionWork L.shrinker log L.pdfs.work

theorem NLLH.InRegion.getParameters {log : List (BinnedED α × NormStatus)} {cons : ConstraintManager α} {d : BinnedED α}
    {calls : List (String × Nat × Nat)} {ov fresh : Bool}
    {L : NLLH σ α} (h : L.InRegion log cons d calls ov fresh) (C : FitSys σ α) (hd : PdfLog.DistinctNames log) {ps : ParamDict α} (hs : SMap.Sorted ps)
    (hval : ∀ n ∈ PdfLog.fitted log, ∃ v, SMap.find ps n = some v ∧ L.pdfs.getParameter n = .ok v) :
    L.getParameters C = .ok (ps.filter (fun p => p.1 ∈ PdfLog.fitted log)) := by
  unfold NLLH.getParameters
  rw [h.comp]
  simp only [Res.forFold, componentParameters]
  rw [PdfManager.getParameters_built h.built hd hs hval]
  simp only [Res.ok_bind]
  show Res.ok (SMap.insertAll [] _) = _
  congr 1
  exact SMap.ext (SMap.sorted_insertAll SMap.sorted_nil _) (hs.filter _) (fun k => by rw [SMap.find_insertAll]; rfl)

theorem NLLH.InRegion.setParameters {log : List (BinnedED α × NormStatus)} {cons : ConstraintManager α} {d : BinnedED α}
    {calls : List (String × Nat × Nat)} {ov fresh : Bool}
    {L : NLLH σ α} (h : L.InRegion log cons d calls ov fresh) (C : FitSys σ α) (hd : PdfLog.DistinctNames log) {ps : ParamDict α} (hne : ps ≠ [])
    (hall : ∀ n ∈ PdfLog.fitted log, (SMap.find ps n).isSome) :
    (L.setParameters C ps).2 = .ok () ∧ (L.setParameters C ps).1.InRegion log cons d calls ov fresh ∧
      ∀ n ∈ PdfLog.fitted log, ∃ v, SMap.find ps n = some v ∧ (L.setParameters C ps).1.pdfs.getParameter n = .ok v := by
  obtain ⟨_, s1, s2⟩ := C28_set_get_partial h.built hd ps hall
  have hset : L.setParameters C ps = ({ L with pdfs := (L.pdfs.setParameters ps).1 }, .ok ()) := by
    unfold NLLH.setParameters
    rw [if_neg (by intro h; exact hne (List.length_eq_zero_iff.1 h)),
      show setLoop C ps L L.components = setLoop C ps L [.pdfs] from congrArg _ h.comp]
    unfold setLoop setComponent
    simp only
    rw [s1]
    rfl
  rw [hset]
  have hi := PdfManager.inv_of_built h.built
  have hw : (L.pdfs.setParameters ps).1.work = L.pdfs.work := (PdfManager.setParameters_congr (.refl _) hi hi ps).2.2.2.1
  refine ⟨rfl, ⟨h.built.setParameters ps, h.bb, h.sys, h.calced, h.cons, h.comp, h.shrunk, ?_, ?_⟩, ?_⟩
  · intro hf
    obtain ⟨n1, n2, n3⟩ := h.new hf
    exact ⟨n1, n2, hw.trans n3⟩
  · intro hf
    obtain ⟨n1, n2, n3⟩ := h.old hf
    refine ⟨n1, n2, ?_⟩
    show RegionWork _ _ (L.pdfs.setParameters ps).1.work
    rw [hw]; exact n3
  · intro n hn
    obtain ⟨v, hv⟩ := Option.isSome_iff_exists.1 (hall n hn)
    exact ⟨v, hv, s2 n hn v hv⟩

/-- Distributions in the data's observables are left alone. -/
theorem PdfManager.assert_same {m : PdfManager α} {obs : List String} (hw : ∀ w ∈ m.work, w.obs.names = obs) :
    m.assertDimensions obs = .ok m := by
  have gen : ∀ l : List (BinnedED α), (∀ w ∈ l, w.obs.names = obs) →
      Res.traverse (fun (d : BinnedED α) => if d.obs.names ≠ obs then d.marginalise obs else pure d) l = .ok l := by
    intro l
    induction l with
    | nil => intro _; rfl
    | cons w l ih =>
      intro hl
      unfold Res.traverse
      rw [if_neg (by rw [hl w (by simp)]; simp), ih (fun w hw => hl w (by simp [hw]))]
      rfl
  unfold PdfManager.assertDimensions
  rw [gen _ hw]; rfl

section
variable (calls : List (String × Nat × Nat)) (ov : Bool) (hcalls : calls ≠ [])
  (hsum : 0 < ((buffersOf calls).map (fun p => p.2.1 + p.2.2)).sum)
  (d : BinnedED α) (as : List (BinAxis α)) (hv : d.hist.Valid as)
  (hc : ∀ a ∈ as, a.Contiguous) (hl : ∀ a ∈ as, LeavesABin (buffersOf calls) a) (hsize : (shape as).prod ≤ 2 ^ 31)
include hcalls hsum hv hc hl hsize

/-- The object when the loop over bins starts. -/
theorem NLLH.InRegion.prepare {log : List (BinnedED α × NormStatus)} {cons : ConstraintManager α} {fresh : Bool}
    {L : NLLH σ α} (h : L.InRegion log cons d calls ov fresh) (C : FitSys σ α) (hd : PdfLog.DistinctNames log) (hlog : log ≠ [])
    (hw : ∀ p ∈ log, p.1.obs.names = d.obs.names ∧ ∃ bs, p.1.hist.Valid bs ∧ shape bs = shape as)
    (hone : fresh = false → (regionShape (buffersOf calls) as).prod + ((buffersOf calls).map (fun p => p.2.1 + p.2.2)).sum = (shape as).prod) :
    ∃ P, L.prepare C = .ok P ∧ P.InRegion log cons d calls ov false := by
  obtain ⟨s', as', e1, e2, e3, e4⟩ := shrink_region calls ov hcalls d as hv hc hl hsize
  have hbne := buffersOf_ne calls hcalls
  have hi := PdfManager.inv_of_built h.built
  have hre : ∃ m, L.pdfs.reassertNorms false = .ok m := by
    by_cases ha : L.pdfs.allDirect = true
    · unfold PdfManager.reassertNorms
      rw [if_pos ha]; exact ⟨_, rfl⟩
    · obtain ⟨ns, h1, _⟩ := PdfManager.reassert_ok hi false (by simpa using ha) _ rfl
      exact ⟨_, h1⟩
  obtain ⟨m, hm⟩ := hre
  have hbm := h.built.reassertNorms false hm
  have him := PdfManager.inv_of_built hbm
  have hmw : m.work = L.pdfs.work := (PdfManager.reassert_facts hm).2.1
  obtain ⟨dd, d1, d2, d3, d4, d5⟩ := e4 d as hv rfl
  have hshr : shrinkData { L with pdfs := m } = .ok { L with pdfs := m, shrinker := s', dataDist := dd, alreadyShrunk := true } := by
    unfold shrinkData
    cases fresh with
    | true =>
      obtain ⟨n1, n2, n3⟩ := h.new rfl
      have := h.shrunk
      simp only [Bool.not_true] at this
      simp only
      rw [if_neg (by rw [this]; simp), n1, n2, e1]
      simp only [Res.ok_bind]
      rw [d1]
      rfl
    | false =>
      obtain ⟨n1, n2, n3⟩ := h.old rfl
      have hs := h.shrunk
      simp only [Bool.not_false] at hs
      rw [e1] at n1
      have hs' := Res.ok.inj n1
      rw [← hs', d1] at n2
      have hd' := Res.ok.inj n2
      simp only
      rw [if_pos hs, hs', hd', ← hs]
  have hmobs : ∀ w ∈ m.work, w.obs.names = dd.obs.names := by
    intro w hwm
    rw [hmw] at hwm
    rw [d2]
    cases fresh with
    | true =>
      obtain ⟨_, _, n3⟩ := h.new rfl
      rw [n3] at hwm
      obtain ⟨p, hp, rfl⟩ := List.mem_map.1 hwm
      exact (hw p hp).1
    | false =>
      obtain ⟨n1, _, n3⟩ := h.old rfl
      rw [e1] at n1
      have hs' := Res.ok.inj n1
      obtain ⟨j, hj, rfl⟩ := List.mem_iff_getElem.1 hwm
      have hjl : j < log.length := by rw [← n3.1]; exact hj
      obtain ⟨w', k1, k2⟩ := n3.2 j log[j] (List.getElem?_eq_getElem hjl)
      rw [List.getElem?_eq_getElem hj] at k2
      have k2 := Option.some.inj k2
      obtain ⟨o1, bs, o2, o3⟩ := hw log[j] (List.getElem_mem hjl)
      obtain ⟨out, p1, p2, _⟩ := e4 log[j].1 bs o2 o3
      rw [← hs', p1] at k1
      cases k1
      rw [k2]
      unfold PdfManager.shrunkAs
      split
      · show w'.obs.names = _
        rw [p2]; exact o1
      · rw [p2]; exact o1
  have hass := PdfManager.assert_same hmobs
  have hshrink : ∃ m', m.applyShrink s' = .ok m' ∧ RegionWork s' log m'.work := by
    cases fresh with
    | true =>
      obtain ⟨_, _, n3⟩ := h.new rfl
      have hmw' := hmw.trans n3
      have hF : ∃ F : BinnedED α → BinnedED α, ∀ w ∈ m.work, s'.shrinkDist w = .ok (F w) := by
        classical
        refine ⟨fun w => if h : ∃ w', s'.shrinkDist w = .ok w' then h.choose else w, ?_⟩
        intro w hwm
        rw [hmw'] at hwm
        obtain ⟨p, hp, rfl⟩ := List.mem_map.1 hwm
        obtain ⟨_, bs, b1, b2⟩ := hw p hp
        obtain ⟨out, o1, _⟩ := e4 p.1 bs b1 b2
        have hex : ∃ w', s'.shrinkDist p.1 = .ok w' := ⟨out, o1⟩
        show _ = Res.ok (if h : ∃ w', s'.shrinkDist p.1 = .ok w' then h.choose else p.1)
        rw [dif_pos hex]
        exact hex.choose_spec
      obtain ⟨F, hF⟩ := hF
      obtain ⟨m', f1, f2, f3, f4⟩ := PdfManager.applyShrink_ok him (by rw [e2]; exact hbne) (by rw [e2]; exact hsum) hlog
        (by
          intro w o h1 h2
          rw [hmw'] at h1
          rw [him.orig] at h2
          rw [h1] at h2
          rw [Option.some.inj h2]) F hF
      refine ⟨m', f1, f2, ?_⟩
      intro j p hp
      have hj : j < log.length := (List.getElem?_eq_some_iff.1 hp).1
      have hwj : m.work[j]? = some p.1 := by rw [hmw', List.getElem?_map, hp]; rfl
      have hnj : m.norms[j]? = some (m.norms[j]'(by rw [him.norms]; exact hj)) := List.getElem?_eq_getElem (by rw [him.norms]; exact hj)
      exact ⟨F p.1, hF _ (List.mem_of_getElem? hwj), (f4 j p p.1 _ hp hwj hnj).1⟩
    | false =>
      obtain ⟨n1, _, n3⟩ := h.old rfl
      rw [e1] at n1
      have hs' := Res.ok.inj n1
      rw [← hs'] at n3
      refine ⟨m, ?_, by rw [hmw]; exact n3⟩
      have hlp : 0 < log.length := List.length_pos_iff.2 hlog
      obtain ⟨p, hp⟩ : ∃ p, log[0]? = some p := ⟨_, List.getElem?_eq_getElem hlp⟩
      obtain ⟨w', k1, k2⟩ := n3.2 0 p hp
      obtain ⟨_, bs, b1, b2⟩ := hw p (List.mem_of_getElem? hp)
      obtain ⟨out, o1, o2, o3, o4, o5⟩ := e4 p.1 bs b1 b2
      rw [k1] at o1
      cases o1
      unfold PdfManager.applyShrink
      rw [if_neg (by rw [e2]; exact hbne)]
      simp only
      rw [at_ok.2 ((congrArg (fun l : List (BinnedED α) => l[0]?) hmw).trans k2),
        at_ok.2 (show m.orig[0]? = some p.1 by rw [him.orig, List.getElem?_map, hp]; rfl)]
      simp only [Res.ok_bind]
      have hnb : (PdfManager.shrunkAs p.2 w').hist.nBins = (regionShape (buffersOf calls) as).prod := by
        have : (PdfManager.shrunkAs p.2 w').hist.nBins = w'.hist.nBins := by
          unfold PdfManager.shrunkAs; split <;> rfl
        rw [this, o4.nb, regionShape_eq e3]
      rw [if_pos (by
        rw [hnb, b1.nb, b2, e2]
        have := hone rfl
        omega)]
      rfl
  obtain ⟨m', hm', hrw⟩ := hshrink
  have hP : L.prepare C = .ok { L with pdfs := m', shrinker := s', dataDist := dd, alreadyShrunk := true } := by
    unfold NLLH.prepare
    rw [Res.throwIf_false_of (by rw [h.calced]; simp)]
    simp only [Res.ok_bind]
    rw [if_pos h.calced]
    simp only [pure_bind]
    rw [hm]
    simp only [Res.ok_bind]
    rw [hshr]
    simp only [Res.ok_bind]
    unfold SysManager.construct
    rw [if_pos h.sys]
    simp only [pure_bind]
    unfold PdfManager.applySystematics
    rw [if_pos h.sys]
    simp only [Res.ok_bind]
    rw [hass]
    simp only [Res.ok_bind]
    rw [hm']
    rfl
  refine ⟨_, hP, ?_⟩
  exact ⟨(hbm.assertDimensions _ hass).applyShrink _ hm', h.bb, h.sys, h.calced, h.cons, h.comp, rfl, fun h => by simp at h,
    fun _ => ⟨e1, d1, hrw⟩⟩

/-- The rate from the working distributions, shrunk versions of `ws`, is the rate in the region. -/
theorem shrunk_rate {log : List (BinnedED α × NormStatus)} {s' : Shrinker α} {ws work : List (BinnedED α)}
    (hs : (configureShrinker calls ov : Shrinker α).setBinMap d = .ok s') (hws : ws.length = log.length)
    (hw : ∀ w ∈ ws, ∃ bs, w.hist.Valid bs ∧ shape bs = shape as) (hwl : work.length = log.length)
    (hr : ∀ (j : Nat) p w, log[j]? = some p → ws[j]? = some w → ∃ w', s'.shrinkDist w = .ok w' ∧
      work[j]? = some (PdfManager.shrunkAs p.2 w')) (value : String → α) {b : Nat}
    (hb : b < (regionShape (buffersOf calls) as).prod) :
    (∀ w ∈ work, w.hist.nBins = (regionShape (buffersOf calls) as).prod ∧ w.hist.contents.length = w.hist.nBins) ∧
    expectedRate value log work b = regionRate value (buffersOf calls) ov as log (ws.map (·.hist)) (digits (regionShape (buffersOf calls) as) b) := by
  obtain ⟨s'', as', e1, e2, e3, e4⟩ := shrink_region calls ov hcalls d as hv hc hl hsize
  rw [hs] at e1
  have e1 := (Res.ok.inj e1).symm
  subst e1
  have hsh := regionShape_eq e3
  -- one distribution
  have one : ∀ (j : Nat) p, log[j]? = some p → ∃ w v, work[j]? = some w ∧ ws[j]? = some v ∧
      w.hist.nBins = (regionShape (buffersOf calls) as).prod ∧
      w.hist.contents.length = w.hist.nBins ∧ w.hist.contents.getD b 0 =
        regionContent (buffersOf calls) ov as v.hist (digits (regionShape (buffersOf calls) as) b) /
          (if p.2 = .direct then regionIntegral (buffersOf calls) ov as v.hist else 1) := by
    intro j p hp
    have hjl : j < log.length := (List.getElem?_eq_some_iff.1 hp).1
    obtain ⟨v, hvj⟩ : ∃ v, ws[j]? = some v := ⟨_, List.getElem?_eq_getElem (by omega)⟩
    obtain ⟨w', k1, k2⟩ := hr j p v hp hvj
    obtain ⟨bs, b1, b2⟩ := hw v (List.mem_of_getElem? hvj)
    obtain ⟨out, o1, o2, o3, o4, o5⟩ := e4 v bs b1 b2
    rw [k1] at o1
    cases o1
    have hint := integral_of_region o4 o5
    have hcb : w'.hist.contents[b]? =
        some (regionContent (buffersOf calls) ov as v.hist (digits (regionShape (buffersOf calls) as) b)) := by
      rw [o5, List.getElem?_map, List.getElem?_range hb]; rfl
    refine ⟨_, v, k2, hvj, ?_⟩
    unfold PdfManager.shrunkAs
    by_cases hst : p.2 = .direct
    · rw [if_pos hst, if_pos hst]
      refine ⟨by rw [← hsh]; exact o4.nb, ?_, ?_⟩
      · show (w'.hist.contents.map _).length = w'.hist.nBins
        rw [List.length_map, o4.len, o4.nb]
      · show (w'.hist.contents.map (· / w'.hist.integral)).getD b 0 = _
        rw [List.getD_eq_getElem?_getD, List.getElem?_map, hcb, hint]; rfl
    · rw [if_neg hst, if_neg hst]
      refine ⟨by rw [← hsh]; exact o4.nb, by rw [o4.len, o4.nb], ?_⟩
      rw [List.getD_eq_getElem?_getD, hcb, div_one]; rfl
  refine ⟨?_, ?_⟩
  · intro w hwm
    obtain ⟨j, hj, rfl⟩ := List.mem_iff_getElem.1 hwm
    have hjl : j < log.length := by rw [← hwl]; exact hj
    obtain ⟨w', v, k1, _, k2, k3, _⟩ := one j log[j] (List.getElem?_eq_getElem hjl)
    rw [List.getElem?_eq_getElem hj] at k1
    cases k1
    exact ⟨k2, k3⟩
  · unfold expectedRate regionRate
    congr 1
    apply List.ext_getElem?
    intro j
    rw [List.getElem?_map, List.getElem?_map]
    by_cases hj : j < log.length
    · obtain ⟨w, v, k1, k2, _, _, k4⟩ := one j log[j] (List.getElem?_eq_getElem hj)
      have z1 : (log.zip work)[j]? = some (log[j], w) := List.getElem?_zip_eq_some.2 ⟨List.getElem?_eq_getElem hj, k1⟩
      have z2 : (log.zip (ws.map (·.hist)))[j]? = some (log[j], v.hist) :=
        List.getElem?_zip_eq_some.2 ⟨List.getElem?_eq_getElem hj, by rw [List.getElem?_map, k2]; rfl⟩
      rw [z1, z2]
      simp only [Option.map_some]
      rw [k4]
    · rw [List.getElem?_eq_none (by rw [List.length_zip]; omega), List.getElem?_eq_none (by rw [List.length_zip]; omega)]
      rfl

/-- As `shrunk_rate`, for the originals. -/
theorem regionWork_rate {log : List (BinnedED α × NormStatus)} {s' : Shrinker α} {work : List (BinnedED α)}
    (hs : (configureShrinker calls ov : Shrinker α).setBinMap d = .ok s')
    (hw : ∀ p ∈ log, ∃ bs, p.1.hist.Valid bs ∧ shape bs = shape as) (hr : RegionWork s' log work) (value : String → α) {b : Nat}
    (hb : b < (regionShape (buffersOf calls) as).prod) :
    (∀ w ∈ work, w.hist.nBins = (regionShape (buffersOf calls) as).prod ∧ w.hist.contents.length = w.hist.nBins) ∧
    expectedRate value log work b = regionRate value (buffersOf calls) ov as log (log.map (·.1.hist)) (digits (regionShape (buffersOf calls) as) b) := by
  have := shrunk_rate calls ov hcalls hsum d as hv hc hl hsize hs (ws := log.map (·.1)) (by simp) (by
    intro w hwm
    obtain ⟨p, hp, rfl⟩ := List.mem_map.1 hwm
    exact hw p hp) hr.1 (by
    intro j p w hp hwj
    rw [List.getElem?_map, hp] at hwj
    cases hwj
    exact hr.2 j p hp) value hb
  rwa [List.map_map] at this
end

theorem NLLH.InRegion.evaluate (calls : List (String × Nat × Nat)) (ov : Bool) (hcalls : calls ≠ [])
    (hsum : 0 < ((buffersOf calls).map (fun p => p.2.1 + p.2.2)).sum)
    (d : BinnedED ℝ) (as : List (BinAxis ℝ)) (hv : d.hist.Valid as)
    (hc : ∀ a ∈ as, a.Contiguous) (hl : ∀ a ∈ as, LeavesABin (buffersOf calls) a) (hsize : (shape as).prod ≤ 2 ^ 31)
    {log : List (BinnedED ℝ × NormStatus)} {cons : ConstraintManager ℝ} {fresh : Bool}
    {L : NLLH σ ℝ} (h : L.InRegion log cons d calls ov fresh) (C : FitSys σ ℝ) (hd : PdfLog.DistinctNames log) (hlog : log ≠ [])
    (ho : PdfLog.Before .direct .indirect log)
    (hw : ∀ p ∈ log, p.1.obs.names = d.obs.names ∧ ∃ bs, p.1.hist.Valid bs ∧ shape bs = shape as)
    (hone : fresh = false → (regionShape (buffersOf calls) as).prod + ((buffersOf calls).map (fun p => p.2.1 + p.2.2)).sum = (shape as).prod)
    {ps : ParamDict ℝ} (hs : SMap.Sorted ps)
    (hval : ∀ n ∈ PdfLog.fitted log, ∃ v, SMap.find ps n = some v ∧ L.pdfs.getParameter n = .ok v)
    (hpos : ∀ b, b < (regionShape (buffersOf calls) as).prod → 0 < regionRate (fun n => (SMap.find ps n).getD 0) (buffersOf calls) ov as
      log (log.map (·.1.hist)) (digits (regionShape (buffersOf calls) as) b)) {c : Fl ℝ}
    (hcon : cons.evaluate (ps.filter (fun p => p.1 ∈ PdfLog.fitted log)) = .ok c) :
    ∃ L', L.evaluate C CMath.real = .ok (Fl.add (some (regionNLL (fun n => (SMap.find ps n).getD 0) (buffersOf calls) ov as log
        (log.map (·.1.hist)) d)) c, L') ∧ L'.InRegion log cons d calls ov false ∧
      ∀ n ∈ PdfLog.fitted log, ∃ v, SMap.find ps n = some v ∧ L'.pdfs.getParameter n = .ok v := by
  obtain ⟨P, hP, hR⟩ := h.prepare calls ov hcalls hsum d as hv hc hl hsize C hd hlog hw hone
  obtain ⟨hbP, hsame, _, _⟩ := prepare_facts h.built hP
  obtain ⟨r1, r2, r3⟩ := hR.old rfl
  have hvalP : ∀ n ∈ PdfLog.fitted log, ∃ v, SMap.find ps n = some v ∧ P.pdfs.getParameter n = .ok v := by
    intro n hn
    obtain ⟨v, e1, e2⟩ := hval n hn
    exact ⟨v, e1, (PdfManager.getParameter_congr hsame (PdfManager.inv_of_built hbP) n).trans e2⟩
  have hgp := hR.getParameters C hd hs hvalP
  obtain ⟨s', as', e1, e2, e3, e4⟩ := shrink_region calls ov hcalls d as hv hc hl hsize
  have e1' := e1
  rw [r1] at e1'
  have e1' := Res.ok.inj e1'
  rw [e1'] at r1 r2 r3
  obtain ⟨dd, d1, d2, d3, d4, d5⟩ := e4 d as hv rfl
  rw [r2] at d1
  have d1 := Res.ok.inj d1
  rw [← d1] at d4 d5
  have hsh := regionShape_eq e3
  have hnb : P.dataDist.hist.nBins = (regionShape (buffersOf calls) as).prod := by rw [d4.nb, hsh]
  have hposreg : 0 < (regionShape (buffersOf calls) as).prod := prod_pos_of (regionShape_pos e3)
  have hrate := fun (value : String → ℝ) (b : Nat) (hb : b < (regionShape (buffersOf calls) as).prod) =>
    regionWork_rate calls ov hcalls hsum d as hv hc hl hsize r1 (fun p hp => (hw p hp).2) r3 value hb
  have hvalL : ∀ n ∈ PdfLog.fitted log, L.pdfs.getParameter n = .ok ((fun n => (SMap.find ps n).getD 0) n) := by
    intro n hn
    obtain ⟨v, e1, e2⟩ := hval n hn
    simp only
    rw [e2, e1]; rfl
  have main := C31_value_partial h.built h.bb hd ho hP (by rw [d4.len, d4.nb]) (by
    intro w hw'
    obtain ⟨k1, k2⟩ := (hrate (fun _ => 0) 0 hposreg).1 w hw'
    exact ⟨by rw [hnb, k1], k2⟩) (fun n => (SMap.find ps n).getD 0) hvalL
  rw [h.cons, hnb] at main
  have hpos' : ∀ b, b < (regionShape (buffersOf calls) as).prod →
      0 < expectedRate (fun n => (SMap.find ps n).getD 0) log P.pdfs.work b := by
    intro b hb
    rw [(hrate _ b hb).2]; exact hpos b hb
  obtain ⟨L', hL'⟩ := main.2 _ c (fun b hb => (hpos' b hb).ne') hgp hcon
  rw [if_pos hpos'] at hL'
  have hval' : ((List.range (regionShape (buffersOf calls) as).prod).map (fun b => poissonTerm (P.dataDist.hist.contents.getD b 0)
      (expectedRate (fun n => (SMap.find ps n).getD 0) log P.pdfs.work b))).sum =
      regionNLL (fun n => (SMap.find ps n).getD 0) (buffersOf calls) ov as log (log.map (·.1.hist)) d := by
    unfold regionNLL
    congr 1
    refine List.map_congr_left (fun b hb => ?_)
    rw [List.mem_range] at hb
    rw [(hrate _ b hb).2]
    congr 1
    rw [List.getD_eq_getElem?_getD, d5, List.getElem?_map, List.getElem?_range hb]; rfl
  rw [hval'] at hL'
  refine ⟨L', hL', ?_⟩
  unfold NLLH.evaluate at hL'
  rw [hP] at hL'
  simp only [Res.ok_bind] at hL'
  obtain ⟨⟨v, m'⟩, f1, hL'⟩ := Res.bind_eq_ok.1 hL'
  obtain ⟨g, f2, hL'⟩ := Res.bind_eq_ok.1 hL'
  obtain ⟨c', f3, hL'⟩ := Res.bind_eq_ok.1 hL'
  have hLe := (Prod.mk.inj (Res.ok.inj hL')).2
  simp only at hLe
  have hbs : P.binSum CMath.real P.dataDist P.pdfs = .ok (v, m') := f1
  obtain ⟨b1, b2, b3, _⟩ := binSum_facts hbP hbs
  rw [← hLe]
  refine ⟨⟨b1, hR.bb, hR.sys, hR.calced, hR.cons, hR.comp, hR.shrunk, fun h => by simp at h, fun _ => ?_⟩, ?_⟩
  · obtain ⟨q1, q2, q3⟩ := hR.old rfl
    refine ⟨q1, q2, ?_⟩
    show RegionWork P.shrinker log m'.work
    rw [b3]; exact q3
  · intro n hn
    obtain ⟨v', e1', e2'⟩ := hvalP n hn
    exact ⟨v', e1', (PdfManager.getParameter_congr b2 (PdfManager.inv_of_built b1) n).trans e2'⟩

theorem NLLH.configured_unshrunk {name : Nat → String} {C : FitSys σ α} {objs : Nat → σ} {log : List (BinnedED α × NormStatus)}
    {cons : ConstraintManager α} {ps : ParamDict α} {d : BinnedED α} {L : NLLH σ α}
    (h : NLLH.configured name C objs log cons ps d = .ok L) : L.shrinker = .new ∧ L.alreadyShrunk = false := by
  unfold NLLH.configured at h
  obtain ⟨L1, h1, h⟩ := Res.bind_eq_ok.1 h
  have e1 : L1.shrinker = .new ∧ L1.alreadyShrunk = false := by
    refine Res.forFold_inv (fun L : NLLH σ α => L.shrinker = .new ∧ L.alreadyShrunk = false) ⟨rfl, rfl⟩ h1 ?_
    intro K p K' hK _ hst
    unfold NLLH.addPdf at hst
    obtain ⟨_, _, hst⟩ := Res.bind_eq_ok.1 hst
    obtain ⟨m, _, hst⟩ := Res.bind_eq_ok.1 hst
    obtain ⟨s, _, hst⟩ := Res.bind_eq_ok.1 hst
    cases hst
    exact hK
  have loop : ∀ (cs : List NllhComponent) (K : NLLH σ α), (setLoop C ps K cs).1.shrinker = K.shrinker ∧
      (setLoop C ps K cs).1.alreadyShrunk = K.alreadyShrunk := by
    intro cs
    induction cs with
    | nil => intro K; exact ⟨rfl, rfl⟩
    | cons c cs ih =>
      intro K
      have hc : (setComponent C ps K c).1.shrinker = K.shrinker ∧ (setComponent C ps K c).1.alreadyShrunk = K.alreadyShrunk := by
        cases c <;> exact ⟨rfl, rfl⟩
      unfold setLoop
      generalize setComponent C ps K c = x at hc
      obtain ⟨K', r⟩ := x
      cases r with
      | ok u =>
        simp only
        exact ⟨(ih K').1.trans hc.1, (ih K').2.trans hc.2⟩
      | throw e => exact hc
      | ub => exact hc
  have hset : ∀ K : NLLH σ α, (K.setParameters C ps).1.shrinker = K.shrinker ∧ (K.setParameters C ps).1.alreadyShrunk = K.alreadyShrunk := by
    intro K
    unfold NLLH.setParameters
    split
    · exact ⟨rfl, rfl⟩
    · exact loop _ _
  simp only at h
  obtain ⟨u, hu, h⟩ := Res.bind_eq_ok.1 h
  cases h
  obtain ⟨g1, g2⟩ := hset (({ L1 with constraints := cons } : NLLH σ α).registerFitComponents name)
  exact ⟨g1.trans e1.1, g2.trans e1.2⟩

theorem NLLH.buffers_fold (calls : List (String × Nat × Nat)) (L : NLLH σ α) :
    calls.foldl (fun (L : NLLH σ α) c => L.setBuffer c.1 c.2.1 c.2.2) L =
      { L with shrinker := calls.foldl (fun s c => s.setBuffer c.1 c.2.1 c.2.2) L.shrinker } := by
  induction calls generalizing L with
  | nil => rfl
  | cons c calls ih =>
    rw [List.foldl_cons, ih]; rfl

theorem NLLH.configuredRegion_ok {name : Nat → String} {C : FitSys σ α} {objs : Nat → σ} {log : List (BinnedED α × NormStatus)}
    {cons : ConstraintManager α} {ps : ParamDict α} {d : BinnedED α} (calls : List (String × Nat × Nat)) (ov : Bool)
    (hd : PdfLog.DistinctNames log) (hne : ps ≠ []) (hall : ∀ n ∈ PdfLog.fitted log, (SMap.find ps n).isSome) :
    ∃ L, NLLH.configuredRegion name C objs log cons ps calls ov d = .ok L ∧ L.InRegion log cons d calls ov true ∧
      ∀ n ∈ PdfLog.fitted log, ∃ v, SMap.find ps n = some v ∧ L.pdfs.getParameter n = .ok v := by
  obtain ⟨L, h1, hS, hset⟩ := NLLH.configured_simple (name := name) (C := C) (objs := objs) (cons := cons) (d := d) hd hne hall
  obtain ⟨u1, u2⟩ := NLLH.configured_unshrunk h1
  refine ⟨_, by unfold NLLH.configuredRegion; rw [h1]; rfl, ?_, ?_⟩
  · rw [NLLH.buffers_fold]
    refine ⟨hS.built, hS.bb, hS.sys, hS.calced, hS.cons, hS.comp, u2, fun _ => ⟨?_, hS.data, hS.work⟩, fun h => by simp at h⟩
    show Shrinker.setUsingOverflows (calls.foldl _ L.shrinker) ov = _
    rw [u1]; rfl
  · rw [NLLH.buffers_fold]
    intro n hn
    obtain ⟨v, hv⟩ := Option.isSome_iff_exists.1 (hall n hn)
    exact ⟨v, hv, hset n hn v hv⟩

/-- C90 (partial), the first evaluation, any number of axes: distributions, all in the data's observables and binning, added to a new
likelihood, constraints, parameters and data set, and buffers, not all zero, that leave at least one bin on every axis. Then every step
succeeds and the value is the Poisson sum over the bins of the fit region, of the data and the rates inside it (or with everything
outside it moved to the nearest bin of it, when the buffers are overflows), directly fitted distributions being normalised to one
within the region, plus the constraint term. Missing: later evaluations with more than one axis (`C29_buffers_wrong`) and fitted
distributions with equal names, or an indirectly fitted one added before a directly fitted one. -/
theorem C90_first_partial {name : Nat → String} {C : FitSys σ ℝ} {objs : Nat → σ} {log : List (BinnedED ℝ × NormStatus)}
    {cons : ConstraintManager ℝ} {ps : ParamDict ℝ} {d : BinnedED ℝ} {c : Fl ℝ}
    (calls : List (String × Nat × Nat)) (ov : Bool) (hcalls : calls ≠ [])
    (hsum : 0 < ((buffersOf calls).map (fun p => p.2.1 + p.2.2)).sum)
    (as : List (BinAxis ℝ)) (hv : d.hist.Valid as) (hc : ∀ a ∈ as, a.Contiguous)
    (hl : ∀ a ∈ as, LeavesABin (buffersOf calls) a) (hsize : (shape as).prod ≤ 2 ^ 31)
    (hd : PdfLog.DistinctNames log) (hlog : log ≠ []) (ho : PdfLog.Before .direct .indirect log)
    (hw : ∀ p ∈ log, p.1.obs.names = d.obs.names ∧ ∃ bs, p.1.hist.Valid bs ∧ shape bs = shape as)
    (hne : ps ≠ []) (hs : SMap.Sorted ps) (hall : ∀ n ∈ PdfLog.fitted log, (SMap.find ps n).isSome)
    (hpos : ∀ b, b < (regionShape (buffersOf calls) as).prod → 0 < regionRate (fun n => (SMap.find ps n).getD 0) (buffersOf calls) ov as
      log (log.map (·.1.hist)) (digits (regionShape (buffersOf calls) as) b))
    (hcon : cons.evaluate (ps.filter (fun p => p.1 ∈ PdfLog.fitted log)) = .ok c) :
    ∃ L L', NLLH.configuredRegion name C objs log cons ps calls ov d = .ok L ∧ L.evaluate C CMath.real =
      .ok (Fl.add (some (regionNLL (fun n => (SMap.find ps n).getD 0) (buffersOf calls) ov as log (log.map (·.1.hist)) d)) c, L') := by
  obtain ⟨L, h1, hR, hset⟩ := NLLH.configuredRegion_ok (name := name) (C := C) (objs := objs) (cons := cons) (d := d) calls ov hd hne hall
  obtain ⟨L', h2, _⟩ := hR.evaluate calls ov hcalls hsum d as hv hc hl hsize C hd hlog ho hw (fun h => by simp at h) hs hset hpos hcon
  exact ⟨L, L', h1, h2⟩

/-- One axis, buffers on that axis: the count of bins the manager compares with is right. -/
theorem one_axis {calls : List (String × Nat × Nat)} {a : BinAxis α} (hcalls : calls ≠ []) (hn : ∀ c ∈ calls, c.1 = a.name)
    (hl : LeavesABin (buffersOf calls) a) :
    (regionShape (buffersOf calls) [a]).prod + ((buffersOf calls).map (fun p => p.2.1 + p.2.2)).sum = (shape [a]).prod := by
  have key : ∀ (l : List (String × Nat × Nat)) (m : SMap (Nat × Nat)), (∀ c ∈ l, c.1 = a.name) → (∃ x, m = [(a.name, x)]) →
      ∃ x, l.foldl (fun (m : SMap (Nat × Nat)) c => m.insert c.1 c.2) m = [(a.name, x)] := by
    intro l
    induction l with
    | nil => intro m _ h; exact h
    | cons c l ih =>
      intro m hc hm
      obtain ⟨x, rfl⟩ := hm
      rw [List.foldl_cons]
      refine ih _ (fun c hc' => hc c (by simp [hc'])) ⟨c.2, ?_⟩
      rw [hc c (by simp)]
      simp [SMap.insert]
  obtain ⟨x, hx⟩ : ∃ x, buffersOf calls = [(a.name, x)] := by
    cases calls with
    | nil => exact absurd rfl hcalls
    | cons c l =>
      unfold buffersOf
      rw [List.foldl_cons]
      refine key l _ (fun c hc' => hn c (by simp [hc'])) ⟨c.2, ?_⟩
      rw [hn c (by simp)]
      rfl
  unfold LeavesABin at hl
  rw [hx] at hl ⊢
  have hf : SMap.find [(a.name, x)] a.name = some x := by rw [SMap.find_cons, if_pos rfl]
  simp only [regionShape, shape, List.map_cons, List.map_nil, List.prod_cons, List.prod_nil, List.sum_cons, List.sum_nil, bufLow, bufHigh,
    hf, Option.getD_some, mul_one, add_zero] at hl ⊢
  omega

theorem NLLH.InRegion.scan (calls : List (String × Nat × Nat)) (ov : Bool) (hcalls : calls ≠ [])
    (hsum : 0 < ((buffersOf calls).map (fun p => p.2.1 + p.2.2)).sum)
    (d : BinnedED ℝ) (as : List (BinAxis ℝ)) (hv : d.hist.Valid as)
    (hc : ∀ a ∈ as, a.Contiguous) (hl : ∀ a ∈ as, LeavesABin (buffersOf calls) a) (hsize : (shape as).prod ≤ 2 ^ 31)
    {log : List (BinnedED ℝ × NormStatus)} {cons : ConstraintManager ℝ}
    (C : FitSys σ ℝ) (hd : PdfLog.DistinctNames log) (hlog : log ≠ [])
    (ho : PdfLog.Before .direct .indirect log)
    (hw : ∀ p ∈ log, p.1.obs.names = d.obs.names ∧ ∃ bs, p.1.hist.Valid bs ∧ shape bs = shape as)
    (hone : (regionShape (buffersOf calls) as).prod + ((buffersOf calls).map (fun p => p.2.1 + p.2.2)).sum = (shape as).prod)
    (con : ParamDict ℝ → Fl ℝ) (pss : List (ParamDict ℝ)) (hpss : ∀ ps ∈ pss, ps ≠ [] ∧ SMap.Sorted ps ∧
      (∀ n ∈ PdfLog.fitted log, (SMap.find ps n).isSome) ∧
      (∀ b, b < (regionShape (buffersOf calls) as).prod → 0 < regionRate (fun n => (SMap.find ps n).getD 0) (buffersOf calls) ov as
        log (log.map (·.1.hist)) (digits (regionShape (buffersOf calls) as) b)) ∧
      cons.evaluate (ps.filter (fun p => p.1 ∈ PdfLog.fitted log)) = .ok (con ps)) {fresh : Bool}
    {L : NLLH σ ℝ} (h : L.InRegion log cons d calls ov fresh) :
    L.scan C CMath.real pss = .ok (pss.map (fun ps => Fl.add (some (regionNLL (fun n => (SMap.find ps n).getD 0) (buffersOf calls) ov as log
      (log.map (·.1.hist)) d)) (con ps))) := by
  induction pss generalizing L fresh with
  | nil => rfl
  | cons ps pss ih =>
    obtain ⟨a1, a2, a3, a4, a5⟩ := hpss ps (by simp)
    obtain ⟨s1, s2, s3⟩ := h.setParameters C hd a1 a3
    obtain ⟨L', e1, e2, _⟩ := s2.evaluate calls ov hcalls hsum d as hv hc hl hsize C hd hlog ho hw (fun _ => hone) a2 s3 a4 a5
    unfold NLLH.scan
    rw [s1]
    simp only [Res.ok_bind]
    rw [e1]
    simp only [Res.ok_bind]
    rw [ih (fun ps h => hpss ps (by simp [h])) e2]
    rfl

/-- C90 (partial), a fit in one dimension: buffers on the only axis. Any number of evaluations, the parameters set before each: each
value is the Poisson sum over the fit region at the parameters just set. Missing: as for `C90_first_partial`. -/
theorem C90_scan_partial {name : Nat → String} {C : FitSys σ ℝ} {objs : Nat → σ} {log : List (BinnedED ℝ × NormStatus)}
    {cons : ConstraintManager ℝ} {ps : ParamDict ℝ} {d : BinnedED ℝ}
    (calls : List (String × Nat × Nat)) (ov : Bool) (hcalls : calls ≠ [])
    (hsum : 0 < ((buffersOf calls).map (fun p => p.2.1 + p.2.2)).sum)
    (a : BinAxis ℝ) (hname : ∀ c ∈ calls, c.1 = a.name) (hv : d.hist.Valid [a]) (hc : a.Contiguous)
    (hl : LeavesABin (buffersOf calls) a) (hsize : a.nBins ≤ 2 ^ 31)
    (hd : PdfLog.DistinctNames log) (hlog : log ≠ []) (ho : PdfLog.Before .direct .indirect log)
    (hw : ∀ p ∈ log, p.1.obs.names = d.obs.names ∧ ∃ bs, p.1.hist.Valid bs ∧ shape bs = shape [a])
    (hne : ps ≠ []) (hall : ∀ n ∈ PdfLog.fitted log, (SMap.find ps n).isSome)
    (con : ParamDict ℝ → Fl ℝ) (pss : List (ParamDict ℝ)) (hpss : ∀ ps ∈ pss, ps ≠ [] ∧ SMap.Sorted ps ∧
      (∀ n ∈ PdfLog.fitted log, (SMap.find ps n).isSome) ∧
      (∀ b, b < (regionShape (buffersOf calls) [a]).prod → 0 < regionRate (fun n => (SMap.find ps n).getD 0) (buffersOf calls) ov [a]
        log (log.map (·.1.hist)) (digits (regionShape (buffersOf calls) [a]) b)) ∧
      cons.evaluate (ps.filter (fun p => p.1 ∈ PdfLog.fitted log)) = .ok (con ps)) :
    ∃ L, NLLH.configuredRegion name C objs log cons ps calls ov d = .ok L ∧ L.scan C CMath.real pss =
      .ok (pss.map (fun ps => Fl.add (some (regionNLL (fun n => (SMap.find ps n).getD 0) (buffersOf calls) ov [a] log
        (log.map (·.1.hist)) d)) (con ps))) := by
  obtain ⟨L, h1, hR, _⟩ := NLLH.configuredRegion_ok (name := name) (C := C) (objs := objs) (cons := cons) (d := d) calls ov hd hne hall
  refine ⟨L, h1, hR.scan calls ov hcalls hsum d [a] hv (by simpa using hc) (by simpa using hl) (by simpa [shape] using hsize) C hd hlog
    ho hw (one_axis hcalls hname hl) con pss hpss⟩

/-! ### Examples -/

/-- Non-vacuity of C90: three bins, one of them below the fit region; a signal fitted directly (1/2, 1/4, 1/4, so 1/2 and 1/2 within the
region), a background fitted indirectly (1/2, 1/8, 3/8), data 7, 5, 6: with normalisations 2 and 8 the rates are 2 and 4; with 2 and 16,
3 and 7. -/
example : ∃ (a : BinAxis ℝ) (s b d : BinnedED ℝ) (L : NLLH (AnySys ℝ) ℝ), s.hist.contents = [1/2, 1/4, 1/4] ∧
    b.hist.contents = [1/2, 1/8, 3/8] ∧ d.hist.contents = [7, 5, 6] ∧ s.hist.Valid [a] ∧ a.nBins = 3 ∧
    NLLH.configuredRegion exSysName AnySys.fit (fun _ => .renorm ⟨.new, none, []⟩) [(s, .direct), (b, .indirect)]
      .empty [("b", 1), ("s", 1)] [("x", 1, 0)] false d = .ok L ∧
    L.scan AnySys.fit CMath.real [[("b", 8), ("s", 2)], [("b", 16), ("s", 2)]] =
      .ok [some ((2 - 5 * Real.log 2) + (4 - 6 * Real.log 4)), some ((3 - 5 * Real.log 3) + (7 - 6 * Real.log 7))] := by
  obtain ⟨a, ha⟩ : ∃ a, BinAxis.mkEqual "x" (0 : ℝ) 3 3 = .ok a :=
    ⟨_, (BinAxis.mkEqual_ok_iff).2 ⟨by norm_num, by norm_num, rfl⟩⟩
  have hx := (BinAxis.mkEqual_ok_iff.1 ha).2.2
  have na : a.name = "x" ∧ a.nBins = 3 := by rw [hx]; exact ⟨rfl, rfl⟩
  obtain ⟨c, hcc⟩ := addAxes_ok_of_nodup (as := [a]) (by simp)
  have hv0 := Histogram.valid_ofAxes (holds_of_addAxes hcc) (by simp : [a] ≠ [])
  have hpr : (shape [a]).prod = 3 := by simp [shape, na.2]
  have hv : ∀ (x y z : ℝ), ({ Histogram.ofAxes c with contents := [x, y, z] } : Histogram ℝ).Valid [a] := by
    intro x y z
    exact ⟨hv0.axes, hv0.ne, hv0.nb, hv0.nd, by rw [hpr]; rfl⟩
  have hbufs : buffersOf [("x", 1, 0)] = [("x", (1, 0))] := rfl
  have hreg : regionShape (buffersOf [("x", 1, 0)]) [a] = [2] := by
    simp [regionShape, hbufs, na.1, na.2, bufLow, bufHigh, SMap.find_cons]
  have hcon : ∀ (x y z : ℝ) (i : Nat), i < 2 →
      regionContent (buffersOf [("x", 1, 0)]) false [a] ({ Histogram.ofAxes c with contents := [x, y, z] } : Histogram ℝ)
        (digits [2] i) = ([x, y, z] : List ℝ).getD (1 + i) 0 := by
    intro x y z i hi
    unfold regionContent
    have hd : digits [2] i = [i] := by simp [digits]; omega
    have hr : rowMajor (shape [a]) (List.zipWith (fun (a : BinAxis ℝ) i => bufLow (buffersOf [("x", 1, 0)]) a.name + i) [a] [i]) = 1 + i := by
      simp [rowMajor, shape, na.1, hbufs, bufLow, SMap.find_cons]
    rw [if_neg (by simp), hd, hr, contentOf (hv x y z) (by rw [hpr]; omega)]
  have hint : ∀ (x y z : ℝ), regionIntegral (buffersOf [("x", 1, 0)]) false [a]
      ({ Histogram.ofAxes c with contents := [x, y, z] } : Histogram ℝ) = y + z := by
    intro x y z
    unfold regionIntegral
    rw [hreg]
    show ((List.range 2).map _).sum = _
    simp only [List.range_succ, List.range_zero, List.nil_append, List.map_append, List.map_cons, List.map_nil, List.cons_append,
      List.sum_cons, List.sum_nil]
    rw [hcon _ _ _ 0 (by omega), hcon _ _ _ 1 (by omega)]
    simp
  let pdf : String → ℝ → ℝ → ℝ → BinnedED ℝ := fun n x y z => ⟨n, { Histogram.ofAxes c with contents := [x, y, z] }, ObsSet.ofNames ["x"]⟩
  have hrate : ∀ (u v : ℝ) (i : Nat), i < 2 →
      regionRate (fun n => (SMap.find [("b", u), ("s", v)] n).getD 0) (buffersOf [("x", 1, 0)]) false [a]
        [(pdf "s" (1/2) (1/4) (1/4), .direct), (pdf "b" (1/2) (1/8) (3/8), .indirect)]
        ([(pdf "s" (1/2) (1/4) (1/4), NormStatus.direct), (pdf "b" (1/2) (1/8) (3/8), NormStatus.indirect)].map (·.1.hist)) (digits [2] i)
      = v / 2 + u * (if i = 0 then 1/8 else 3/8) := by
    intro u v i hi
    unfold regionRate
    simp only [List.map_cons, List.map_nil, List.zip_cons_cons, List.zip_nil_left, List.sum_cons, List.sum_nil, pdf]
    rw [hcon _ _ _ i hi, hcon _ _ _ i hi, hint]
    have hi' : i = 0 ∨ i = 1 := by omega
    rcases hi' with rfl | rfl <;>
      simp [normOf, NormStatus.fittable, SMap.find_cons, show ("b" : String) ≠ "s" by decide] <;> ring
  have hpos : ∀ (u v : ℝ), 0 < u → 0 < v → ∀ b, b < (regionShape (buffersOf [("x", 1, 0)]) [a]).prod →
      0 < regionRate (fun n => (SMap.find [("b", u), ("s", v)] n).getD 0) (buffersOf [("x", 1, 0)]) false [a]
        [(pdf "s" (1/2) (1/4) (1/4), .direct), (pdf "b" (1/2) (1/8) (3/8), .indirect)]
        ([(pdf "s" (1/2) (1/4) (1/4), NormStatus.direct), (pdf "b" (1/2) (1/8) (3/8), NormStatus.indirect)].map (·.1.hist))
        (digits (regionShape (buffersOf [("x", 1, 0)]) [a]) b) := by
    intro u v hu hv b hb
    rw [hreg] at hb ⊢
    rw [hrate u v b (by simpa using hb)]
    split <;> positivity
  have hsorted : ∀ u v : ℝ, SMap.Sorted [("b", u), ("s", v)] := by
    intro u v
    show List.Pairwise _ _
    simp only [List.pairwise_cons, List.mem_singleton, forall_eq, List.not_mem_nil, false_implies, implies_true, List.Pairwise.nil, and_true]
    decide +kernel
  have hall : ∀ u v : ℝ, ∀ n ∈ PdfLog.fitted [(pdf "s" (1/2) (1/4) (1/4), NormStatus.direct), (pdf "b" (1/2) (1/8) (3/8), NormStatus.indirect)],
      (SMap.find [("b", u), ("s", v)] n).isSome := by
    intro u v n hn
    have : n ∈ (["s", "b"] : List String) := hn
    simp only [List.mem_cons, List.not_mem_nil, or_false] at this
    rcases this with rfl | rfl <;> rfl
  obtain ⟨L, h1, h2⟩ := C90_scan_partial (name := exSysName) (C := AnySys.fit) (objs := fun _ => .renorm ⟨.new, none, []⟩)
    (log := [(pdf "s" (1/2) (1/4) (1/4), .direct), (pdf "b" (1/2) (1/8) (3/8), .indirect)]) (cons := .empty)
    (ps := [("b", 1), ("s", 1)]) (d := pdf "d" 7 5 6) [("x", 1, 0)] false (by simp) (by decide) a (by simp [na.1]) (hv _ _ _)
    (BinAxis.mkEqual_contiguous ha) (by unfold LeavesABin; rw [na.1, na.2]; decide) (by rw [na.2]; norm_num)
    (by show (["s", "b"] : List String).Nodup; decide) (by simp)
    (by show ([NormStatus.direct, NormStatus.indirect]).Pairwise _; decide)
    (by intro p hp
        simp only [List.mem_cons, List.not_mem_nil, or_false] at hp
        rcases hp with rfl | rfl <;> exact ⟨rfl, [a], hv _ _ _, rfl⟩)
    (by simp) (hall 1 1) (fun _ => some 0) [[("b", 8), ("s", 2)], [("b", 16), ("s", 2)]] (by
      intro ps hps
      simp only [List.mem_cons, List.not_mem_nil, or_false] at hps
      rcases hps with rfl | rfl
      · exact ⟨by simp, hsorted _ _, hall _ _, hpos 8 2 (by norm_num) (by norm_num), rfl⟩
      · exact ⟨by simp, hsorted _ _, hall _ _, hpos 16 2 (by norm_num) (by norm_num), rfl⟩)
  refine ⟨a, pdf "s" (1/2) (1/4) (1/4), pdf "b" (1/2) (1/8) (3/8), pdf "d" 7 5 6, L, rfl, rfl, rfl, hv _ _ _, na.2, h1, ?_⟩
  rw [h2]
  have hnll : ∀ u v : ℝ, regionNLL (fun n => (SMap.find [("b", u), ("s", v)] n).getD 0) (buffersOf [("x", 1, 0)]) false [a]
        [(pdf "s" (1/2) (1/4) (1/4), .direct), (pdf "b" (1/2) (1/8) (3/8), .indirect)]
        ([(pdf "s" (1/2) (1/4) (1/4), NormStatus.direct), (pdf "b" (1/2) (1/8) (3/8), NormStatus.indirect)].map (·.1.hist)) (pdf "d" 7 5 6)
      = poissonTerm 5 (v / 2 + u * (1/8)) + poissonTerm 6 (v / 2 + u * (3/8)) := by
    intro u v
    unfold regionNLL
    rw [hreg]
    show ((List.range 2).map _).sum = _
    simp only [List.range_succ, List.range_zero, List.nil_append, List.map_append, List.map_cons, List.map_nil, List.cons_append,
      List.sum_cons, List.sum_nil]
    rw [show (pdf "d" 7 5 6).hist = ({ Histogram.ofAxes c with contents := [7, 5, 6] } : Histogram ℝ) from rfl,
      hcon _ _ _ 0 (by omega), hcon _ _ _ 1 (by omega)]
    have r0 := hrate u v 0 (by omega)
    have r1 := hrate u v 1 (by omega)
    simp only [List.map_cons, List.map_nil] at r0 r1
    rw [r0, r1]
    simp
  simp only [List.map_cons, List.map_nil] at hnll ⊢
  rw [hnll, hnll]
  congr 1
  simp only [Fl.add, poissonTerm]
  norm_num

end Oxsx
