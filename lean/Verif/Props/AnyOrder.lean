import Verif.Props.PdfManager
set_option linter.unusedSectionVars false
set_option linter.unusedSimpArgs false
set_option linter.unusedVariables false
/-
C27 and C28 for every order of directly, indirectly and not fitted distributions: which parameter the manager takes for each of them.
-/
namespace Oxsx
open scoped List
variable {α : Type} [Field α] [LinearOrder α]

namespace PdfLog

/-- Number of distributions of one status before position `i`. -/
def numberBefore (t : NormStatus) (log : List (BinnedED α × NormStatus)) (i : Nat) : Nat := ((log.take i).filter (fun p => p.2 = t)).length

/-- The name of the parameter that scales distribution `i` in an expected rate: an indirectly fitted one is scaled by its own parameter; a
directly fitted one by the fitted parameter whose place is the number of **directly** fitted distributions before it. -/
def takenName (log : List (BinnedED α × NormStatus)) (i : Nat) : Option String :=
  match log[i]? with
  | some (d, .indirect) => some d.name
  | some (_, .direct) => (fitted log)[numberBefore .direct log i]?
  | _ => none

/-- The factor for distribution `i`. -/
def takenNorm (value : String → α) (log : List (BinnedED α × NormStatus)) (i : Nat) : α :=
  match takenName log i with
  | some n => value n
  | none => 1

theorem numberBefore_eq (t : NormStatus) (log : List (BinnedED α × NormStatus)) (i : Nat) :
    numberBefore t log i = rank (fun p => decide (p.2 = t)) log i := by
  unfold numberBefore rank
  rw [List.countP_eq_length_filter]

theorem rank_mono {β : Type} {p q : β → Bool} (h : ∀ a, p a = true → q a = true) (l : List β) (i : Nat) : rank p l i ≤ rank q l i := by
  unfold rank
  exact List.countP_mono_left (fun a _ => h a)

theorem taken_lt {log : List (BinnedED α × NormStatus)} {i : Nat} {p : BinnedED α × NormStatus} (hp : log[i]? = some p) {t : NormStatus}
    (hf : t.fittable = true) (ht : p.2 = t) : numberBefore t log i < (fitted log).length := by
  rw [numberBefore_eq]
  have h1 : rank (fun p => decide (p.2 = t)) log i ≤ rank (fun p : BinnedED α × NormStatus => p.2.fittable) log i :=
    rank_mono (fun a ha => by simp at ha; rw [ha]; exact hf) log i
  have h2 := rank_lt (p := fun p : BinnedED α × NormStatus => p.2.fittable) hp (by rw [ht]; exact hf)
  rw [PdfManager.countP_fitted]
  omega

end PdfLog

namespace PdfManager

/-- The fitted value at a place is the parameter of the name at that place. -/
theorem value_place {log : List (BinnedED α × NormStatus)} {m : PdfManager α} (hi : Inv log m) (hd : PdfLog.DistinctNames log) {k : Nat}
    {n : String} (hk : (PdfLog.fitted log)[k]? = some n) (ha : m.allDirect = false) {v : α} (hv : m.getParameter n = .ok v) :
    m.fitNorms[k]? = some v := by
  have hkl : k < m.fitNorms.length := by rw [hi.fit]; exact (List.getElem?_eq_some_iff.1 hk).1
  have hfind := regOf_find (c := if m.allDirect then 0 else 1) hd hk
  rw [← hi.params] at hfind
  have : m.getParameter n = .ok m.fitNorms[k] := by
    refine ParamManager.getParameter_of_find hfind ?_
    rw [if_neg (by rw [ha]; simp)]
    show at_ m.fitNorms _ = _
    exact at_of_lt hkl
  rw [hv] at this
  rw [List.getElem?_eq_getElem hkl, Res.ok.inj this]

theorem taken_direct {log : List (BinnedED α × NormStatus)} {i : Nat} {p : BinnedED α × NormStatus} (hp : log[i]? = some p)
    (hs : p.2 = .direct) : ∃ n, (PdfLog.fitted log)[PdfLog.numberBefore .direct log i]? = some n ∧ PdfLog.takenName log i = some n := by
  have hlt := PdfLog.taken_lt hp (t := .direct) rfl hs
  refine ⟨_, List.getElem?_eq_getElem hlt, ?_⟩
  unfold PdfLog.takenName
  obtain ⟨d, s⟩ := p
  simp only at hs; subst hs
  rw [hp]
  exact List.getElem?_eq_getElem hlt

theorem prob_any {log : List (BinnedED α × NormStatus)} {m : PdfManager α} (hi : Inv log m)
    (hd : PdfLog.DistinctNames log)
    (value : String → α) (hv : ∀ n ∈ PdfLog.fitted log, m.getParameter n = .ok (value n))
    (f : BinnedED α → Res α) (g : BinnedED α → α) (hf : ∀ w ∈ m.work, f w = .ok (g w)) :
    ∃ (ns : List α) (j : Nat), m.reassertNorms true = .ok { m with norms := ns } ∧ ns.length = m.norms.length ∧
      (m.allDirect = true → ns = m.norms) ∧
      Res.forFold (PdfManager.probStep { m with norms := ns } f) (0, 0) (List.range m.work.length)
        = .ok ((m.work.zipIdx.map (fun q => PdfLog.takenNorm value log q.2 * g q.1)).sum, j) := by
  have hmem : ∀ {i : Nat} {p : BinnedED α × NormStatus}, log[i]? = some p → p.2.fittable = true →
      p.1.name ∈ PdfLog.fitted log := by
    intro i p hp hfp
    unfold PdfLog.fitted
    exact List.mem_map.2 ⟨p, List.mem_filter.2 ⟨List.mem_of_getElem? hp, hfp⟩, rfl⟩
  have hns : ∃ ns : List α, m.reassertNorms true = .ok { m with norms := ns } ∧ ns.length = m.norms.length ∧
      (m.allDirect = true → ns = m.norms) ∧
      ∀ (i : Nat) p, log[i]? = some p → p.2 = .direct → ns[i]? = some (PdfLog.takenNorm value log i) := by
    by_cases ha : m.allDirect = true
    · refine ⟨m.norms, ?_, rfl, fun _ => rfl, ?_⟩
      · unfold reassertNorms; rw [if_pos ha]
      · intro i p hp hpd
        obtain ⟨v, h1, h2, _⟩ := value_at hi hd hp (by rw [hpd]; rfl)
        rw [hv _ (hmem hp (by rw [hpd]; rfl))] at h1
        rw [h2 ha, ← Res.ok.inj h1]
        have hall : ∀ q ∈ log, (fun p : BinnedED α × NormStatus => decide (p.2 = .direct)) q = true := by
          intro q hq
          exact List.all_eq_true.1 (hi.alld ▸ ha) q hq
        have hil : i < log.length := (List.getElem?_eq_some_iff.1 hp).1
        obtain ⟨n, hn1, hn2⟩ := taken_direct hp hpd
        rw [PdfLog.numberBefore_eq, rank_all hall (le_of_lt hil), fitted_all (hi.alld ▸ ha), List.getElem?_map, hp] at hn1
        simp only [Option.map_some, Option.some.injEq] at hn1
        unfold PdfLog.takenNorm
        rw [hn2, ← hn1]
    · have ha' : m.allDirect = false := by simpa using ha
      obtain ⟨ns, h1, h2, h3⟩ := reassert_ok hi true ha' .direct rfl
      refine ⟨ns, h1, h2, fun h => absurd h ha, ?_⟩
      intro i p hp hpd
      obtain ⟨hil, hpe⟩ := List.getElem?_eq_some_iff.1 hp
      obtain ⟨n, hn1, hn2⟩ := taken_direct hp hpd
      rw [h3 i hil, if_pos (by simp [hp, hpd]), ← PdfLog.numberBefore_eq]
      have hn3 : n ∈ PdfLog.fitted log := List.mem_of_getElem? hn1
      rw [value_place hi hd hn1 ha' (hv n hn3)]
      unfold PdfLog.takenNorm
      rw [hn2]
  obtain ⟨ns, h1, h2, h3, h4⟩ := hns
  have hloop := Res.forFold_range (f := PdfManager.probStep { m with norms := ns } f) (n := m.work.length)
    (s := ((0 : α), 0))
    (fun k (s : α × Nat) => s.1 = ((m.work.zipIdx.take k).map (fun q => PdfLog.takenNorm value log q.2 * g q.1)).sum ∧
      s.2 = rank (fun p => p.2.fittable) log k)
    ⟨by simp, by simp [rank]⟩ (by
      rintro k ⟨s, j⟩ hk ⟨hs1, hs2⟩
      simp only at hs1 hs2
      have hkl : k < log.length := by rw [← hi.work]; exact hk
      have hlk : log[k]? = some log[k] := by simp [hkl]
      have hzk : m.work.zipIdx[k]? = some (m.work[k], k) := by simp [hk]
      have hsum : ((m.work.zipIdx.take (k + 1)).map (fun q => PdfLog.takenNorm value log q.2 * g q.1)).sum
          = s + PdfLog.takenNorm value log k * g m.work[k] := by
        rw [List.take_add_one, hzk, List.map_append, List.sum_append, hs1]; simp
      have hj := rank_succ (p := fun p : BinnedED α × NormStatus => p.2.fittable) hlk
      have hfk := hf m.work[k] (List.getElem_mem hk)
      have hst : at_ m.status k = .ok log[k].2 := by
        rw [hi.status, at_ok]; simp [hkl]
      unfold probStep
      simp only
      rw [hst, at_of_lt hk]
      simp only [Res.ok_bind]
      cases hsk : log[k].2 with
      | off =>
        simp only [hfk, Res.ok_bind]
        refine ⟨_, rfl, ?_, ?_⟩
        · simp only [hsum]
          have : PdfLog.takenNorm value log k = 1 := by
            have hlk' : log[k]? = some (log[k].1, .off) := by rw [hlk, ← hsk]
            unfold PdfLog.takenNorm PdfLog.takenName; rw [hlk']
          rw [this, one_mul]
        · show _ = rank (fun p : BinnedED α × NormStatus => p.2.fittable) log (k + 1)
          rw [hj, ← hs2, hsk]; rfl
      | direct =>
        have hn := h4 k _ hlk hsk
        rw [show at_ ns k = .ok _ from at_ok.2 hn]
        simp only [hfk, Res.ok_bind]
        refine ⟨_, rfl, ?_, ?_⟩
        · simp only [hsum]
        · show _ = rank (fun p : BinnedED α × NormStatus => p.2.fittable) log (k + 1)
          rw [hj, ← hs2, hsk]; rfl
      | indirect =>
        have ha : m.allDirect = false := by
          rw [hi.alld]
          refine Bool.eq_false_iff.2 (fun h => ?_)
          have := List.all_eq_true.1 h _ (List.getElem_mem hkl)
          rw [hsk] at this; simp at this
        obtain ⟨v, e1, _, e2⟩ := value_at hi hd hlk (by rw [hsk]; rfl)
        rw [hv _ (hmem hlk (by rw [hsk]; rfl))] at e1
        cases e1
        rw [show at_ m.fitNorms j = .ok _ from at_ok.2 (hs2 ▸ e2 ha)]
        simp only [hfk, Res.ok_bind]
        refine ⟨_, rfl, ?_, ?_⟩
        · simp only [hsum]
          have : PdfLog.takenNorm value log k = value log[k].1.name := by
            have hlk' : log[k]? = some (log[k].1, .indirect) := by rw [hlk, ← hsk]
            unfold PdfLog.takenNorm PdfLog.takenName; rw [hlk']
          rw [this]
        · show _ = rank (fun p : BinnedED α × NormStatus => p.2.fittable) log (k + 1)
          rw [hj, ← hs2, hsk]; rfl)
  obtain ⟨⟨t, j⟩, hl1, hl2, _⟩ := hloop
  refine ⟨ns, j, h1, h2, h3, ?_⟩
  rw [hl1]
  simp only at hl2
  rw [hl2, List.take_of_length_le (by simp)]

theorem values_exist {log : List (BinnedED α × NormStatus)} {m : PdfManager α} (hi : Inv log m) (hd : PdfLog.DistinctNames log) :
    ∀ n ∈ PdfLog.fitted log, m.getParameter n = .ok ((m.getParameter n).toOption.getD 0) := by
  intro n hn
  unfold PdfLog.fitted at hn
  obtain ⟨p, hp, rfl⟩ := List.mem_map.1 hn
  obtain ⟨hp1, hp2⟩ := List.mem_filter.1 hp
  obtain ⟨i, hil, he⟩ := List.mem_iff_getElem.1 hp1
  obtain ⟨v, hv, _⟩ := PdfManager.value_at hi hd (show log[i]? = some p by simp [hil, he]) hp2
  rw [hv]; rfl

end PdfManager

/-- C27, every order: after any history, whatever the order of directly, indirectly and not fitted distributions, the expected content of a
bin is the sum over the distributions of the factor `takenNorm` times the working content: 1 for one that is not fitted, its own parameter for
one fitted indirectly, and for one fitted directly the fitted parameter at the place *number of directly fitted distributions before it*. No
parameter changes. -/
theorem C27_any_order {log : List (BinnedED α × NormStatus)} {m : PdfManager α} (h : PdfManager.Built log m)
    (hd : PdfLog.DistinctNames log) (bin : Nat)
    (hb : ∀ w ∈ m.work, bin < w.hist.nBins ∧ w.hist.contents.length = w.hist.nBins) (value : String → α)
    (hv : ∀ n ∈ PdfLog.fitted log, m.getParameter n = .ok (value n)) :
    ∃ m', m.binProbability bin = .ok ((m.work.zipIdx.map (fun q => PdfLog.takenNorm value log q.2 * q.1.hist.contents.getD bin 0)).sum, m') ∧
      m'.work = m.work ∧ ∀ n, m'.getParameter n = m.getParameter n := by
  have hi := PdfManager.inv_of_built h
  obtain ⟨ns, j, h1, h2, h3, h4⟩ := PdfManager.prob_any hi hd value hv
    (fun w => w.hist.getBinContent bin) (fun w => w.hist.contents.getD bin 0) (by
      intro w hw
      obtain ⟨e1, e2⟩ := hb w hw
      simp only [Histogram.getBinContent]
      rw [if_neg (by omega), idx_of_lt (by omega)]
      simp [List.getD, show bin < w.hist.contents.length by omega])
  refine ⟨{ m with norms := ns }, ?_, rfl, fun n => PdfManager.getParameter_norms hi hd h3 n⟩
  unfold PdfManager.binProbability
  rw [h1]
  simp only [Res.ok_bind]
  rw [h4]
  rfl

/-- Which orders are right: every distribution is scaled by its own parameter exactly when no indirectly fitted distribution precedes a
directly fitted one. -/
theorem C27_order_exact {log : List (BinnedED α × NormStatus)} (hd : PdfLog.DistinctNames log) :
    (∀ i d s, log[i]? = some (d, s) → PdfLog.takenName log i = if s.fittable then some d.name else none) ↔
      PdfLog.Before .direct .indirect log := by
  constructor
  · intro h
    unfold PdfLog.Before
    rw [List.pairwise_iff_getElem]
    intro k i hk hi hki hc
    simp only [List.length_map] at hk hi
    simp only [List.getElem_map] at hc
    have hli : log[i]? = some (log[i].1, .direct) := by rw [List.getElem?_eq_getElem hi, ← hc.2]
    have hlk : log[k]? = some (log[k].1, .indirect) := by rw [List.getElem?_eq_getElem hk, ← hc.1]
    have h1 := h i _ _ hli
    obtain ⟨n, hn1, hn2⟩ := PdfManager.taken_direct hli rfl
    rw [hn2, if_pos (show NormStatus.direct.fittable = true from rfl)] at h1
    have hr := filter_rank (p := fun p : BinnedED α × NormStatus => p.2.fittable) hli rfl
    have hr' : (PdfLog.fitted log)[rank (fun p => p.2.fittable) log i]? = some log[i].1.name := by
      unfold PdfLog.fitted
      rw [List.getElem?_map, hr]; rfl
    rw [Option.some.inj h1] at hn1
    have heq := (List.getElem?_inj (List.getElem?_eq_some_iff.1 hn1).1 hd).1 (hn1.trans hr'.symm)
    rw [PdfLog.numberBefore_eq] at heq
    -- strictly fewer: position k counts on one side only
    have hs1 := rank_succ (p := fun p : BinnedED α × NormStatus => decide (p.2 = .direct)) hlk
    have hs2 := rank_succ (p := fun p : BinnedED α × NormStatus => p.2.fittable) hlk
    have hsplit : ∀ p : BinnedED α × NormStatus → Bool, rank p log i = rank p log (k + 1) + ((log.take i).drop (k + 1)).countP p := by
      intro p
      unfold rank
      rw [← List.countP_append]
      congr 1
      rw [show log.take (k + 1) = (log.take i).take (k + 1) by rw [List.take_take]; congr 1; omega]
      exact (List.take_append_drop _ _).symm
    rw [hsplit, hsplit (fun p => p.2.fittable), hs1, hs2] at heq
    have hm1 : rank (fun p => decide (p.2 = .direct)) log k ≤ rank (fun p : BinnedED α × NormStatus => p.2.fittable) log k :=
      PdfLog.rank_mono (fun a ha => by simp at ha; rw [ha]; rfl) log k
    have hm2 : ((log.take i).drop (k + 1)).countP (fun p => decide (p.2 = .direct)) ≤
        ((log.take i).drop (k + 1)).countP (fun p : BinnedED α × NormStatus => p.2.fittable) :=
      List.countP_mono_left (fun a _ ha => by simp at ha; rw [ha]; rfl)
    simp [NormStatus.fittable] at heq hm1 hm2
    omega
  · intro ho i d s hp
    cases s with
    | off => unfold PdfLog.takenName; rw [hp]; rfl
    | indirect => unfold PdfLog.takenName; rw [hp]; rfl
    | direct =>
      obtain ⟨n, hn1, hn2⟩ := PdfManager.taken_direct hp rfl
      rw [PdfLog.numberBefore_eq, PdfManager.before_rank ho PdfManager.fittable_cases hp rfl] at hn1
      have hr := filter_rank (p := fun p : BinnedED α × NormStatus => p.2.fittable) hp rfl
      have hr' : (PdfLog.fitted log)[rank (fun p => p.2.fittable) log i]? = some d.name := by
        unfold PdfLog.fitted
        rw [List.getElem?_map, hr]; rfl
      rw [hn1] at hr'
      rw [hn2, Option.some.inj hr']; rfl

/-- No distribution is scaled by the parameter of the last directly fitted one if an indirectly fitted one precedes it. -/
theorem PdfLog.never_taken {l₁ l₂ : List (BinnedED α × NormStatus)} {d : BinnedED α}
    (hd : PdfLog.DistinctNames (l₁ ++ (d, .direct) :: l₂)) (hi : ∃ p ∈ l₁, p.2 = .indirect) (hl : ∀ p ∈ l₂, p.2 ≠ .direct) (i : Nat) :
    PdfLog.takenName (l₁ ++ (d, .direct) :: l₂) i ≠ some d.name := by
  set log := l₁ ++ (d, NormStatus.direct) :: l₂ with hlog
  have hplace : log[l₁.length]? = some (d, NormStatus.direct) := by rw [hlog]; simp
  have hr := filter_rank (p := fun p : BinnedED α × NormStatus => p.2.fittable) hplace rfl
  have hr' : (PdfLog.fitted log)[rank (fun p => p.2.fittable) log l₁.length]? = some d.name := by
    unfold PdfLog.fitted
    rw [List.getElem?_map, hr]; rfl
  intro hti
  cases hp' : log[i]? with
  | none => unfold PdfLog.takenName at hti; rw [hp'] at hti; cases hti
  | some p =>
    obtain ⟨q, s⟩ := p
    cases s with
    | off => unfold PdfLog.takenName at hti; rw [hp'] at hti; cases hti
    | indirect =>
      unfold PdfLog.takenName at hti; rw [hp'] at hti
      have hq := filter_rank (p := fun p : BinnedED α × NormStatus => p.2.fittable) hp' rfl
      have hq' : (PdfLog.fitted log)[rank (fun p => p.2.fittable) log i]? = some d.name := by
        unfold PdfLog.fitted
        rw [List.getElem?_map, hq, ← Option.some.inj hti]; rfl
      have heq := (List.getElem?_inj (List.getElem?_eq_some_iff.1 hq').1 hd).1 (hq'.trans hr'.symm)
      rw [heq, hr] at hq
      have := Prod.mk.inj (Option.some.inj hq)
      cases this.2
    | direct =>
      obtain ⟨n, hn1, hn2⟩ := PdfManager.taken_direct hp' rfl
      rw [hti] at hn2
      rw [← Option.some.inj hn2] at hn1
      have heq := (List.getElem?_inj (List.getElem?_eq_some_iff.1 hn1).1 hd).1 (hn1.trans hr'.symm)
      rw [PdfLog.numberBefore_eq] at heq
      have hil : i ≤ l₁.length := by
        by_contra hgt
        have hgt : l₁.length < i := by omega
        obtain ⟨k, rfl⟩ : ∃ k, i = l₁.length + 1 + k := ⟨i - (l₁.length + 1), by omega⟩
        have : l₂[k]? = some (q, NormStatus.direct) := by
          rw [← hp', hlog, List.getElem?_append_right (by omega), show l₁.length + 1 + k - l₁.length = k + 1 by omega]; rfl
        exact hl _ (List.mem_of_getElem? this) rfl
      have hmon : rank (fun p => decide (p.2 = .direct)) log i ≤ rank (fun p : BinnedED α × NormStatus => decide (p.2 = .direct)) log l₁.length := by
        unfold rank
        rw [show log.take i = (log.take l₁.length).take i by rw [List.take_take]; congr 1; omega]
        exact (List.take_sublist _ _).countP_le
      have htake : log.take l₁.length = l₁ := by rw [hlog]; simp
      have hlt : l₁.countP (fun p => decide (p.2 = .direct)) < l₁.countP (fun p : BinnedED α × NormStatus => p.2.fittable) := by
        obtain ⟨p, hp1, hp2⟩ := hi
        obtain ⟨a, b, hab⟩ := List.append_of_mem hp1
        rw [hab]
        simp only [List.countP_append, List.countP_cons, hp2]
        have ha := List.countP_mono_left (l := a) (p := fun p : BinnedED α × NormStatus => decide (p.2 = .direct))
          (q := fun p => p.2.fittable) (fun a _ ha => by simp at ha; rw [ha]; rfl)
        have hb := List.countP_mono_left (l := b) (p := fun p : BinnedED α × NormStatus => decide (p.2 = .direct))
          (q := fun p => p.2.fittable) (fun a _ ha => by simp at ha; rw [ha]; rfl)
        simp [NormStatus.fittable] at ha hb ⊢
        omega
      unfold rank at heq hmon
      rw [htake] at heq hmon
      omega

/-- The parameter taken is a fitted one. -/
theorem PdfLog.takenName_mem {log : List (BinnedED α × NormStatus)} {i : Nat} {n : String} (ht : PdfLog.takenName log i = some n) :
    n ∈ PdfLog.fitted log := by
  unfold PdfLog.takenName at ht
  cases hp' : log[i]? with
  | none => rw [hp'] at ht; cases ht
  | some p =>
    obtain ⟨q, s⟩ := p
    rw [hp'] at ht
    cases s with
    | off => cases ht
    | indirect =>
      rw [← Option.some.inj ht]
      unfold PdfLog.fitted
      exact List.mem_map.2 ⟨_, List.mem_filter.2 ⟨List.mem_of_getElem? hp', rfl⟩, rfl⟩
    | direct => exact List.mem_of_getElem? ht

/-- C27 is false for **every** set of distributions in which an indirectly fitted one precedes the last directly fitted one: the parameter of
that last one has no effect at all: two managers that differ only in its value report the same expected content in every bin. -/
theorem C27_no_effect_wrong {l₁ l₂ : List (BinnedED α × NormStatus)} {d : BinnedED α} {m₁ m₂ : PdfManager α}
    (h₁ : PdfManager.Built (l₁ ++ (d, .direct) :: l₂) m₁) (h₂ : PdfManager.Built (l₁ ++ (d, .direct) :: l₂) m₂)
    (hd : PdfLog.DistinctNames (l₁ ++ (d, .direct) :: l₂)) (hi : ∃ p ∈ l₁, p.2 = .indirect) (hl : ∀ p ∈ l₂, p.2 ≠ .direct)
    (hw : m₁.work = m₂.work) (hp : ∀ n ∈ PdfLog.fitted (l₁ ++ (d, .direct) :: l₂), n ≠ d.name → m₁.getParameter n = m₂.getParameter n)
    (bin : Nat) (hb : ∀ w ∈ m₁.work, bin < w.hist.nBins ∧ w.hist.contents.length = w.hist.nBins) :
    ∃ v m₁' m₂', m₁.binProbability bin = .ok (v, m₁') ∧ m₂.binProbability bin = .ok (v, m₂') := by
  set log := l₁ ++ (d, NormStatus.direct) :: l₂ with hlog
  have i1 := PdfManager.inv_of_built h₁
  have i2 := PdfManager.inv_of_built h₂
  have v1 := PdfManager.values_exist i1 hd
  have v2 := PdfManager.values_exist i2 hd
  obtain ⟨m₁', e1, _⟩ := C27_any_order h₁ hd bin hb _ v1
  obtain ⟨m₂', e2, _⟩ := C27_any_order h₂ hd bin (hw ▸ hb) _ v2
  refine ⟨_, m₁', m₂', e1, ?_⟩
  rw [e2]
  congr 2
  rw [hw]
  congr 1
  refine List.map_congr_left ?_
  rintro ⟨w, i⟩ _
  congr 1
  unfold PdfLog.takenNorm
  simp only
  cases ht : PdfLog.takenName log i with
  | none => rfl
  | some n =>
    simp only
    have hne : n ≠ d.name := fun e => PdfLog.never_taken hd hi hl i (e ▸ ht)
    have hmem : n ∈ PdfLog.fitted log := PdfLog.takenName_mem ht
    rw [hp n hmem hne]

/-- C28, every order: re-asserting the normalisations of one kind gives each distribution of that kind the fitted parameter at the place
*number of distributions of that kind before it*, and leaves all the others; without a distribution that is not directly fitted it changes
nothing. -/
theorem C28_reassert_any_order {log : List (BinnedED α × NormStatus)} {m : PdfManager α} (h : PdfManager.Built log m)
    (hd : PdfLog.DistinctNames log) (b : Bool) (t : NormStatus) (ht : t = if b then NormStatus.direct else NormStatus.indirect) :
    ∃ m', m.reassertNorms b = .ok m' ∧ ((∀ p ∈ log, p.2 = .direct) → m' = m) ∧ ((∃ p ∈ log, p.2 ≠ .direct) →
      ∀ i d s, log[i]? = some (d, s) →
        (s = t → ∃ n v, (PdfLog.fitted log)[PdfLog.numberBefore t log i]? = some n ∧ m.getParameter n = .ok v ∧ m'.norms[i]? = some v) ∧
        (s ≠ t → m'.norms[i]? = m.norms[i]?)) := by
  have hi := PdfManager.inv_of_built h
  by_cases ha : m.allDirect = true
  · refine ⟨m, ?_, fun _ => rfl, ?_⟩
    · unfold PdfManager.reassertNorms; rw [if_pos ha]
    · rintro ⟨p, hp, hne⟩
      have := List.all_eq_true.1 (hi.alld ▸ ha) p hp
      exact absurd (by simpa using this) hne
  · have ha' : m.allDirect = false := by simpa using ha
    obtain ⟨ns, h1, h2, h3⟩ := PdfManager.reassert_ok hi b ha' t ht
    have htf : t.fittable = true := by rw [ht]; cases b <;> rfl
    refine ⟨_, h1, fun hall => absurd ?_ ha, fun _ i d s hp => ⟨fun hs => ?_, fun hs => ?_⟩⟩
    · rw [hi.alld, List.all_eq_true]
      intro p hp; simpa using hall p hp
    · subst hs
      have hlt := PdfLog.taken_lt hp htf rfl
      obtain ⟨hil, _⟩ := List.getElem?_eq_some_iff.1 hp
      have hg := List.getElem?_eq_getElem hlt
      have hmem : (PdfLog.fitted log)[PdfLog.numberBefore s log i] ∈ PdfLog.fitted log := List.getElem_mem hlt
      have hv := PdfManager.values_exist hi hd _ hmem
      refine ⟨_, _, hg, hv, ?_⟩
      show ns[i]? = _
      rw [h3 i hil, if_pos (by simp [hp]), ← PdfLog.numberBefore_eq]
      exact PdfManager.value_place hi hd hg ha' hv
    · obtain ⟨hil, _⟩ := List.getElem?_eq_some_iff.1 hp
      show ns[i]? = _
      rw [h3 i hil, if_neg (by simp [hp, hs])]

/-! ### Non-vacuity -/

/-- Three distributions, the indirectly fitted one in the middle: reachable, distinct, and the last is scaled by the parameter of the middle one. -/
def exOrder : List (BinnedED ℚ × NormStatus) := [(exNormPdf "a" 1 3, .direct), (exNormPdf "b" 2 4, .indirect), (exNormPdf "c" 5 7, .direct)]

example : PdfLog.DistinctNames exOrder ∧ ¬ PdfLog.Before .direct .indirect exOrder ∧ (List.range 3).map (PdfLog.takenName exOrder) = [some "a", some "b", some "b"] := by
  decide +kernel

/-- The hypotheses of `C27_no_effect_wrong` are met by this list, before and after the parameter of `c` changes. -/
example : ∃ m, PdfManager.Built exOrder m ∧ ∃ v m₁' m₂', (m.setParameters [("a", 1), ("b", 2), ("c", 3)]).1.binProbability 0 = .ok (v, m₁') ∧
    (m.setParameters [("a", 1), ("b", 2), ("c", 9)]).1.binProbability 0 = .ok (v, m₂') := by
  obtain ⟨m, h1, h2⟩ := exManager_built exOrder
  have hk : (exManager exOrder >>= fun m => Res.ok (m.work.map (fun w => (w.hist.nBins, w.hist.contents.length)),
      (m.setParameters [("a", 1), ("b", 2), ("c", 3)]).1.work.map (fun w => (w.hist.nBins, w.hist.contents.length)),
      ["a", "b"].map (fun n => (m.setParameters [("a", 1), ("b", 2), ("c", 3)]).1.getParameter n),
      ["a", "b"].map (fun n => (m.setParameters [("a", 1), ("b", 2), ("c", 9)]).1.getParameter n)))
      = .ok ([(2, 2), (2, 2), (2, 2)], [(2, 2), (2, 2), (2, 2)], [.ok 1, .ok 2], [.ok 1, .ok 2]) := by decide +kernel
  rw [h1] at hk
  have hk' := Res.ok.inj hk
  simp only [Prod.mk.injEq, List.map_cons, List.map_nil, List.cons.injEq, and_true] at hk'
  obtain ⟨k1, k2, ⟨k3, k4⟩, k5, k6⟩ := hk'
  refine ⟨m, h2, C27_no_effect_wrong (l₁ := [(exNormPdf "a" 1 3, .direct), (exNormPdf "b" 2 4, .indirect)]) (l₂ := []) (d := exNormPdf "c" 5 7)
    (m₁ := (m.setParameters [("a", 1), ("b", 2), ("c", 3)]).1) (m₂ := (m.setParameters [("a", 1), ("b", 2), ("c", 9)]).1)
    (PdfManager.Built.setParameters _ h2) (PdfManager.Built.setParameters _ h2) (by decide +kernel) ⟨(exNormPdf "b" 2 4, .indirect), by simp, rfl⟩ (by simp) rfl ?_ 0 ?_⟩
  · intro n hn hne
    have hfit : PdfLog.fitted ([(exNormPdf "a" 1 3, NormStatus.direct), (exNormPdf "b" 2 4, NormStatus.indirect)] ++ (exNormPdf "c" 5 7, NormStatus.direct) :: []) = ["a", "b", "c"] := by
      decide +kernel
    rw [hfit] at hn
    simp only [List.mem_cons, List.not_mem_nil, or_false] at hn
    rcases hn with rfl | rfl | rfl
    · rw [k3, k5]
    · rw [k4, k6]
    · exact absurd rfl hne
  · intro w hw
    have : (w.hist.nBins, w.hist.contents.length) ∈ [(2, 2), (2, 2), (2, 2)] := by
      rw [← k2]; exact List.mem_map_of_mem hw
    simp at this
    omega

end Oxsx
