import Verif.Lemmas.Stationary
import Verif.Props.ReflectReverse
import Verif.Props.MCMC
set_option linter.unusedSectionVars false
set_option linter.unusedSimpArgs false
set_option linter.unusedVariables false
namespace Oxsx
open MeasureTheory ProbabilityTheory LeapFrog
open scoped ENNReal

theorem pointDict_keys (ks : List String) (x : Fin ks.length → ℝ) : (pointDict ks x).keys = ks := by
  unfold pointDict SMap.keys
  rw [List.map_ofFn]
  exact List.ofFn_getElem

theorem pointDict_mem {ks : List String} {x : Fin ks.length → ℝ} {y : String × ℝ} : y ∈ pointDict ks x ↔ ∃ i : Fin ks.length, y = (ks[i], x i) := by
  unfold pointDict
  rw [List.mem_ofFn]
  exact ⟨fun ⟨i, h⟩ => ⟨i, h.symm⟩, fun ⟨i, h⟩ => ⟨i, h.symm⟩⟩

/-- Distinct names in alphabetical order, as in every `std::set` and `std::map`. -/
def NamesSorted (ks : List String) : Prop := ks.Pairwise (· < ·)

theorem pointDict_sorted {ks : List String} (hk : NamesSorted ks) (x : Fin ks.length → ℝ) : (pointDict ks x).Sorted := by
  have : ((pointDict ks x).map (·.1)).Pairwise (· < ·) := by
    have := pointDict_keys ks x
    unfold SMap.keys at this
    rw [this]; exact hk
  exact List.pairwise_map.1 this

theorem pointDict_find {ks : List String} (hk : NamesSorted ks) (x : Fin ks.length → ℝ) (i : Fin ks.length) :
    (pointDict ks x).find ks[i] = some (x i) := SMap.find_of_mem (pointDict_sorted hk x) (pointDict_mem.2 ⟨i, rfl⟩)

theorem pointDict_dval {ks : List String} (hk : NamesSorted ks) (x : Fin ks.length → ℝ) (i : Fin ks.length) :
    dval (pointDict ks x) ks[i] = x i := by unfold dval; rw [pointDict_find hk]; rfl

theorem pointDict_at {ks : List String} (hk : NamesSorted ks) (x : Fin ks.length → ℝ) (i : Fin ks.length) :
    MCMC.dictAt (pointDict ks x) ks[i] = .ok (x i) := by unfold MCMC.dictAt; rw [pointDict_find hk]

theorem names_get {ks : List String} {k : String} (h : k ∈ ks) : ∃ i : Fin ks.length, ks[i] = k := by
  obtain ⟨i, hi, e⟩ := List.mem_iff_getElem.1 h
  exact ⟨⟨i, hi⟩, e⟩

/-- A dictionary with these names is the point of its values. -/
theorem eq_pointDict {ks : List String} (hk : NamesSorted ks) {d : ParamDict ℝ} (hd : d.keys = ks) {x : Fin ks.length → ℝ}
    (h : ∀ i : Fin ks.length, d.find ks[i] = some (x i)) : d = pointDict ks x := by
  have hs : d.Sorted := by
    have h2 : (d.map (·.1)).Pairwise (· < ·) := by
      have : d.map (·.1) = ks := hd
      rw [this]; exact hk
    exact List.pairwise_map.1 h2
  refine SMap.ext hs (pointDict_sorted hk x) fun k => ?_
  by_cases hkm : k ∈ ks
  · obtain ⟨i, rfl⟩ := names_get hkm
    rw [h i, pointDict_find hk]
  · rw [(SMap.find_none_iff d k).2 (by rw [hd]; exact hkm), (SMap.find_none_iff _ k).2 (by rw [pointDict_keys]; exact hkm)]

theorem pointDict_inj {ks : List String} {x y : Fin ks.length → ℝ} (h : pointDict ks x = pointDict ks y) : x = y := by
  have := List.ofFn_injective h
  funext i
  have := congrFun this i
  exact (Prod.mk.inj this).2

theorem pointDict_map {ks : List String} (x : Fin ks.length → ℝ) (f : String → ℝ → ℝ) :
    (pointDict ks x).map (fun p => (p.1, f p.1 p.2)) = pointDict ks (fun i => f ks[i] (x i)) := by
  unfold pointDict; rw [List.map_ofFn]; rfl

theorem pointDict_insert {ks : List String} (hk : NamesSorted ks) (x : Fin ks.length → ℝ) (i : Fin ks.length) (v : ℝ) :
    (pointDict ks x).insert ks[i] v = pointDict ks (Function.update x i v) := by
  have hnd : ks.Nodup := hk.imp (fun h => ne_of_lt h)
  refine eq_pointDict hk ?_ ?_
  · rw [keys_insert_mem (pointDict_sorted hk x) (by rw [pointDict_keys]; exact List.getElem_mem _), pointDict_keys]
  · intro j
    rw [SMap.find_insert]
    by_cases h : i = j
    · subst h; simp
    · have : ks[i] ≠ ks[j] := fun e => h (Fin.ext ((List.Nodup.getElem_inj_iff hnd).1 e))
      rw [if_neg this, pointDict_find hk, Function.update_of_ne (Ne.symm h)]

/-- Limits given for every parameter. -/
structure HasLimits (m : MCMC ℝ) (ks : List String) (lo hi : Fin ks.length → ℝ) : Prop where
  low : ∀ i : Fin ks.length, m.minima.find ks[i] = some (lo i)
  high : ∀ i : Fin ks.length, m.maxima.find ks[i] = some (hi i)

open Classical in
theorem MCMC.inBounds_point {m : MCMC ℝ} {ks : List String} (hk : NamesSorted ks) {lo hi : Fin ks.length → ℝ} (h : HasLimits m ks lo hi) (x : Fin ks.length → ℝ) :
    m.inBounds (pointDict ks x) ks = .ok (decide (x ∈ limitBox lo hi)) := by
  have gen : ∀ l : List String, (∀ k ∈ l, k ∈ ks) →
      m.inBounds (pointDict ks x) l = .ok (decide (∀ i : Fin ks.length, ks[i] ∈ l → lo i ≤ x i ∧ x i ≤ hi i)) := by
    intro l
    induction l with
    | nil => intro _; simp [MCMC.inBounds]
    | cons k l ih =>
      intro hl
      obtain ⟨i, rfl⟩ := names_get (hl k (by simp))
      have ih := ih (fun k hk => hl k (by simp [hk]))
      have hmin : MCMC.dictAt m.minima ks[i] = .ok (lo i) := by unfold MCMC.dictAt; rw [h.low i]
      have hmax : MCMC.dictAt m.maxima ks[i] = .ok (hi i) := by unfold MCMC.dictAt; rw [h.high i]
      unfold MCMC.inBounds
      rw [pointDict_at hk, Res.ok_bind, hmin, Res.ok_bind]
      by_cases h1 : x i < lo i
      · rw [if_pos h1]
        congr 1; symm; rw [decide_eq_false_iff_not]
        intro hh; exact absurd (hh i (by simp)).1 (not_le.2 h1)
      · rw [if_neg h1, hmax, Res.ok_bind]
        by_cases h2 : x i > hi i
        · rw [if_pos h2]
          congr 1; symm; rw [decide_eq_false_iff_not]
          intro hh; exact absurd (hh i (by simp)).2 (not_le.2 h2)
        · rw [if_neg h2, ih]
          congr 2
          rw [eq_iff_iff]
          constructor
          · intro hh j hj
            rcases List.mem_cons.1 hj with e | e
            · have : j = i := Fin.ext ((List.Nodup.getElem_inj_iff (hk.imp (fun h => ne_of_lt h))).1 e)
              subst this; exact ⟨not_lt.1 h1, not_lt.1 h2⟩
            · exact hh j e
          · intro hh j hj; exact hh j (List.mem_cons_of_mem _ hj)
  rw [gen ks (fun _ h => h)]
  congr 2
  rw [eq_iff_iff]
  exact ⟨fun hh i => hh i (List.getElem_mem _), fun hh i _ => hh i⟩

/-- The value of the statistic as the chain compares it. -/
def chainValue (m : MCMC ℝ) {n : Nat} (V : (Fin n → ℝ) → ℝ) (x : Fin n → ℝ) : ℝ := if m.flip then - V x else V x

/-- The density the chain samples: the exponential of a logged value, or the value. -/
noncomputable def chainDensity (m : MCMC ℝ) {n : Nat} (V : (Fin n → ℝ) → ℝ) (x : Fin n → ℝ) : ℝ :=
  if m.logged then Real.exp (chainValue m V x) else chainValue m V x

theorem MCMC.value_point {m : MCMC ℝ} {t : TestStat ℝ} {ks : List String} {V : (Fin ks.length → ℝ) → ℝ} {x : Fin ks.length → ℝ}
    (hV : t.eval (pointDict ks x) = .ok (V x)) : m.value t (pointDict ks x) = .ok (chainValue m V x) := by
  unfold MCMC.value; rw [hV]; rfl

/-- The chain is at a point, with the value there. -/
structure ChainAt (m st : MCMC ℝ) (ks : List String) (V : (Fin ks.length → ℝ) → ℝ) (x : Fin ks.length → ℝ) : Prop where
  step : st.curStep = pointDict ks x
  val : st.curVal = chainValue m V x
  flip : st.flip = m.flip
  logged : st.logged = m.logged
  minima : st.minima = m.minima
  maxima : st.maxima = m.maxima

open Classical in
/-- Where the chain is after proposing `y` from `x`. -/
noncomputable def moveTo (m : MCMC ℝ) {n : Nat} (lo hi : Fin n → ℝ) (V : (Fin n → ℝ) → ℝ) (x y : Fin n → ℝ) (corr u : ℝ) : Fin n → ℝ :=
  if y ∈ limitBox lo hi ∧ MCMC.accepts Real.exp m.logged (chainValue m V y) (chainValue m V x) corr u = true then y else x

open Classical in
theorem MCMC.stepAccepted_point {m st : MCMC ℝ} {t : TestStat ℝ} {ks : List String} (hk : NamesSorted ks) {lo hi : Fin ks.length → ℝ} (h : HasLimits m ks lo hi)
    {V : (Fin ks.length → ℝ) → ℝ} (hV : ∀ x ∈ limitBox lo hi, t.eval (pointDict ks x) = .ok (V x)) {x : Fin ks.length → ℝ} (hx : ChainAt m st ks V x) (y : Fin ks.length → ℝ) (corr u : ℝ) :
    ∃ r, st.stepAccepted Real.exp t (pointDict ks y) corr u = .ok r ∧ ChainAt m r.1 ks V (moveTo m lo hi V x y corr u) := by
  have hlim : HasLimits st ks lo hi := ⟨by rw [hx.minima]; exact h.low, by rw [hx.maxima]; exact h.high⟩
  unfold MCMC.stepAccepted
  rw [hx.step, pointDict_keys, MCMC.inBounds_point hk hlim, Res.ok_bind]
  have hval : y ∈ limitBox lo hi → st.value t (pointDict ks y) = .ok (chainValue m V y) := by
    intro hy; rw [MCMC.value_point (hV y hy)]; unfold chainValue; rw [hx.flip]
  by_cases hb : y ∈ limitBox lo hi
  · simp only [hb, decide_true, if_true, hval hb, Res.ok_bind]
    refine ⟨_, rfl, ?_⟩
    have hn : st.noteBest.curVal = st.curVal ∧ st.noteBest.curStep = st.curStep ∧ st.noteBest.logged = st.logged ∧ st.noteBest.flip = st.flip ∧
        st.noteBest.minima = st.minima ∧ st.noteBest.maxima = st.maxima := by unfold MCMC.noteBest; split <;> exact ⟨rfl, rfl, rfl, rfl, rfl, rfl⟩
    obtain ⟨n1, n2, n3, n4, n5, n6⟩ := hn
    unfold MCMC.decideStep moveTo
    rw [n1, n3, hx.logged, hx.val]
    by_cases ha : MCMC.accepts Real.exp m.logged (chainValue m V y) (chainValue m V x) corr u = true
    · simp only [ha, hb, and_self, if_true]
      exact ⟨rfl, rfl, n4.trans hx.flip, rfl, n5.trans hx.minima, n6.trans hx.maxima⟩
    · simp only [ha, hb, and_false, if_false]
      exact ⟨n2.trans hx.step, n1.trans hx.val, n4.trans hx.flip, n3.trans hx.logged, n5.trans hx.minima, n6.trans hx.maxima⟩
  · simp only [hb, decide_false, Bool.false_eq_true, if_false]
    refine ⟨_, rfl, ?_⟩
    unfold moveTo
    simp only [hb, false_and, if_false]
    exact ⟨hx.step, hx.val, hx.flip, hx.logged, hx.minima, hx.maxima⟩

theorem MCMC.iterate_point {m st st' : MCMC ℝ} {t : TestStat ℝ} {ks : List String} (hk : NamesSorted ks) {lo hi : Fin ks.length → ℝ} (h : HasLimits m ks lo hi)
    {V : (Fin ks.length → ℝ) → ℝ} (hV : ∀ x ∈ limitBox lo hi, t.eval (pointDict ks x) = .ok (V x)) {x y : Fin ks.length → ℝ} (hx : ChainAt m st ks V x) {i : MCInput ℝ} {corr : ℝ}
    (hd : i.draw (pointDict ks x) = .ok (pointDict ks y, corr)) (hs : st.iterate Real.exp t i = .ok st') :
    ChainAt m st' ks V (moveTo m lo hi V x y corr i.unif) := by
  unfold MCMC.iterate at hs
  rw [hx.step, hd, Res.ok_bind] at hs
  obtain ⟨r, hr, hs⟩ := Res.bind_eq_ok.1 hs
  obtain ⟨sm, hsm, hs⟩ := Res.bind_eq_ok.1 hs
  cases Res.ok.inj hs
  obtain ⟨r', hr', c⟩ := MCMC.stepAccepted_point hk h hV hx y corr i.unif
  cases Res.ok.inj (hr.symm.trans hr')
  exact ⟨c.step, c.val, c.flip, c.logged, c.minima, c.maxima⟩

end Oxsx
