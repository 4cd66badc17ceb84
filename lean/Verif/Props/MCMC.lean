import Verif.Model.MCMC
import Verif.Spec.MCMC
import Verif.Props.MCMCSamples
import Mathlib.Analysis.SpecialFunctions.Exp
import Mathlib.MeasureTheory.Measure.Lebesgue.Basic
set_option linter.unusedSectionVars false
set_option linter.unusedSimpArgs false
set_option linter.unusedVariables false
/-
C53: the Markov chain. C74: its acceptance rule.
-/
namespace Oxsx
open Spec
variable {α : Type} [Field α] [LinearOrder α] [IsStrictOrderedRing α]

/-- The samplers' randomness as the specification sees it. -/
def MCInput.spec (i : MCInput α) : (ParamDict α → Option (ParamDict α × α)) × α := (fun x => (i.draw x).toOption, i.unif)

/-- A sampler proposes values for exactly the parameters it is given. -/
def MCInput.KeepsNames (i : MCInput α) : Prop := ∀ x y c, i.draw x = .ok (y, c) → y.keys = x.keys

/-- The points of a chain with their values, starting point first. -/
def visited (x : ParamDict α) (v : α) (h : List (ChainStep α)) : List (ParamDict α × α) := (x, v) :: h.map (fun s => (s.params, s.val))

theorem MCMC.dictAt_ok {m : ParamDict α} {n : String} {v : α} (h : MCMC.dictAt m n = .ok v) : m.find n = some v := by
  unfold MCMC.dictAt at h; split at h <;> simp_all

theorem MCMC.inBounds_iff {m : MCMC α} {p : ParamDict α} {ns : List String} {b : Bool} (h : m.inBounds p ns = .ok b) :
    b = true ↔ InBox ns m.minima m.maxima p := by
  induction ns with
  | nil => cases h; simp [InBox]
  | cons n ns ih =>
    unfold MCMC.inBounds at h
    obtain ⟨v, hv, h⟩ := Res.bind_eq_ok.1 h
    obtain ⟨lo, hlo, h⟩ := Res.bind_eq_ok.1 h
    have hv := MCMC.dictAt_ok hv
    have hlo := MCMC.dictAt_ok hlo
    split at h
    · rename_i hlt
      cases h
      simp only [Bool.false_eq_true, false_iff]
      intro hb
      obtain ⟨a, b, w, h1, h2, h3, h4, h5⟩ := hb n List.mem_cons_self
      rw [hlo] at h1; rw [hv] at h3; cases h1; cases h3
      exact absurd hlt (not_lt.2 h4)
    · rename_i hge
      obtain ⟨hi, hhi, h⟩ := Res.bind_eq_ok.1 h
      have hhi := MCMC.dictAt_ok hhi
      split at h
      · rename_i hgt
        cases h
        simp only [Bool.false_eq_true, false_iff]
        intro hb
        obtain ⟨a, b, w, h1, h2, h3, h4, h5⟩ := hb n List.mem_cons_self
        rw [hhi] at h2; rw [hv] at h3; cases h2; cases h3
        exact absurd hgt (not_lt.2 h5)
      · rename_i hle
        rw [ih h]
        constructor
        · intro hb k hk
          rcases List.mem_cons.1 hk with rfl | hk
          · exact ⟨lo, hi, v, hlo, hhi, hv, not_lt.1 hge, not_lt.1 hle⟩
          · exact hb k hk
        · intro hb k hk; exact hb k (List.mem_cons_of_mem _ hk)

/-- The code's decision is the specified one. -/
theorem MCMC.accepts_iff (ex : α → α) (lg : Bool) (w v c : α) {u : α} (hu : u ≤ 1) : MCMC.accepts ex lg w v c u = true ↔ Taken ex lg w v c u := by
  have key : ∀ r : α, (r > 1 ∨ r ≥ u) ↔ u ≤ min 1 r := by
    intro r
    rw [le_min_iff]
    constructor
    · rintro (h | h)
      · exact ⟨hu, hu.trans h.le⟩
      · exact ⟨hu, h⟩
    · rintro ⟨_, h⟩; exact .inr h
  unfold MCMC.accepts Taken
  split
  · simp only [decide_eq_true_eq, key]
  · split
    · simp
    · simp only [decide_eq_true_eq, key]

/-- What stays the same during a run. -/
structure MCMC.SameSetup (m m' : MCMC α) : Prop where
  logged : m'.logged = m.logged
  flip : m'.flip = m.flip
  minima : m'.minima = m.minima
  maxima : m'.maxima = m.maxima
  nGuess : m'.nGuess = m.nGuess

theorem MCMC.SameSetup.refl (m : MCMC α) : m.SameSetup m := ⟨rfl, rfl, rfl, rfl, rfl⟩
theorem MCMC.SameSetup.trans {a b c : MCMC α} (h : a.SameSetup b) (k : b.SameSetup c) : a.SameSetup c :=
  ⟨k.logged.trans h.logged, k.flip.trans h.flip, k.minima.trans h.minima, k.maxima.trans h.maxima, k.nGuess.trans h.nGuess⟩
theorem MCMC.SameSetup.bounds {a b : MCMC α} (h : a.SameSetup b) : b.bounds = a.bounds := by
  unfold MCMC.bounds; rw [h.minima, h.maxima, h.nGuess]
theorem MCMC.SameSetup.value {a b : MCMC α} (h : a.SameSetup b) (t : TestStat α) (p : ParamDict α) : b.value t p = a.value t p := by
  unfold MCMC.value; rw [h.flip]

theorem MCMC.noteBest_same (m : MCMC α) : m.SameSetup m.noteBest ∧ m.noteBest.curStep = m.curStep ∧ m.noteBest.curVal = m.curVal ∧
    m.noteBest.samples = m.samples := by
  unfold MCMC.noteBest; split <;> exact ⟨⟨rfl, rfl, rfl, rfl, rfl⟩, rfl, rfl, rfl⟩

/-- One iteration. -/
theorem MCMC.iterate_ok {ex : α → α} {t : TestStat α} {m m' : MCMC α} {i : MCInput α} (hu : i.unif ≤ 1) (h : m.iterate ex t i = .ok m') :
    ∃ y c acc, i.draw m.curStep = .ok (y, c) ∧ m.SameSetup m' ∧ m.samples.fill m.bounds m'.curStep m'.curVal acc = .ok m'.samples ∧
      ((InBox m.curStep.keys m.minima m.maxima y ∧ ∃ w, m.value t y = .ok w ∧ m'.bestFit = m.noteBest.bestFit ∧ m'.maxVal = m.noteBest.maxVal ∧
          ((Taken ex m.logged w m.curVal c i.unif ∧ m'.curStep = y ∧ m'.curVal = w ∧ acc = true) ∨
           (¬ Taken ex m.logged w m.curVal c i.unif ∧ m'.curStep = m.curStep ∧ m'.curVal = m.curVal ∧ acc = false))) ∨
       (¬ InBox m.curStep.keys m.minima m.maxima y ∧ m'.curStep = m.curStep ∧ m'.curVal = m.curVal ∧ acc = false ∧
          m'.bestFit = m.bestFit ∧ m'.maxVal = m.maxVal)) := by
  unfold MCMC.iterate at h
  obtain ⟨⟨y, c⟩, hd, h⟩ := Res.bind_eq_ok.1 h
  obtain ⟨⟨m1, acc⟩, hs, h⟩ := Res.bind_eq_ok.1 h
  obtain ⟨s, hf, h⟩ := Res.bind_eq_ok.1 h
  cases h
  refine ⟨y, c, acc, hd, ?_⟩
  unfold MCMC.stepAccepted at hs
  obtain ⟨b, hb, hs⟩ := Res.bind_eq_ok.1 hs
  have hb' := MCMC.inBounds_iff hb
  split at hs
  · rename_i htrue
    obtain ⟨w, hw, hs⟩ := Res.bind_eq_ok.1 hs
    obtain ⟨k1, k2, k3, k4⟩ := m.noteBest_same
    have hs := Res.ok.inj hs
    unfold MCMC.decideStep at hs
    rw [k3, k1.logged] at hs
    split at hs
    · rename_i ht
      cases hs
      simp only at hf
      refine ⟨⟨rfl, k1.flip, k1.minima, k1.maxima, k1.nGuess⟩, ?_, .inl ⟨hb'.1 htrue, w, hw, rfl, rfl, .inl ⟨(MCMC.accepts_iff _ _ _ _ _ hu).1 ht, rfl, rfl, rfl⟩⟩⟩
      rw [← k4, ← k1.bounds]; exact hf
    · rename_i ht
      cases hs
      simp only at hf
      refine ⟨⟨k1.logged, k1.flip, k1.minima, k1.maxima, k1.nGuess⟩, ?_, .inl ⟨hb'.1 htrue, w, hw, rfl, rfl, .inr ⟨fun h => ht ((MCMC.accepts_iff _ _ _ _ _ hu).2 h), k2, k3, rfl⟩⟩⟩
      rw [← k4, ← k1.bounds]; exact hf
  · rename_i hfalse
    cases hs
    exact ⟨⟨rfl, rfl, rfl, rfl, rfl⟩, hf, .inr ⟨fun h => hfalse (hb'.2 h), rfl, rfl, rfl, rfl, rfl⟩⟩

/-- The loop: the chain it goes through and the best point it keeps. -/
theorem MCMC.loop_ok {ex : α → α} {t : TestStat α} {m m' : MCMC α} {ins : List (MCInput α)} (hu : ∀ i ∈ ins, i.unif ≤ 1)
    (hk : ∀ i ∈ ins, i.KeepsNames) (h : Res.forFold (MCMC.iterate ex t) m ins = .ok m') :
    ∃ c : List (ChainStep α), c.length = ins.length ∧ m.samples.fillAll m.bounds c = .ok m'.samples ∧ m.SameSetup m' ∧
      Walk ex m.logged (InBox m.curStep.keys m.minima m.maxima) (fun p v => m.value t p = .ok v) m.curStep m.curVal (ins.map MCInput.spec) c ∧
      (visited m.curStep m.curVal c).getLast? = some (m'.curStep, m'.curVal) ∧
      ((m'.bestFit, m'.maxVal) ∈ (m.bestFit, m.maxVal) :: visited m.curStep m.curVal c) ∧ m.maxVal ≤ m'.maxVal ∧
      ∀ p ∈ visited m.curStep m.curVal c, p.2 ≤ m'.maxVal ∨ p = (m'.curStep, m'.curVal) := by
  induction ins generalizing m with
  | nil =>
    cases h
    exact ⟨[], rfl, rfl, .refl _, .nil, rfl, by simp, le_refl _, by simp [visited]⟩
  | cons i ins ih =>
    obtain ⟨m1, h1, h2⟩ := Res.forFold_cons_eq_ok.1 h
    obtain ⟨y, c, acc, hd, hsame, hfill, hcase⟩ := MCMC.iterate_ok (hu i List.mem_cons_self) h1
    obtain ⟨ch, e1, e2, e3, e4, e5, e6, e7, e8⟩ := ih (fun j hj => hu j (List.mem_cons_of_mem _ hj)) (fun j hj => hk j (List.mem_cons_of_mem _ hj)) h2
    have hkeys : m1.curStep.keys = m.curStep.keys := by
      rcases hcase with ⟨_, w, _, _, _, ⟨_, a, _⟩ | ⟨_, a, _⟩⟩ | ⟨_, a, _⟩
      · rw [a]; exact hk i List.mem_cons_self _ _ _ hd
      · rw [a]
      · rw [a]
    have hval : (fun p v => m1.value t p = .ok v) = (fun p v => m.value t p = .ok v) := by
      funext p v; rw [hsame.value]
    rw [hkeys, hsame.minima, hsame.maxima, hsame.logged, hval] at e4
    have hspec : MCInput.spec i = (fun x => (i.draw x).toOption, i.unif) := rfl
    have hd' : (fun x => (i.draw x).toOption) m.curStep = some (y, c) := by simp only; rw [hd]; rfl
    -- what the loop does with the best point
    have hnb : m.maxVal ≤ m.noteBest.maxVal ∧ m.curVal ≤ m.noteBest.maxVal ∧
        (m.noteBest.bestFit, m.noteBest.maxVal) ∈ [(m.bestFit, m.maxVal), (m.curStep, m.curVal)] := by
      unfold MCMC.noteBest
      split
      · rename_i hgt; exact ⟨hgt.le, le_refl _, by simp⟩
      · rename_i hle; exact ⟨le_refl _, not_lt.1 hle, by simp⟩
    refine ⟨⟨m1.curStep, m1.curVal, acc⟩ :: ch, by simp [e1], ?_, hsame.trans e3, ?_, ?_, ?_, ?_, ?_⟩
    · refine Res.forFold_cons_eq_ok.2 ⟨m1.samples, hfill, ?_⟩
      rw [hsame.bounds] at e2; exact e2
    · rw [List.map_cons, hspec]
      rcases hcase with ⟨hb, w, hw, _, _, ⟨ht, a1, a2, a3⟩ | ⟨ht, a1, a2, a3⟩⟩ | ⟨hb, a1, a2, a3, _, _⟩
      · rw [a1, a2] at e4 ⊢; rw [a3]
        exact .accept hd' hb hw ht e4
      · rw [a1, a2] at e4 ⊢; rw [a3]
        exact .reject hd' hb hw ht e4
      · rw [a1, a2] at e4 ⊢; rw [a3]
        exact .outside hd' hb e4
    · simp only [visited, List.map_cons] at e5 ⊢
      rw [List.getLast?_cons_cons]; exact e5
    · have hv : visited m.curStep m.curVal (⟨m1.curStep, m1.curVal, acc⟩ :: ch) = (m.curStep, m.curVal) :: visited m1.curStep m1.curVal ch := rfl
      rw [hv]
      rcases List.mem_cons.1 e6 with e6 | e6
      · rw [e6]
        rcases hcase with ⟨hb, w, hw, b1, b2, _⟩ | ⟨hb, a1, a2, a3, b1, b2⟩
        · rw [b1, b2]
          have := hnb.2.2
          simp only [List.mem_cons, List.not_mem_nil, or_false] at this ⊢
          rcases this with h | h
          · exact .inl h
          · exact .inr (.inl h)
        · rw [b1, b2]; exact List.mem_cons_self
      · exact List.mem_cons_of_mem _ (List.mem_cons_of_mem _ e6)
    · rcases hcase with ⟨hb, w, hw, b1, b2, _⟩ | ⟨hb, a1, a2, a3, b1, b2⟩
      · rw [b2] at e7; exact hnb.1.trans e7
      · rw [b2] at e7; exact e7
    · intro p hp
      have hv : visited m.curStep m.curVal (⟨m1.curStep, m1.curVal, acc⟩ :: ch) = (m.curStep, m.curVal) :: visited m1.curStep m1.curVal ch := rfl
      rw [hv] at hp
      rcases List.mem_cons.1 hp with rfl | hp
      · rcases hcase with ⟨hb, w, hw, b1, b2, _⟩ | ⟨hb, a1, a2, a3, b1, b2⟩
        · rw [b2] at e7; exact .inl (hnb.2.1.trans e7)
        · have := e8 (m1.curStep, m1.curVal) List.mem_cons_self
          rw [a1, a2] at this; exact this
      · exact e8 p hp

/-- Set up for a statistic: one minimum, one maximum and (if given) one initial value for each of its parameters; nothing left over in the
current step from fits of other parameters. -/
structure MCMC.Ready (m : MCMC α) (t : TestStat α) : Prop where
  names : t.names.Pairwise (· < ·)
  minima : m.minima.keys = t.names
  maxima : m.maxima.keys = t.names
  trial : m.trial = [] ∨ m.trial.keys = t.names
  cur : m.curStep.Sorted ∧ ∀ k ∈ m.curStep.keys, k ∈ t.names

theorem insertNew_mem {β : Type} {m : SMap β} {k : String} {v : β} (h : k ∈ m.keys) : m.insertNew k v = m := by
  unfold SMap.insertNew
  have := (SMap.find_isSome_iff m k).2 h
  split
  · rfl
  · simp_all

/-- The random starting point, coordinate by coordinate. -/
theorem MCMC.random_start {r : String → α} {m : MCMC α} {ns : List String} (hmin : ∀ n ∈ ns, n ∈ m.minima.keys) (hmax : ∀ n ∈ ns, n ∈ m.maxima.keys)
    (hs : m.curStep.Sorted) :
    m.SameSetup (ns.foldl (MCMC.randomCoord r) m) ∧ (ns.foldl (MCMC.randomCoord r) m).samples = m.samples ∧
    (ns.foldl (MCMC.randomCoord r) m).maxIter = m.maxIter ∧ (ns.foldl (MCMC.randomCoord r) m).curStep.Sorted ∧
    ∀ k, (ns.foldl (MCMC.randomCoord r) m).curStep.find k =
      if k ∈ ns then some ((m.minima.find k).getD 0 + r k * ((m.maxima.find k).getD 0 - (m.minima.find k).getD 0)) else m.curStep.find k := by
  induction ns generalizing m with
  | nil => exact ⟨.refl _, rfl, rfl, hs, by simp⟩
  | cons n ns ih =>
    have e : MCMC.randomCoord r m n = { m with curStep := m.curStep.insert n ((m.minima.find n).getD 0 + r n * ((m.maxima.find n).getD 0 - (m.minima.find n).getD 0)) } := by
      unfold MCMC.randomCoord
      simp only [insertNew_mem (hmin n List.mem_cons_self), insertNew_mem (hmax n List.mem_cons_self)]
    rw [List.foldl_cons, e]
    obtain ⟨a1, a2, a3, a4, a5⟩ := ih (m := { m with curStep := m.curStep.insert n ((m.minima.find n).getD 0 + r n * ((m.maxima.find n).getD 0 - (m.minima.find n).getD 0)) })
      (fun k hk => hmin k (List.mem_cons_of_mem _ hk)) (fun k hk => hmax k (List.mem_cons_of_mem _ hk)) (SMap.sorted_insert hs _ _)
    refine ⟨⟨a1.logged, a1.flip, a1.minima, a1.maxima, a1.nGuess⟩, a2, a3, a4, ?_⟩
    intro k
    rw [a5 k]
    by_cases hk : k ∈ ns
    · rw [if_pos hk, if_pos (List.mem_cons_of_mem _ hk)]
    · rw [if_neg hk, SMap.find_insert]
      by_cases hkn : n = k
      · subst hkn; rw [if_pos rfl, if_pos List.mem_cons_self]
      · rw [if_neg hkn, if_neg (by simp only [List.mem_cons, not_or]; exact ⟨fun h => hkn h.symm, hk⟩)]

theorem MCMC.start_ok {r : String → α} {m : MCMC α} {t : TestStat α} (hr : m.Ready t) :
    m.SameSetup (m.start r t) ∧ (m.start r t).samples = m.samples ∧ (m.start r t).maxIter = m.maxIter ∧ (m.start r t).curStep.keys = t.names := by
  unfold MCMC.start
  split
  · rename_i h
    refine ⟨⟨rfl, rfl, rfl, rfl, rfl⟩, rfl, rfl, ?_⟩
    rcases hr.trial with h' | h'
    · simp [h'] at h
    · exact h'
  · obtain ⟨a1, a2, a3, a4, a5⟩ := MCMC.random_start (r := r) (m := m) (ns := t.names) (by rw [hr.minima]; exact fun _ h => h) (by rw [hr.maxima]; exact fun _ h => h) hr.cur.1
    refine ⟨a1, a2, a3, ?_⟩
    refine SMap.sortedNames_ext (SMap.sorted_keys a4) hr.names ?_
    intro k
    rw [← SMap.find_isSome_iff, a5 k]
    by_cases hk : k ∈ t.names
    · simp [hk]
    · rw [if_neg hk, SMap.find_isSome_iff]
      exact ⟨fun h => absurd (hr.cur.2 k h) hk, fun h => absurd h hk⟩

/-- C53, the run: from its starting point the code does a Metropolis-Hastings walk in the box given by the minima and maxima for the
(signed) statistic, one step per iteration, and its sample store is filled with exactly these steps. -/
theorem C53_chain {ex : α → α} {t : TestStat α} {m m' : MCMC α} {r : String → α} {ins : List (MCInput α)} {res : MCMCResult α}
    (hr : m.Ready t) (hu : ∀ i ∈ ins, i.unif ≤ 1) (hk : ∀ i ∈ ins, i.KeepsNames) (hl : ins.length = m.maxIter)
    (h : m.optimise ex t r ins = .ok (m', res)) :
    ∃ v0 c, m.value t (m.start r t).curStep = .ok v0 ∧ c.length = m.maxIter ∧ m.samples.fillAll m.bounds c = .ok m'.samples ∧
      Walk ex m.logged (InBox t.names m.minima m.maxima) (fun p v => m.value t p = .ok v) (m.start r t).curStep v0 (ins.map MCInput.spec) c ∧
      res.valid = true ∧ (res.bestFit, res.extremeVal) ∈ visited (m.start r t).curStep v0 c ∧
      ∀ p ∈ visited (m.start r t).curStep v0 c, p.2 ≤ res.extremeVal ∨ some p = (visited (m.start r t).curStep v0 c).getLast? := by
  unfold MCMC.optimise at h
  split at h
  · cases h
  · obtain ⟨m0, h0, h⟩ := Res.bind_eq_ok.1 h
    obtain ⟨m1, h1, h⟩ := Res.bind_eq_ok.1 h
    cases h
    obtain ⟨s1, s2, s3, s4⟩ := MCMC.start_ok (r := r) hr
    have hfacts : ∃ v0, m.value t (m.start r t).curStep = .ok v0 ∧ m.SameSetup m0 ∧ m0.samples = m.samples ∧ m0.maxIter = m.maxIter ∧
        m0.curStep = (m.start r t).curStep ∧ m0.curVal = v0 ∧ m0.bestFit = (m.start r t).curStep ∧ m0.maxVal = v0 := by
      unfold MCMC.begin_ at h0
      obtain ⟨v0, hv0, h0⟩ := Res.bind_eq_ok.1 h0
      cases h0
      exact ⟨v0, by rw [← s1.value]; exact hv0, ⟨s1.logged, s1.flip, s1.minima, s1.maxima, s1.nGuess⟩, s2, s3, rfl, rfl, rfl, rfl⟩
    obtain ⟨v0, hv0, f1, f2, f3, f4, f5, f6, f7⟩ := hfacts
    rw [f3, ← hl, List.take_length] at h1
    obtain ⟨c, e1, e2, e3, e4, e5, e6, e7, e8⟩ := MCMC.loop_ok hu hk h1
    rw [f1.bounds, f2] at e2
    have hval : (fun p v => m0.value t p = .ok v) = (fun p v => m.value t p = .ok v) := by funext p v; rw [f1.value]
    rw [f1.logged, f4, s4, f1.minima, f1.maxima, hval, f5] at e4
    rw [f4, f5] at e5 e6 e8
    refine ⟨v0, c, hv0, by rw [e1, hl], e2, e4, rfl, ?_, ?_⟩
    · rcases List.mem_cons.1 e6 with e6 | e6
      · simp only at e6 ⊢; rw [e6, f6, f7]; exact List.mem_cons_self
      · exact e6
    · intro p hp
      rcases e8 p hp with h | h
      · exact .inl h
      · right; rw [e5, h]

/-- A walk starting in the box stays in the box. -/
theorem Spec.Walk.inBox {ex : α → α} {lg : Bool} {B : ParamDict α → Prop} {V : ParamDict α → α → Prop} {x : ParamDict α} {v : α} {l c}
    (h : Walk ex lg B V x v l c) (hx : B x) : ∀ s ∈ c, B s.params := by
  induction h with
  | nil => simp
  | accept _ hb _ _ _ ih => intro s hs; rcases List.mem_cons.1 hs with rfl | hs; exacts [hb, ih hb s hs]
  | reject _ _ _ _ _ ih => intro s hs; rcases List.mem_cons.1 hs with rfl | hs; exacts [hx, ih hx s hs]
  | outside _ _ _ ih => intro s hs; rcases List.mem_cons.1 hs with rfl | hs; exacts [hx, ih hx s hs]

/-- Every point of a walk carries its own value. -/
theorem Spec.Walk.value {ex : α → α} {lg : Bool} {B : ParamDict α → Prop} {V : ParamDict α → α → Prop} {x : ParamDict α} {v : α} {l c}
    (h : Walk ex lg B V x v l c) (hx : V x v) : ∀ p ∈ visited x v c, V p.1 p.2 := by
  induction h with
  | nil => simpa [visited] using hx
  | accept _ _ hv _ _ ih => intro p hp; rcases List.mem_cons.1 hp with rfl | hp; exacts [hx, ih hv p hp]
  | reject _ _ _ _ _ ih => intro p hp; rcases List.mem_cons.1 hp with rfl | hp; exacts [hx, ih hx p hp]
  | outside _ _ _ ih => intro p hp; rcases List.mem_cons.1 hp with rfl | hp; exacts [hx, ih hx p hp]

/-- In a walk a step that was not accepted repeats the previous one. -/
theorem Spec.Walk.stays {ex : α → α} {lg : Bool} {B : ParamDict α → Prop} {V : ParamDict α → α → Prop} {x : ParamDict α} {v : α} {l c}
    (h : Walk ex lg B V x v l c) : ∀ (k : Nat) s, c[k]? = some s → s.accepted = false → (visited x v c)[k]? = some (s.params, s.val) := by
  induction h with
  | nil => simp
  | accept _ _ hv _ _ ih =>
    intro k s hs hf
    cases k with
    | zero => simp at hs; subst hs; simp at hf
    | succ k => exact ih k s (by simpa using hs) hf
  | reject _ _ _ _ _ ih =>
    intro k s hs hf
    cases k with
    | zero => simp at hs; subst hs; rfl
    | succ k => exact ih k s (by simpa using hs) hf
  | outside _ _ _ ih =>
    intro k s hs hf
    cases k with
    | zero => simp at hs; subst hs; rfl
    | succ k => exact ih k s (by simpa using hs) hf

/-- C53, within bounds: if the starting point is within the minima and maxima, so is every step put into the sample store. -/
theorem C53_in_bounds {ex : α → α} {t : TestStat α} {m m' : MCMC α} {r : String → α} {ins : List (MCInput α)} {res : MCMCResult α}
    (hr : m.Ready t) (hu : ∀ i ∈ ins, i.unif ≤ 1) (hk : ∀ i ∈ ins, i.KeepsNames) (hl : ins.length = m.maxIter)
    (h : m.optimise ex t r ins = .ok (m', res)) (hx : InBox t.names m.minima m.maxima (m.start r t).curStep) :
    ∃ c, c.length = m.maxIter ∧ m.samples.fillAll m.bounds c = .ok m'.samples ∧ (∀ s ∈ c, InBox t.names m.minima m.maxima s.params) ∧
      InBox t.names m.minima m.maxima res.bestFit := by
  obtain ⟨v0, c, h1, h2, h3, h4, h5, h6, _⟩ := C53_chain hr hu hk hl h
  refine ⟨c, h2, h3, h4.inBox hx, ?_⟩
  rcases List.mem_cons.1 h6 with h6 | h6
  · simp only [Prod.mk.injEq] at h6; rw [h6.1]; exact hx
  · obtain ⟨s, hs, he⟩ := List.mem_map.1 h6
    simp only [Prod.mk.injEq] at he
    rw [← he.1]; exact h4.inBox hx s hs

/-- C53, rejected proposals: a step that was not accepted has the position and value of the one before (for the first: the start), and
each step's value is the (signed) statistic at its position. -/
theorem C53_rejected_stays {ex : α → α} {t : TestStat α} {m m' : MCMC α} {r : String → α} {ins : List (MCInput α)} {res : MCMCResult α}
    (hr : m.Ready t) (hu : ∀ i ∈ ins, i.unif ≤ 1) (hk : ∀ i ∈ ins, i.KeepsNames) (hl : ins.length = m.maxIter)
    (h : m.optimise ex t r ins = .ok (m', res)) :
    ∃ v0 c, m.value t (m.start r t).curStep = .ok v0 ∧ c.length = m.maxIter ∧ m.samples.fillAll m.bounds c = .ok m'.samples ∧
      (∀ (k : Nat) s, c[k]? = some s → s.accepted = false → (visited (m.start r t).curStep v0 c)[k]? = some (s.params, s.val)) ∧
      (∀ s ∈ c, m.value t s.params = .ok s.val) := by
  obtain ⟨v0, c, h1, h2, h3, h4, _⟩ := C53_chain hr hu hk hl h
  exact ⟨v0, c, h1, h2, h3, h4.stays, fun s hs => h4.value h1 (s.params, s.val) (List.mem_cons_of_mem _ (List.mem_map.2 ⟨s, hs, rfl⟩))⟩

/-- C53, the best point: the reported best fit is a visited point with its own (signed) statistic, and no visited point is better, except
perhaps the very last point of the chain (see `C53_best_wrong`). -/
theorem C53_best_partial {ex : α → α} {t : TestStat α} {m m' : MCMC α} {r : String → α} {ins : List (MCInput α)} {res : MCMCResult α}
    (hr : m.Ready t) (hu : ∀ i ∈ ins, i.unif ≤ 1) (hk : ∀ i ∈ ins, i.KeepsNames) (hl : ins.length = m.maxIter)
    (h : m.optimise ex t r ins = .ok (m', res)) :
    ∃ v0 c, m.value t (m.start r t).curStep = .ok v0 ∧ c.length = m.maxIter ∧ m.samples.fillAll m.bounds c = .ok m'.samples ∧
      res.valid = true ∧ (res.bestFit, res.extremeVal) ∈ visited (m.start r t).curStep v0 c ∧ m.value t res.bestFit = .ok res.extremeVal ∧
      (∀ p ∈ visited (m.start r t).curStep v0 c, p.2 ≤ res.extremeVal ∨ some p = (visited (m.start r t).curStep v0 c).getLast?) ∧
      ((∀ p, some p = (visited (m.start r t).curStep v0 c).getLast? → p.2 ≤ res.extremeVal) →
        ∀ p ∈ visited (m.start r t).curStep v0 c, p.2 ≤ res.extremeVal) := by
  obtain ⟨v0, c, h1, h2, h3, h4, h5, h6, h7⟩ := C53_chain hr hu hk hl h
  exact ⟨v0, c, h1, h2, h3, h5, h6, h4.value h1 _ h6, h7, fun hlast p hp => (h7 p hp).elim id (hlast p)⟩

/-- C53: without initial values the start is, in each coordinate, the minimum plus the random fraction of the range, hence in the box if the
random numbers are between 0 and 1 and no minimum exceeds its maximum. -/
theorem C53_random_start {m : MCMC α} {t : TestStat α} {r : String → α} (hr : m.Ready t) (ht : m.trial = []) :
    (∀ n ∈ t.names, ∃ a b, m.minima.find n = some a ∧ m.maxima.find n = some b ∧ (m.start r t).curStep.find n = some (a + r n * (b - a))) ∧
    ((∀ n, 0 ≤ r n ∧ r n ≤ 1) → (∀ n a b, m.minima.find n = some a → m.maxima.find n = some b → a ≤ b) →
      InBox t.names m.minima m.maxima (m.start r t).curStep) := by
  have key : ∀ n ∈ t.names, ∃ a b, m.minima.find n = some a ∧ m.maxima.find n = some b ∧ (m.start r t).curStep.find n = some (a + r n * (b - a)) := by
    intro n hn
    obtain ⟨a, ha⟩ := Option.isSome_iff_exists.1 ((SMap.find_isSome_iff m.minima n).2 (by rw [hr.minima]; exact hn))
    obtain ⟨b, hb⟩ := Option.isSome_iff_exists.1 ((SMap.find_isSome_iff m.maxima n).2 (by rw [hr.maxima]; exact hn))
    refine ⟨a, b, ha, hb, ?_⟩
    unfold MCMC.start
    rw [if_neg (by simp [ht])]
    obtain ⟨a1, a2, a3, a4, a5⟩ := MCMC.random_start (r := r) (m := m) (ns := t.names) (by rw [hr.minima]; exact fun _ h => h) (by rw [hr.maxima]; exact fun _ h => h) hr.cur.1
    rw [a5 n, if_pos hn, ha, hb]; rfl
  refine ⟨key, ?_⟩
  intro hr01 hle n hn
  obtain ⟨a, b, ha, hb, hc⟩ := key n hn
  have hab := hle n a b ha hb
  refine ⟨a, b, _, ha, hb, hc, ?_, ?_⟩
  · have := mul_nonneg (hr01 n).1 (sub_nonneg.2 hab); linarith
  · have := mul_le_mul_of_nonneg_right (hr01 n).2 (sub_nonneg.2 hab); linarith

/-- C53: a missing or extra minimum, maximum or initial value is reported as a logic error. -/
theorem C53_setup_error {ex : α → α} {t : TestStat α} {m : MCMC α} (r : String → α) (ins : List (MCInput α))
    (h : (m.trial.length ≠ t.names.length ∧ m.trial.length ≠ 0) ∨ m.maxima.length ≠ t.names.length ∨ m.minima.length ≠ t.names.length) :
    m.optimise ex t r ins = .throw .logic := by
  unfold MCMC.optimise; rw [if_pos h]

/-- C53: the store of samples is not cleared between two runs; the second run's steps are added to the first's. -/
theorem C53_samples_accumulate {ex : α → α} {t : TestStat α} {m m' m'' : MCMC α} {r r' : String → α} {ins ins' : List (MCInput α)} {res res' : MCMCResult α}
    (hr : m.Ready t) (hr' : m'.Ready t) (hb : m'.bounds = m.bounds)
    (hu : ∀ i ∈ ins ++ ins', i.unif ≤ 1) (hk : ∀ i ∈ ins ++ ins', i.KeepsNames) (hl : ins.length = m.maxIter) (hl' : ins'.length = m'.maxIter)
    (h : m.optimise ex t r ins = .ok (m', res)) (h' : m'.optimise ex t r' ins' = .ok (m'', res')) :
    ∃ c c', c.length = m.maxIter ∧ c'.length = m'.maxIter ∧ m.samples.fillAll m.bounds (c ++ c') = .ok m''.samples := by
  obtain ⟨v0, c, _, h2, h3, _⟩ := C53_chain hr (fun i hi => hu i (List.mem_append_left _ hi)) (fun i hi => hk i (List.mem_append_left _ hi)) hl h
  obtain ⟨v0', c', _, h2', h3', _⟩ := C53_chain hr' (fun i hi => hu i (List.mem_append_right _ hi)) (fun i hi => hk i (List.mem_append_right _ hi)) hl' h'
  refine ⟨c, c', h2, h2', ?_⟩
  rw [hb] at h3'
  unfold MCMCSamples.fillAll at *
  rw [Res.forFold_append, h3]; exact h3'

/-! The sampler -/

theorem MetropolisSampler.draw_from {s : MetropolisSampler α} {g : String → α → α} {cur acc new : ParamDict α} (ha : acc.Sorted)
    (hc : cur.Sorted) (h : Res.forFold (s.drawOne g) acc cur = .ok new) :
    new.Sorted ∧ ∀ k, new.find k = match cur.find k with
      | some v => if k ∈ s.fixed then some v else (s.sigmas.find k).map (fun sg => v + g k sg)
      | none => acc.find k := by
  induction cur generalizing acc with
  | nil => cases h; exact ⟨ha, fun k => rfl⟩
  | cons p cur ih =>
    obtain ⟨n, v⟩ := p
    obtain ⟨a1, h1, h2⟩ := Res.forFold_cons_eq_ok.1 h
    have hcn : SMap.find cur n = none := by
      rw [SMap.find_none_iff]
      intro hn
      obtain ⟨q, hq, hqn⟩ := List.mem_map.1 hn
      have := (List.pairwise_cons.1 hc).1 q hq
      simp only [hqn] at this
      exact lt_irrefl _ this
    have step : ∃ w, a1 = acc.insert n w ∧ (if n ∈ s.fixed then some v else (s.sigmas.find n).map (fun sg => v + g n sg)) = some w := by
      unfold MetropolisSampler.drawOne at h1
      split at h1
      · rename_i hf; cases h1; exact ⟨v, rfl, by rw [if_pos hf]⟩
      · rename_i hf
        split at h1
        · rename_i sg hsg; cases h1; exact ⟨_, rfl, by simp only at hf hsg ⊢; rw [if_neg hf, hsg]; rfl⟩
        · cases h1
    obtain ⟨w, rfl, hw⟩ := step
    obtain ⟨e1, e2⟩ := ih (SMap.sorted_insert ha _ _) (List.pairwise_cons.1 hc).2 h2
    refine ⟨e1, fun k => ?_⟩
    rw [e2 k, SMap.find_cons]
    by_cases hk : n = k
    · subst hk
      rw [hcn]
      simp only [if_true, SMap.find_insert]
      exact hw.symm
    · rw [if_neg hk, SMap.find_insert, if_neg hk]

/-- C53, the Metropolis sampler: a proposal keeps every fixed parameter, moves every other by a Gaussian deviate of its own width, and has
the same parameters as the current step. -/
theorem C53_metropolis_draw {s : MetropolisSampler α} {g : String → α → α} {cur new : ParamDict α} (hc : cur.Sorted) (h : s.draw g cur = .ok new) :
    new.keys = cur.keys ∧ ∀ k v, cur.find k = some v →
      (k ∈ s.fixed → new.find k = some v) ∧ (k ∉ s.fixed → ∃ sg, s.sigmas.find k = some sg ∧ new.find k = some (v + g k sg)) := by
  obtain ⟨e1, e2⟩ := MetropolisSampler.draw_from SMap.sorted_nil hc h
  have hsome : ∀ k v, cur.find k = some v → k ∉ s.fixed → ∃ sg, s.sigmas.find k = some sg := by
    unfold MetropolisSampler.draw at h
    have : ∀ (acc : ParamDict α), Res.forFold (s.drawOne g) acc cur = .ok new → ∀ k v, cur.find k = some v → k ∉ s.fixed → ∃ sg, s.sigmas.find k = some sg := by
      clear h e1 e2 hc
      induction cur with
      | nil => intro acc h k v hk; simp [SMap.find] at hk
      | cons p cur ih =>
        intro acc h k v hk hf
        obtain ⟨a1, h1, h2⟩ := Res.forFold_cons_eq_ok.1 h
        obtain ⟨n, w⟩ := p
        rw [SMap.find_cons] at hk
        by_cases hn : n = k
        · subst hn
          unfold MetropolisSampler.drawOne at h1
          rw [if_neg hf] at h1
          split at h1
          · rename_i sg hsg; exact ⟨sg, hsg⟩
          · cases h1
        · rw [if_neg hn] at hk; exact ih a1 h2 k v hk hf
    exact this [] h
  constructor
  · refine SMap.sortedNames_ext (SMap.sorted_keys e1) (SMap.sorted_keys hc) ?_
    intro k
    rw [← SMap.find_isSome_iff, ← SMap.find_isSome_iff, e2 k]
    cases hk : cur.find k with
    | none => simp [SMap.find]
    | some v =>
      by_cases hf : k ∈ s.fixed
      · simp [hf]
      · obtain ⟨sg, hsg⟩ := hsome k v hk hf
        simp [hf, hsg]
  · intro k v hk
    refine ⟨fun hf => by rw [e2 k, hk]; simp [hf], fun hf => ?_⟩
    obtain ⟨sg, hsg⟩ := hsome k v hk hf
    exact ⟨sg, hsg, by rw [e2 k, hk]; simp [hf, hsg]⟩

/-- C53: a parameter that is neither fixed nor given a width makes the proposal fail with `std::out_of_range`. -/
theorem C53_metropolis_no_width {s : MetropolisSampler α} {g : String → α → α} {cur : ParamDict α}
    (h : ∃ p ∈ cur, p.1 ∉ s.fixed ∧ s.sigmas.find p.1 = none) : s.draw g cur = .throw .outOfRange := by
  unfold MetropolisSampler.draw
  have : ∀ acc : ParamDict α, Res.forFold (s.drawOne g) acc cur = .throw .outOfRange := by
    induction cur with
    | nil => obtain ⟨p, hp, _⟩ := h; cases hp
    | cons q cur ih =>
      intro acc
      by_cases hq : q.1 ∉ s.fixed ∧ s.sigmas.find q.1 = none
      · simp [Res.forFold, MetropolisSampler.drawOne, hq.1, hq.2]
      · obtain ⟨p, hp, hp'⟩ := h
        rcases List.mem_cons.1 hp with rfl | hp
        · exact absurd hp' hq
        · have : ∃ a', s.drawOne g acc q = .ok a' := by
            unfold MetropolisSampler.drawOne
            by_cases hf : q.1 ∈ s.fixed
            · exact ⟨_, by rw [if_pos hf]⟩
            · rw [if_neg hf]
              cases hsg : s.sigmas.find q.1 with
              | none => exact absurd ⟨hf, hsg⟩ hq
              | some sg => exact ⟨_, rfl⟩
          obtain ⟨a', ha'⟩ := this
          simp only [Res.forFold, ha']
          exact ih ⟨p, hp, hp'⟩ a'
  exact this []

/-- C53: fixing a parameter and releasing it. -/
theorem C53_fix_release (s : MetropolisSampler α) (n k : String) :
    (k ∈ (s.fix n).fixed ↔ k = n ∨ k ∈ s.fixed) ∧ (k ∈ (s.release n).fixed ↔ k ∈ s.fixed ∧ k ≠ n) := by
  constructor
  · unfold MetropolisSampler.fix
    split
    · rename_i h; simp only; exact ⟨.inr, fun h' => h'.elim (fun e => e ▸ h) id⟩
    · simp
  · simp [MetropolisSampler.release]

/-! Concrete runs -/

/-- The statistic whose value is the parameter `a`. -/
def exStatA : TestStat ℚ := ⟨["a"], fun p => MCMC.dictAt p "a"⟩

/-- One iteration over `0 ≤ a ≤ 10` from `a = x`. -/
def exMCMC (x : ℚ) (n : Nat) : MCMC ℚ := { MCMC.new with minima := [("a", 0)], maxima := [("a", 10)], trial := [("a", x)], nGuess := 2, maxIter := n }

/-- A sampler moving by `d`, with uniform deviate `u`. -/
def exMove (d u : ℚ) : MCInput ℚ := ⟨fun p => .ok (p.map (fun q => (q.1, q.2 + d)), 0), u⟩

theorem exMCMC_ready (x : ℚ) (n : Nat) : (exMCMC x n).Ready exStatA :=
  ⟨by simp [exStatA], rfl, rfl, .inr rfl, SMap.sorted_nil, by simp [exMCMC, MCMC.new, SMap.keys]⟩

theorem exMove_keeps (d u : ℚ) : (exMove d u).KeepsNames := by
  intro x y c h
  have := Res.ok.inj h
  simp only [Prod.mk.injEq] at this
  rw [← this.1]; simp [SMap.keys]

set_option synthInstance.maxSize 4000 in
set_option synthInstance.maxHeartbeats 400000 in
/-- Non-vacuity of C53: from 4 a move to 6 is accepted, one to 12 is outside, one to 5 is rejected by the deviate 9/10, the next accepted. -/
example : ((exMCMC 4 4).optimise id exStatA (fun _ => 0) [exMove 2 (1/2), exMove 6 (1/2), exMove (-1) (9/10), exMove (-1) (1/10)] >>= fun r =>
    Res.ok (r.1.curStep, r.1.samples.total, r.1.samples.accepted, r.2.bestFit, r.2.extremeVal)) =
    .ok ([("a", 5)], 4, 2, [("a", 6)], 6) := by decide +kernel

example : InBox exStatA.names (exMCMC 4 4).minima (exMCMC 4 4).maxima ((exMCMC 4 4).start (fun _ => 0) exStatA).curStep := by
  intro n hn
  simp only [exStatA, List.mem_singleton] at hn
  subst hn
  exact ⟨0, 10, 4, rfl, rfl, rfl, by norm_num, by norm_num⟩

/-- C53 is false as stated: the last accepted point is never compared with the best one. Here the chain ends at 5, with the statistic 5, but
the reported best fit is the starting point 1. -/
theorem C53_best_wrong : ∃ m' res, (exMCMC 1 1).optimise id exStatA (fun _ => 0) [exMove 4 (1/2)] = .ok (m', res) ∧
    m'.curStep = [("a", 5)] ∧ m'.curVal = 5 ∧ (exMCMC 1 1).value exStatA m'.curStep = .ok 5 ∧ res.bestFit = [("a", 1)] ∧ res.extremeVal = 1 := by
  have hw : ((exMCMC 1 1).optimise id exStatA (fun _ => 0) [exMove 4 (1/2)] >>= fun r =>
      Res.ok (r.1.curStep, r.1.curVal, r.2.bestFit, r.2.extremeVal)) = .ok ([("a", 5)], 5, [("a", 1)], 1) := by decide +kernel
  obtain ⟨⟨m', res⟩, h, hw⟩ := Res.bind_eq_ok.1 hw
  have hw := Res.ok.inj hw
  simp only [Prod.mk.injEq] at hw
  exact ⟨m', res, h, hw.1, hw.2.1, by rw [hw.1]; decide +kernel, hw.2.2.1, hw.2.2.2⟩

/-- C53: the initial values given by the user are not checked against the bounds: started at 20 with maximum 10, the chain stays there and
reports 20 as a valid best fit. -/
theorem C53_initial_wrong : ∃ m' res, (exMCMC 20 1).optimise id exStatA (fun _ => 0) [exMove 4 (1/2)] = .ok (m', res) ∧
    res.bestFit = [("a", 20)] ∧ res.valid = true ∧ ¬ InBox exStatA.names (exMCMC 20 1).minima (exMCMC 20 1).maxima res.bestFit := by
  have hw : ((exMCMC 20 1).optimise id exStatA (fun _ => 0) [exMove 4 (1/2)] >>= fun r =>
      Res.ok (r.2.bestFit, r.2.valid)) = .ok ([("a", 20)], true) := by decide +kernel
  obtain ⟨⟨m', res⟩, h, hw⟩ := Res.bind_eq_ok.1 hw
  have hw := Res.ok.inj hw
  simp only [Prod.mk.injEq] at hw
  refine ⟨m', res, h, hw.1, hw.2, ?_⟩
  rw [hw.1]
  intro hb
  obtain ⟨a, b, v, h1, h2, h3, h4, h5⟩ := hb "a" (by simp [exStatA])
  have e2 : b = 10 := by simpa [exMCMC, SMap.find] using h2.symm
  have e3 : v = 20 := by simpa [SMap.find] using h3.symm
  rw [e2, e3] at h5
  norm_num at h5

/-- Non-vacuity of the sampler theorem. -/
example : (⟨[("a", 1), ("b", 2)], ["b"]⟩ : MetropolisSampler ℚ).draw (fun _ s => 3 * s) [("a", 10), ("b", 20)] = .ok [("a", 13), ("b", 20)] := by
  decide +kernel

/-! C74: the acceptance rule -/

/-- C74, probability: for a uniform deviate the set of accepting values within [0, 1) has measure `min(1, r)`, `r` being the ratio
`e^(w - v + c)` of a logged statistic, or `w / v` of one that is not logged (at a point of value `v > 0`, for `w ≥ 0`). -/
theorem C74_acceptance_probability (w v c : ℝ) :
    MeasureTheory.volume {u : ℝ | 0 ≤ u ∧ u < 1 ∧ MCMC.accepts Real.exp true w v c u = true} = ENNReal.ofReal (min 1 (Real.exp (w - v + c))) ∧
    (0 < v → 0 ≤ w → MeasureTheory.volume {u : ℝ | 0 ≤ u ∧ u < 1 ∧ MCMC.accepts Real.exp false w v c u = true} = ENNReal.ofReal (min 1 (w / v))) := by
  have key : ∀ r : ℝ, 0 ≤ r → MeasureTheory.volume {u : ℝ | 0 ≤ u ∧ u < 1 ∧ u ≤ min 1 r} = ENNReal.ofReal (min 1 r) := by
    intro r hr
    by_cases h : r < 1
    · have : {u : ℝ | 0 ≤ u ∧ u < 1 ∧ u ≤ min 1 r} = Set.Icc 0 r := by
        ext u; simp only [Set.mem_setOf_eq, Set.mem_Icc, min_eq_right h.le]
        exact ⟨fun h => ⟨h.1, h.2.2⟩, fun h' => ⟨h'.1, lt_of_le_of_lt h'.2 h, h'.2⟩⟩
      rw [this, Real.volume_Icc, min_eq_right h.le, sub_zero]
    · have h := not_lt.1 h
      have : {u : ℝ | 0 ≤ u ∧ u < 1 ∧ u ≤ min 1 r} = Set.Ico 0 1 := by
        ext u; simp only [Set.mem_setOf_eq, Set.mem_Ico, min_eq_left h]
        exact ⟨fun h => ⟨h.1, h.2.1⟩, fun h' => ⟨h'.1, h'.2, h'.2.le⟩⟩
      rw [this, Real.volume_Ico, min_eq_left h, sub_zero]
  constructor
  · rw [← key _ (Real.exp_pos _).le]
    congr 1; ext u
    simp only [Set.mem_setOf_eq]
    refine and_congr_right fun _ => and_congr_right fun h1 => ?_
    rw [MCMC.accepts_iff _ _ _ _ _ h1.le]; simp [Taken]
  · intro hv hw
    rw [← key _ (div_nonneg hw hv.le)]
    congr 1; ext u
    simp only [Set.mem_setOf_eq]
    refine and_congr_right fun _ => and_congr_right fun h1 => ?_
    rw [MCMC.accepts_iff _ _ _ _ _ h1.le]; simp [Taken, hv.ne']

/-- The measure of the accepting deviates. -/
noncomputable def acceptMeasure (logged : Bool) (w v c : ℝ) : ℝ :=
  (MeasureTheory.volume {u : ℝ | 0 ≤ u ∧ u < 1 ∧ MCMC.accepts Real.exp logged w v c u = true}).toReal

/-- C74, detailed balance: with densities `e^v` and `e^w` (logged) or `v` and `w` (not logged), the density at one point times the probability
of accepting the other equals the density at the other times the probability of accepting the one, the sampler's correction entering as a
factor `e^c` (0 for the Metropolis sampler). -/
theorem C74_detailed_balance (w v c : ℝ) :
    Real.exp v * acceptMeasure true w v c = Real.exp (w + c) * acceptMeasure true v w (-c) ∧
    (0 < v → 0 < w → v * acceptMeasure false w v c = w * acceptMeasure false v w c) := by
  have hm : ∀ r : ℝ, 0 ≤ r → (ENNReal.ofReal (min 1 r)).toReal = min 1 r := fun r hr => ENNReal.toReal_ofReal (le_min zero_le_one hr)
  have bal : ∀ x y : ℝ, 0 < x → 0 < y → x * min 1 (y / x) = y * min 1 (x / y) := by
    intro x y hx hy
    rw [mul_min_of_nonneg _ _ hx.le, mul_min_of_nonneg _ _ hy.le, mul_one, mul_one, mul_div_cancel₀ _ hx.ne', mul_div_cancel₀ _ hy.ne', min_comm]
  constructor
  · unfold acceptMeasure
    rw [(C74_acceptance_probability w v c).1, (C74_acceptance_probability v w (-c)).1, hm _ (Real.exp_pos _).le, hm _ (Real.exp_pos _).le]
    have := bal (Real.exp v) (Real.exp (w + c)) (Real.exp_pos _) (Real.exp_pos _)
    rw [← Real.exp_sub, ← Real.exp_sub] at this
    rw [show w - v + c = w + c - v by ring, show v - w + -c = v - (w + c) by ring]
    exact this
  · intro hv hw
    unfold acceptMeasure
    rw [(C74_acceptance_probability w v c).2 hv hw.le, (C74_acceptance_probability v w c).2 hw hv.le,
      hm _ (div_nonneg hw.le hv.le), hm _ (div_nonneg hv.le hw.le)]
    exact bal v w hv hw

/-- C74: a non-logged statistic ignores the sampler's correction, so Hamiltonian sampling needs a logged one. -/
theorem C74_unlogged_ignores_correction (ex : ℝ → ℝ) (w v c c' u : ℝ) : MCMC.accepts ex false w v c u = MCMC.accepts ex false w v c' u := rfl

end Oxsx
