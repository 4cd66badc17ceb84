import Verif.Model.Generator
import Verif.Props.Sampling
/-
Property C80: the calls of the data set generator on all its data sets together.
-/
set_option linter.unusedSectionVars false
set_option linter.unusedSimpArgs false
set_option linter.unusedVariables false
namespace Oxsx
open Pool
variable {α : Type} [Field α] [LinearOrder α] [IsStrictOrderedRing α] [FloorRing α]

namespace Generator

/-- Index array and end marker after `k` sequential draws from `N` events. -/
def seqPool (N k : Nat) : Pool := ⟨(List.range N).map (seqIdx N (if k < N then k else k - 1)), szDec (N - k)⟩

theorem seqPool_init {N : Nat} (p : Pool) (h : p.idxs = []) (h2 : 2 ≤ N) : p.init N = seqPool N 0 := by
  have hid : (List.range N).map (seqIdx N 0) = List.range N := by
    apply List.ext_getElem?
    intro i
    by_cases hi : i < N
    · simp [hi]; unfold seqIdx; split_ifs <;> omega
    · rw [List.getElem?_eq_none (by simp; omega), List.getElem?_eq_none (by simp; omega)]
  unfold Pool.init seqPool
  rw [if_pos (by simp [h]), if_pos (by omega), hid]
  rfl

theorem sequential_from (cuts : CutCollection α) (d : DataSet α) (hd : d.WF) (hc : CutsApply cuts d)
    (hN : d.data.length < 2 ^ 31) (h2 : 2 ≤ d.data.length) (k n : Nat) (hk : k + n ≤ d.data.length) (p : Pool)
    (hp : (k = 0 ∧ p.idxs = []) ∨ p = seqPool d.data.length k) (out : DataSet α) (ho : out.nObs = 0 ∨ out.nObs = d.nObs) :
    ∃ out', sequentialDraws cuts d p n out = .ok (seqPool d.data.length (k + n), out') ∧ out'.names = out.names ∧
      out'.data = out.data ++ selected cuts d ((List.range n).map (fun i => seqDrawn d.data.length (k + i))) ∧
      (out'.nObs = 0 ∨ out'.nObs = d.nObs) := by
  set N := d.data.length with hNd
  have hinit : p.init d.getNEntries = seqPool N k := by
    show p.init N = _
    rcases hp with ⟨rfl, h⟩ | rfl
    · exact seqPool_init p h h2
    · unfold Pool.init seqPool
      rw [if_neg (by simp; omega)]
  unfold sequentialDraws
  rw [if_neg (by unfold DataSet.getNEntries; omega), if_neg (by unfold DataSet.getNEntries; omega), hinit]
  obtain ⟨⟨q, o⟩, g1, g2, g3, g4, g5⟩ := Res.forFold_range (f := stepSequential cuts d) (fun m (s : Pool × DataSet α) =>
    s.1 = seqPool N (k + m) ∧ s.2.names = out.names ∧
      s.2.data = out.data ++ selected cuts d ((List.range m).map (fun i => seqDrawn N (k + i))) ∧ (s.2.nObs = 0 ∨ s.2.nObs = d.nObs)) (n := n)
    (s := (seqPool N k, out)) ⟨rfl, rfl, by simp [selected_nil], ho⟩ (by
    rintro i ⟨q, o⟩ hi ⟨a1, a2, a3, a4⟩
    simp only at a1 a2 a3 a4
    obtain ⟨o', b1, b2, b3, b4⟩ := step_sequential cuts d hd hc hN h2 (k + i) (by omega) o a4 i
    have e1 : seqPool N (k + i) = ⟨(List.range N).map (seqIdx N (k + i)), szDec (N - (k + i))⟩ := by
      unfold seqPool; rw [if_pos (by omega)]
    refine ⟨_, by rw [a1, e1]; exact b1, ?_, by rw [b2, a2], ?_, b4⟩
    · simp only []
      unfold seqPool
      rw [show k + (i + 1) = k + i + 1 by omega, Nat.add_sub_cancel]
    · simp only []
      rw [b3, a3, List.append_assoc, ← selected_append, List.range_succ, List.map_append]; rfl)
  simp only at g2 g3 g4 g5
  exact ⟨o, by rw [g1, g2], g3, g4, g5⟩

theorem replace_from (cuts : CutCollection α) (d : DataSet α) (hd : d.WF) (hc : CutsApply cuts d)
    (hN : d.data.length < 2 ^ 31) (h0 : 0 < d.data.length) (p : Pool)
    (hp : p.idxs = [] ∨ p = ⟨List.range d.data.length, d.data.length - 1⟩) (us : List α) (hus : UnitRands us) (out : DataSet α)
    (ho : out.nObs = 0 ∨ out.nObs = d.nObs) :
    ∃ out' js, replaceDraws cuts d p us out = .ok (⟨List.range d.data.length, d.data.length - 1⟩, out') ∧
      out'.names = out.names ∧ out'.data = out.data ++ selected cuts d js ∧ (out'.nObs = 0 ∨ out'.nObs = d.nObs) ∧
      js.length = us.length ∧ ∀ j ∈ js, j < d.data.length := by
  set N := d.data.length with hNd
  have hinit : p.init d.getNEntries = ⟨List.range N, N - 1⟩ := by
    unfold Pool.init DataSet.getNEntries
    rcases hp with h | rfl
    · rw [if_pos (by simp [h])]; unfold szDec; rw [if_neg (by omega)]
    · rw [if_neg (by simp; omega)]
  unfold replaceDraws
  rw [if_neg (by unfold DataSet.getNEntries; omega), hinit]
  clear hinit hp
  induction us generalizing out with
  | nil => exact ⟨out, [], rfl, rfl, by simp [selected_nil], ho, rfl, by simp⟩
  | cons u us ih =>
    obtain ⟨k, k1, k2, k3, k4, k5⟩ := draw_spec (m := N - 1) (by omega) u (hus u List.mem_cons_self)
    have hkN : k < N := by omega
    obtain ⟨o1, t1, t2, t3, t4⟩ := take_spec cuts d hd hc hkN out ho
    have hstep : stepReplace cuts d (⟨List.range N, N - 1⟩, out) u = .ok (⟨List.range N, N - 1⟩, o1) := by
      unfold stepReplace
      have hfix : Pool.fixMax ⟨List.range N, N - 1⟩ = ⟨List.range N, N - 1⟩ := by
        unfold Pool.fixMax; rw [if_neg (by unfold notSet; simp only; omega)]
      have : idx (List.range N) k = .ok k := by rw [idx_ok]; simp [hkN]
      simp only [hfix, k1, this, Res.ok_bind, t1, Res.pure_eq]
    obtain ⟨o2, js, g1, g2, g3, g4, g5, g6⟩ := ih (fun v hv => hus v (List.mem_cons_of_mem _ hv)) o1 t4
    refine ⟨o2, k :: js, by rw [Res.forFold_cons_ok hstep, g1], by rw [g2, t2], ?_, g4, by simp [g5], ?_⟩
    · rw [g3, t3, List.append_assoc, ← selected_append]; rfl
    · intro j hj
      rcases List.mem_cons.1 hj with rfl | hj
      · exact hkN
      · exact g6 j hj

end Generator

/-- How events are drawn from a data set. -/
inductive Drawing where
  | bootstrap | sequential | random
  deriving DecidableEq

/-- The flags of the generator give data set `i` this way of drawing. -/
def Generator.Draws (g : Generator α) (i : Nat) : Drawing → Prop
  | .bootstrap => g.boots[i]? = some true
  | .sequential => g.boots[i]? = some false ∧ g.seqFlags[i]? = some true
  | .random => g.boots[i]? = some false ∧ g.seqFlags[i]? = some false

/-- One generating call: how many events it asks of each data set, and the uniform random numbers it meets. -/
structure Request (α : Type) where
  counts : Nat → Nat
  rnd : Nat → Nat → α

/-- Client history: several generating calls in a row. The data sets generated and the reported numbers of events taken. -/
def Generator.generateMany (g : Generator α) : List (Request α) → Res (Generator α × List (DataSet α × List Int))
  | [] => .ok (g, [])
  | c :: cs => do
    let r ← g.generate (fun i => .ok (c.counts i)) c.rnd
    let r' ← r.1.generateMany cs
    pure (r'.1, r.2 :: r'.2)

namespace Generator

/-- What is known of the pool of one data set after the events `drawn`. -/
def SetState (N : Nat) (m : Drawing) (drawn : List Nat) (p : Pool) : Prop :=
  match m with
  | .bootstrap => p.idxs = [] ∨ p = ⟨List.range N, N - 1⟩
  | .sequential => drawn = (List.range drawn.length).map (seqDrawn N) ∧
      ((drawn.length = 0 ∧ p.idxs = []) ∨ p = seqPool N drawn.length)
  | .random => State N drawn p

/-- How many more events may be asked for. -/
def Allowed (N : Nat) (m : Drawing) (n : Nat) : Prop :=
  match m with
  | .bootstrap => 0 < N
  | .sequential => 2 ≤ N ∧ n ≤ N
  | .random => n ≤ N

theorem draw_set (g : Generator α) (i n : Nat) (rnd : Nat → α) (m : Drawing) (hm : g.Draws i m) (d : DataSet α) (p : Pool)
    (hs : g.sets[i]? = some d) (hp : g.pools[i]? = some p) (hd : d.WF) (hc : CutsApply g.cuts d) (hN : d.data.length < 2 ^ 31)
    (drawn : List Nat) (hst : SetState d.data.length m drawn p) (hal : Allowed d.data.length m (drawn.length + n))
    (hr : ∀ k, 0 ≤ rnd k ∧ rnd k < 1) (w : Nat) (hw : d.data ≠ [] → d.nObs = w) (out : DataSet α) (ho : out.nObs = 0 ∨ out.nObs = w) :
    ∃ p' out' js, g.drawSet i n rnd out = .ok ({ g with pools := g.pools.set i p' }, out') ∧ out'.names = out.names ∧
      out'.data = out.data ++ selected g.cuts d js ∧ (out'.nObs = 0 ∨ out'.nObs = w) ∧ js.length = n ∧
      (∀ j ∈ js, j < d.data.length) ∧ SetState d.data.length m (drawn ++ js) p' := by
  have hus : UnitRands ((List.range n).map rnd) := by
    intro u hu; obtain ⟨k, -, rfl⟩ := List.mem_map.1 hu; exact hr k
  have hsi : at_ g.sets i = .ok d := by simp [at_, hs]
  have hpi : idx g.pools i = .ok p := by simp [idx, hp]
  have hbl : ∀ b, g.boots[i]? = some b → g.boots.length ≠ 0 := by
    intro b hb h; rw [List.length_eq_zero_iff.1 h] at hb; simp at hb
  have hsl : ∀ b, g.seqFlags[i]? = some b → g.seqFlags.length ≠ 0 := by
    intro b hb h; rw [List.length_eq_zero_iff.1 h] at hb; simp at hb
  cases m with
  | bootstrap =>
    have hb : g.boots[i]? = some true := hm
    have hne : d.data ≠ [] := List.length_pos_iff.1 hal
    obtain ⟨o, js, h1, h2, h3, h4, h5, h6⟩ := replace_from g.cuts d hd hc hN hal p hst _ hus out (by rw [hw hne]; exact ho)
    refine ⟨⟨List.range d.data.length, d.data.length - 1⟩, o, js, ?_, h2, h3, by rw [← hw hne]; exact h4, by simpa using h5, h6, .inr rfl⟩
    unfold drawSet
    simp only [Res.throwIf, hbl _ hb, if_false, Res.ok_bind, at_, hb, if_true, hpi, hs, h1, Res.pure_eq]
  | sequential =>
    obtain ⟨hb, hq⟩ : g.boots[i]? = some false ∧ g.seqFlags[i]? = some true := hm
    obtain ⟨h2N, hle⟩ := hal
    have hne : d.data ≠ [] := List.length_pos_iff.1 (by omega)
    obtain ⟨o, h1, h2, h3, h4⟩ := sequential_from g.cuts d hd hc hN h2N drawn.length n hle p hst.2 out (by rw [hw hne]; exact ho)
    refine ⟨seqPool d.data.length (drawn.length + n), o, _, ?_, h2, h3, by rw [← hw hne]; exact h4, by simp, ?_, ?_, .inr ?_⟩
    · unfold drawSet
      simp only [Res.throwIf, hbl _ hb, hsl _ hq, if_false, Res.ok_bind, at_, hb, hq, if_true, hpi, hs, h1, Res.pure_eq, Bool.false_eq_true]
    · intro j hj
      obtain ⟨k, hk, rfl⟩ := List.mem_map.1 hj
      have := List.mem_range.1 hk
      unfold seqDrawn; split_ifs <;> omega
    · rw [List.length_append, List.length_map, List.length_range, List.range_add, List.map_append, ← hst.1, List.map_map]
      rfl
    · rw [List.length_append, List.length_map, List.length_range]
  | random =>
    obtain ⟨hb, hq⟩ : g.boots[i]? = some false ∧ g.seqFlags[i]? = some false := hm
    have hle : drawn.length + n ≤ d.data.length := hal
    by_cases hne : d.data = []
    · have hn : n = 0 := by rw [hne] at hle; simp at hle; omega
      have hdr : drawn = [] := by rw [hne] at hle; simp at hle; exact hle.1
      subst hn hdr
      have h1 : randomDraws g.cuts d p ((List.range 0).map rnd) out = .ok (p.init d.getNEntries, out) := by
        unfold randomDraws; rw [if_neg (by simp)]; rfl
      refine ⟨p.init d.data.length, out, [], ?_, rfl, by simp [selected_nil], ho, rfl, by simp, .inr (state_init hst)⟩
      unfold drawSet
      simp only [Res.throwIf, hbl _ hb, hsl _ hq, if_false, Res.ok_bind, at_, hb, hq, if_true, hpi, hs, h1, Res.pure_eq, Bool.false_eq_true]
      rfl
    · obtain ⟨p', o, js, h1, h2, h3, h4, h5, h6⟩ := randomDraws_spec g.cuts d hd hc hN hst _ hus (by simpa using hle) out (by rw [hw hne]; exact ho)
      refine ⟨p', o, js, ?_, h4, h5, by rw [← hw hne]; exact h6, by simpa using h2, ?_, .inr h3⟩
      · unfold drawSet
        simp only [Res.throwIf, hbl _ hb, hsl _ hq, if_false, Res.ok_bind, at_, hb, hq, if_true, hpi, hs, h1, Res.pure_eq, Bool.false_eq_true]
      · intro j hj
        exact h3.nodup.2.1 j (by simp [hj])

end Generator

/-- A generator whose data sets can be mixed: one rate for each, at least one set, well formed sets whose events all have `w` observables and
on all of which the cuts can be evaluated. -/
structure Generator.Ready (g : Generator α) (w : Nat) : Prop where
  rates : g.rates.length = g.sets.length
  some : g.sets ≠ []
  pools : g.pools.length = g.sets.length
  sets : ∀ d ∈ g.sets, d.WF ∧ CutsApply g.cuts d ∧ d.data.length < 2 ^ 31 ∧ (d.data ≠ [] → d.nObs = w)

namespace Generator

theorem generate_spec (g : Generator α) (w : Nat) (hg : g.Ready w) (mode : Nat → Drawing) (hm : ∀ i < g.sets.length, g.Draws i (mode i))
    (drawn : Nat → List Nat)
    (hst : ∀ (i : Nat) d p, g.sets[i]? = some d → g.pools[i]? = some p → SetState d.data.length (mode i) (drawn i) p)
    (c : Request α) (hr : ∀ i k, 0 ≤ c.rnd i k ∧ c.rnd i k < 1)
    (hal : ∀ (i : Nat) d, g.sets[i]? = some d → Allowed d.data.length (mode i) ((drawn i).length + c.counts i)) :
    ∃ ps out jss, g.generate (fun i => .ok (c.counts i)) c.rnd =
        .ok ({ g with pools := ps }, out, (List.range g.sets.length).map (fun i => toInt32 (c.counts i))) ∧
      ps.length = g.sets.length ∧ jss.length = g.sets.length ∧
      (∀ d, g.sets[0]? = some d → out.names = d.names) ∧ out.data = (List.zipWith (selected g.cuts) g.sets jss).flatten ∧
      ∀ (i : Nat) d js p, g.sets[i]? = some d → jss[i]? = some js → ps[i]? = some p →
        js.length = c.counts i ∧ (∀ j ∈ js, j < d.data.length) ∧ SetState d.data.length (mode i) (drawn i ++ js) p := by
  have hpos : 0 < g.sets.length := List.length_pos_iff.2 hg.some
  unfold generate
  simp only [Res.throwIf, hg.rates, ne_eq, not_true_eq_false, if_false, hpos.ne', Res.ok_bind, at_of_lt hpos]
  obtain ⟨⟨g', out, taken⟩, h1, ps, jss, h2, h3, h4, h5, h6, h7, h8, h9, h10⟩ := Res.forFold_range (f := generateStep (fun i => .ok (c.counts i)) c.rnd)
    (fun k (s : Generator α × DataSet α × List Int) => ∃ ps jss, s.1 = { g with pools := ps } ∧ ps.length = g.sets.length ∧
      jss.length = k ∧ s.2.1.names = g.sets[0].names ∧ s.2.1.data = (List.zipWith (selected g.cuts) (g.sets.take k) jss).flatten ∧
      (s.2.1.nObs = 0 ∨ s.2.1.nObs = w) ∧
      s.2.2 = (List.range k).map (fun i => toInt32 (c.counts i)) ∧
      (∀ i, k ≤ i → ps[i]? = g.pools[i]?) ∧
      ∀ (i : Nat) d js p, i < k → g.sets[i]? = some d → jss[i]? = some js → ps[i]? = some p →
        js.length = c.counts i ∧ (∀ j ∈ js, j < d.data.length) ∧ SetState d.data.length (mode i) (drawn i ++ js) p)
    (n := g.sets.length) (s := (g, DataSet.empty.setObservableNames g.sets[0].names, []))
    ⟨g.pools, [], rfl, hg.pools, rfl, rfl, by simp [DataSet.empty, DataSet.setObservableNames], .inl rfl, rfl, fun _ _ => rfl,
      by intro i _ _ _ h; omega⟩
    (by
      rintro i ⟨g1, o, t⟩ hi ⟨ps, jss, e1, e2, e3, e4, e5, e6, e7, e8, e9⟩
      simp only at e1 e4 e5 e6 e7
      subst e1
      have hs : g.sets[i]? = some g.sets[i] := List.getElem?_eq_getElem hi
      have hp : ps[i]? = some (g.pools[i]'(by rw [hg.pools]; exact hi)) := by
        rw [e8 i le_rfl, List.getElem?_eq_getElem]
      obtain ⟨w1, w2, w3, w4⟩ := hg.sets _ (List.getElem_mem hi)
      obtain ⟨p', o', js, f1, f2, f3, f4, f5, f6, f7⟩ := draw_set { g with pools := ps } i (c.counts i) (c.rnd i) (mode i) (by
          have := hm i hi
          revert this; cases mode i <;> exact id) g.sets[i] _ hs hp w1 w2 w3 (drawn i)
        (hst i _ _ hs (by rw [← e8 i le_rfl]; exact hp)) (hal i _ hs) (hr i) w w4 o e6
      refine ⟨({ g with pools := ps.set i p' }, o', t ++ [toInt32 (c.counts i)]), ?_, ps.set i p', jss ++ [js], rfl, by simpa using e2,
        by simp [e3], by simp only; rw [f2, e4], ?_, f4, ?_, ?_, ?_⟩
      · unfold generateStep
        simp only [Res.ok_bind, f1, Res.pure_eq]
      · simp only
        rw [f3, e5, ← List.take_append_getElem hi, List.zipWith_append (by simp [e3]; omega)]
        simp
      · simp only
        rw [e7, List.range_succ, List.map_append]; rfl
      · intro k hk
        rw [List.getElem?_set_ne (by omega), e8 k (by omega)]
      · intro k d js' p hk hd hj hp'
        rcases Nat.lt_succ_iff_lt_or_eq.1 hk with hk | rfl
        · rw [List.getElem?_append_left (by omega)] at hj
          rw [List.getElem?_set_ne (by omega)] at hp'
          exact e9 k d js' p hk hd hj hp'
        · rw [List.getElem?_append_right (by omega), e3, Nat.sub_self] at hj
          rw [List.getElem?_set_self (by omega)] at hp'
          rw [hs] at hd
          simp only [List.getElem?_cons_zero, Option.some.injEq] at hj hd hp'
          subst hj hd hp'
          exact ⟨f5, f6, f7⟩)
  simp only at h2 h5 h6 h7 h8
  refine ⟨ps, out, jss, by rw [h1, h2, h8], h3, h4, ?_, by rw [h6, List.take_length], ?_⟩
  · intro d hd
    rw [List.getElem?_eq_getElem hpos] at hd
    rw [h5, Option.some.inj hd]
  · intro i d js p hd hj hp
    exact h10 i d js p (by rw [List.getElem?_eq_some_iff] at hd; exact hd.1) hd hj hp

theorem generateMany_spec (calls : List (Request α)) (g : Generator α) (w : Nat) (hg : g.Ready w) (mode : Nat → Drawing)
    (hm : ∀ i < g.sets.length, g.Draws i (mode i)) (drawn : Nat → List Nat)
    (hst : ∀ (i : Nat) d p, g.sets[i]? = some d → g.pools[i]? = some p → SetState d.data.length (mode i) (drawn i) p)
    (hr : ∀ c ∈ calls, ∀ i k, 0 ≤ c.rnd i k ∧ c.rnd i k < 1)
    (hal : ∀ (i : Nat) d, g.sets[i]? = some d → Allowed d.data.length (mode i) ((drawn i).length + (calls.map (·.counts i)).sum)) :
    ∃ ps outs, ∃ jsss : List (List (List Nat)), g.generateMany calls = .ok ({ g with pools := ps }, outs) ∧ ps.length = g.sets.length ∧
      outs.length = calls.length ∧ jsss.length = calls.length ∧
      (∀ (k : Nat) c out jss, calls[k]? = some c → outs[k]? = some out → jsss[k]? = some jss →
        (∀ d, g.sets[0]? = some d → out.1.names = d.names) ∧ jss.length = g.sets.length ∧
        out.1.data = (List.zipWith (selected g.cuts) g.sets jss).flatten ∧
        out.2 = (List.range g.sets.length).map (fun i => toInt32 (c.counts i)) ∧
        ∀ (i : Nat) d js, g.sets[i]? = some d → jss[i]? = some js → js.length = c.counts i ∧ ∀ j ∈ js, j < d.data.length) ∧
      ∀ (i : Nat) d p, g.sets[i]? = some d → ps[i]? = some p →
        SetState d.data.length (mode i) (drawn i ++ jsss.flatMap (fun jss => jss.getD i [])) p := by
  induction calls generalizing g drawn with
  | nil =>
    refine ⟨g.pools, [], [], rfl, hg.pools, rfl, rfl, by simp, ?_⟩
    intro i d p hd hp
    simpa using hst i d p hd hp
  | cons c cs ih =>
    obtain ⟨ps, out, jss, h1, h2, h3, h4, h5, h6⟩ := generate_spec g w hg mode hm drawn hst c (hr c List.mem_cons_self) (by
      intro i d hd
      have := hal i d hd
      simp only [List.map_cons, List.sum_cons] at this
      revert this; cases mode i
      · exact id
      · rintro ⟨a, b⟩; exact ⟨a, by omega⟩
      · intro a; show _ ≤ _; have : _ ≤ _ := a; omega)
    have hlen : ∀ (i : Nat) d, g.sets[i]? = some d → (jss.getD i []).length = c.counts i := by
      intro i d hd
      have hi := (List.getElem?_eq_some_iff.1 hd).1
      have hj : jss[i]? = some jss[i] := List.getElem?_eq_getElem (by omega)
      have := h6 i d _ _ hd hj (List.getElem?_eq_getElem (by omega))
      rw [List.getD_eq_getElem?_getD, hj]; exact this.1
    obtain ⟨ps', outs, jsss, k1, k2, k3, k4, k5, k6⟩ := ih { g with pools := ps } ⟨hg.rates, hg.some, h2, hg.sets⟩
      (by intro i hi; have := hm i hi; revert this; cases mode i <;> exact id)
      (fun i => drawn i ++ jss.getD i []) (by
        intro i d p hd hp
        have hi := (List.getElem?_eq_some_iff.1 hd).1
        have hj : jss[i]? = some (jss[i]'(by simp only at hi; omega)) := List.getElem?_eq_getElem _
        have := (h6 i d _ _ hd hj hp).2.2
        simp only [List.getD_eq_getElem?_getD, hj, Option.getD_some]; exact this)
      (fun c' hc' => hr c' (List.mem_cons_of_mem _ hc')) (by
        intro i d hd
        have := hal i d hd
        simp only [List.map_cons, List.sum_cons] at this
        rw [List.length_append, hlen i d hd, Nat.add_assoc]
        exact this)
    refine ⟨ps', (out, (List.range g.sets.length).map (fun i => toInt32 (c.counts i))) :: outs, jss :: jsss, ?_, k2, by simp [k3], by simp [k4], ?_, ?_⟩
    · simp only [generateMany, h1, Res.ok_bind, k1, Res.pure_eq]
    · intro k c' out' jss' e1 e2 e3
      cases k with
      | zero =>
        simp only [List.getElem?_cons_zero, Option.some.injEq] at e1 e2 e3
        subst e1 e2 e3
        refine ⟨h4, h3, h5, rfl, ?_⟩
        intro i d js hd hj
        have hi := (List.getElem?_eq_some_iff.1 hd).1
        have := h6 i d js _ hd hj (List.getElem?_eq_getElem (by omega))
        exact ⟨this.1, this.2.1⟩
      | succ k =>
        simp only [List.getElem?_cons_succ] at e1 e2 e3
        exact k5 k c' out' jss' e1 e2 e3
    · intro i d p hd hp
      have := k6 i d p hd hp
      simpa [List.append_assoc] using this

end Generator

/-- C80 (any history of generating calls, any mixture of drawing modes): take a generator with freshly given data sets and any sequence of
generating calls that altogether ask of each data set no more than it holds (bootstrapped sets: any number, but not of an empty set; sequential
ones: of at least two events). Every call succeeds, and there are event numbers `jsss[k][i]` (call `k`, data set `i`) such that: the data set
generated by call `k` has the names of the first data set and consists, data set by data set in order, of those of the events `jsss[k][i]` of data set
`i` that pass the cuts; as many events of set `i` were looked at as the call asked for, and that number is what is reported taken; all are events
of the set; over the whole history no event of a randomly drawn set is looked at twice; and a sequentially drawn set is gone through
in the order `N-1, …, 1`, the `N`-th draw being event 1 again. -/
theorem C80_history_partial (g : Generator α) (w : Nat) (hg : g.Ready w) (hfresh : ∀ p ∈ g.pools, p = Pool.fresh ∨ p = Pool.added)
    (mode : Nat → Drawing) (hm : ∀ i < g.sets.length, g.Draws i (mode i)) (calls : List (Request α))
    (hr : ∀ c ∈ calls, ∀ i k, 0 ≤ c.rnd i k ∧ c.rnd i k < 1) (hcount : ∀ c ∈ calls, ∀ i, c.counts i < 2 ^ 31)
    (hal : ∀ (i : Nat) d, g.sets[i]? = some d → match mode i with
      | .bootstrap => 0 < d.data.length
      | .sequential => 2 ≤ d.data.length ∧ (calls.map (·.counts i)).sum ≤ d.data.length
      | .random => (calls.map (·.counts i)).sum ≤ d.data.length) :
    ∃ g' outs, ∃ jsss : List (List (List Nat)), g.generateMany calls = .ok (g', outs) ∧
      outs.length = calls.length ∧ jsss.length = calls.length ∧
      (∀ (k : Nat) c out jss, calls[k]? = some c → outs[k]? = some out → jsss[k]? = some jss →
        (∀ d, g.sets[0]? = some d → out.1.names = d.names) ∧ jss.length = g.sets.length ∧
        out.1.data = (List.zipWith (selected g.cuts) g.sets jss).flatten ∧
        out.2 = (List.range g.sets.length).map (fun i => (c.counts i : Int)) ∧
        ∀ (i : Nat) d js, g.sets[i]? = some d → jss[i]? = some js → js.length = c.counts i ∧ ∀ j ∈ js, j < d.data.length) ∧
      ∀ (i : Nat) d, g.sets[i]? = some d →
        (mode i = .random → (jsss.flatMap (fun jss => jss.getD i [])).Nodup) ∧
        (mode i = .sequential → jsss.flatMap (fun jss => jss.getD i []) =
          (List.range (calls.map (·.counts i)).sum).map (fun m => if m + 1 < d.data.length then d.data.length - 1 - m else 1)) := by
  obtain ⟨ps, outs, jsss, h1, h2, h3, h4, h5, h6⟩ := Generator.generateMany_spec calls g w hg mode hm (fun _ => []) (by
    intro i d p hd hp
    have hp' : p.idxs = [] := by
      rcases hfresh p (List.mem_of_getElem? hp) with rfl | rfl <;> rfl
    cases mode i
    · exact .inl hp'
    · exact ⟨rfl, .inl ⟨rfl, hp'⟩⟩
    · exact .inl ⟨rfl, hp'⟩) hr (by
    intro i d hd
    have := hal i d hd
    simp only [List.length_nil, Nat.zero_add]
    revert this; cases mode i <;> exact id)
  refine ⟨_, outs, jsss, h1, h3, h4, ?_, ?_⟩
  · intro k c out jss e1 e2 e3
    obtain ⟨f1, f2, f3, f4, f5⟩ := h5 k c out jss e1 e2 e3
    refine ⟨f1, f2, f3, ?_, f5⟩
    rw [f4]
    apply List.map_congr_left
    intro i _
    exact toInt32_small (hcount c (List.mem_of_getElem? e1) i)
  · intro i d hd
    have hi := (List.getElem?_eq_some_iff.1 hd).1
    have hst := h6 i d _ hd (List.getElem?_eq_getElem (by omega))
    rw [List.nil_append] at hst
    refine ⟨fun e => ?_, fun e => ?_⟩
    · rw [e] at hst
      rcases hst with ⟨h, -⟩ | h
      · rw [h]; exact List.nodup_nil
      · exact h.nodup.1
    · rw [e] at hst
      rw [hst.1]
      have hl : (jsss.flatMap (fun jss => jss.getD i [])).length = (calls.map (·.counts i)).sum := by
        rw [List.length_flatMap]
        congr 1
        apply List.ext_getElem
        · simp [h4]
        · intro k k1 k2
          simp only [List.length_map] at k1 k2
          simp only [List.getElem_map]
          have hk3 : k < outs.length := by omega
          obtain ⟨_, f2, _, _, f5⟩ := h5 k _ _ _ (List.getElem?_eq_getElem k2) (List.getElem?_eq_getElem hk3) (List.getElem?_eq_getElem k1)
          have hj : jsss[k][i]? = some (jsss[k][i]'(by omega)) := List.getElem?_eq_getElem _
          rw [List.getD_eq_getElem?_getD, hj]
          exact (f5 i d _ hd hj).1
      rw [hl]
      rfl

/-- C80 (`ExpectedRatesDataSet`, `PoissonFluctuatedDataSet`): both are the generating call that asks of data set `i` for a number of events: the
whole number nearest to its rate (halves up), or the Poisson number drawn. -/
theorem C80_requests (g : Generator α) (rnd : Nat → Nat → α) (hr : g.rates.length = g.sets.length) :
    (∀ n : Nat → Nat, (∀ (i : Nat) r, g.rates[i]? = some r → 0 ≤ r ∧ r < 2 ^ 31 ∧ (n i : α) - 1 / 2 ≤ r ∧ r < n i + 1 / 2) →
      g.expectedRatesDataSet rnd = g.generate (fun i => .ok (n i)) rnd) ∧
    (∀ n : Nat → Nat, g.poissonFluctuatedDataSet n rnd = g.generate (fun i => .ok (n i)) rnd) := by
  have key : ∀ (f n : Nat → Res Nat), (∀ i < g.sets.length, f i = n i) → g.generate f rnd = g.generate n rnd := by
    intro f n h
    unfold Generator.generate
    have : ∀ s, Res.forFold (Generator.generateStep f rnd) s (List.range g.sets.length) =
        Res.forFold (Generator.generateStep n rnd) s (List.range g.sets.length) := by
      intro s
      apply Res.forFold_congr
      intro s a ha
      unfold Generator.generateStep
      rw [h a (List.mem_range.1 ha)]
    simp only [this]
  refine ⟨fun n hn => key _ _ ?_, fun n => key _ _ ?_⟩
  · intro i hi
    have hi' : i < g.rates.length := by omega
    obtain ⟨h0, h1, h2, h3⟩ := hn i _ (List.getElem?_eq_getElem hi')
    rw [at_of_lt hi', Res.ok_bind]
    have hround : Generator.roundAway g.rates[i] = (n i : Int) := by
      unfold Generator.roundAway
      rw [if_pos h0, Int.floor_eq_iff]
      constructor <;> push_cast <;> linarith
    have hlt : n i < 2 ^ 32 := by
      have : (n i : α) < 2 ^ 32 := by
        have e1 : (2 : α) ^ 32 = 2 * 2 ^ 31 := by ring
        have e2 : (1 : α) ≤ 2 ^ 31 := one_le_pow₀ (by norm_num)
        rw [e1]
        linarith
      exact_mod_cast this
    unfold Generator.expectedCount
    rw [hround, if_pos ⟨by positivity, by exact_mod_cast hlt⟩]
    simp
  · intro i hi
    rw [at_of_lt (by omega), Res.ok_bind]

/-- C80 (refusals): a generating call with numbers of rates and data sets that differ, or with no data sets, throws `LogicError`; one without bootstrap flags
throws `NotFoundError`, and so does one that needs a sequential flag when there are none. -/
theorem C80_refused (g : Generator α) (n : Nat → Nat) (rnd : Nat → Nat → α) :
    (g.rates.length ≠ g.sets.length → g.generate (fun i => .ok (n i)) rnd = .throw .logic) ∧
    (g.sets = [] → g.generate (fun i => .ok (n i)) rnd = .throw .logic) ∧
    (g.rates.length = g.sets.length → g.sets ≠ [] →
      (g.boots = [] → g.generate (fun i => .ok (n i)) rnd = .throw .notFound) ∧
      (g.boots[0]? = some false → g.seqFlags = [] → g.generate (fun i => .ok (n i)) rnd = .throw .notFound)) := by
  refine ⟨fun h => by unfold Generator.generate; rw [Res.throwIf, if_pos h]; rfl, fun h => ?_, fun h1 h2 => ⟨fun h => ?_, fun h h3 => ?_⟩⟩
  · unfold Generator.generate
    by_cases h1 : g.rates.length = g.sets.length
    · rw [Res.throwIf, if_neg (by simpa using h1)]; simp [Res.throwIf, h]
    · rw [Res.throwIf, if_pos h1]; rfl
  all_goals
    obtain ⟨m, hm⟩ : ∃ m, g.sets.length = m + 1 := ⟨g.sets.length - 1, by have := List.length_pos_iff.2 h2; omega⟩
    unfold Generator.generate
    rw [Res.throwIf, if_neg (by simpa using h1), Res.ok_bind, Res.throwIf, if_neg (by omega), Res.ok_bind, at_of_lt (by omega), Res.ok_bind,
      show List.range g.sets.length = 0 :: (List.range m).map Nat.succ by rw [hm, List.range_succ_eq_map]]
  · have : ∀ out, g.drawSet 0 (n 0) (rnd 0) out = .throw .notFound := by
      intro out; unfold Generator.drawSet; rw [h]; rfl
    simp only [Res.forFold, Generator.generateStep, Res.ok_bind, this, Res.throw_bind]
  · have : ∀ out, g.drawSet 0 (n 0) (rnd 0) out = .throw .notFound := by
      intro out; unfold Generator.drawSet
      have hb : g.boots.length ≠ 0 := by intro e; rw [List.length_eq_zero_iff.1 e] at h; simp at h
      simp only [Res.throwIf, hb, if_false, Res.ok_bind, at_, h, Bool.false_eq_true, h3, List.length_nil, if_true, Res.throw_bind]
    simp only [Res.forFold, Generator.generateStep, Res.ok_bind, this, Res.throw_bind]

/-- C80 (state): giving data sets anew, or `Reset`, makes every pool fresh, so `C80_history_partial` applies again; adding one leaves the others as they are. -/
theorem C80_fresh (g : Generator α) (ds : List (DataSet α)) (d : DataSet α) (r : α) (q : Bool) :
    ((g.setDataSets ds).sets = ds ∧ (g.setDataSets ds).pools.length = ds.length ∧ ∀ p ∈ (g.setDataSets ds).pools, p = Pool.fresh) ∧
    (g.reset.sets = g.sets ∧ g.reset.pools.length = g.sets.length ∧ (∀ p ∈ g.reset.pools, p = Pool.fresh) ∧ g.reset.rates = g.rates ∧
      g.reset.boots = g.boots ∧ g.reset.seqFlags = g.seqFlags) ∧
    ((g.addDataSet d r q).sets = g.sets ++ [d] ∧ (g.addDataSet d r q).rates = g.rates ++ [r] ∧
      (g.addDataSet d r q).pools = g.pools ++ [Pool.added] ∧ (g.addDataSet d r q).seqFlags = g.seqFlags ++ [q]) :=
  ⟨⟨rfl, by simp [Generator.setDataSets], by simp [Generator.setDataSets]⟩,
    ⟨rfl, by simp [Generator.reset], by simp [Generator.reset], rfl, rfl, rfl⟩, rfl, rfl, rfl, rfl⟩

/-- C80 (`AllValidEvents`): all the events of all the data sets, in order, under the names of the first; the numbers reported are the sizes. The cuts are
NOT applied, see `C80_cuts_ignored_wrong`. -/
theorem C80_all_events (g : Generator α) (w : Nat) (hne : g.sets ≠ []) (hs : ∀ d ∈ g.sets, d.WF ∧ d.data.length < 2 ^ 31 ∧ (d.data ≠ [] → d.nObs = w)) :
    ∃ out, g.allValidEvents = .ok (out, g.sets.map (fun d => (d.data.length : Int))) ∧ out.data = (g.sets.map (·.data)).flatten ∧
      ∀ d, g.sets[0]? = some d → out.names = d.names := by
  have hpos := List.length_pos_iff.2 hne
  unfold Generator.allValidEvents
  rw [at_of_lt hpos, Res.ok_bind]
  have key : ∀ (ds : List (DataSet α)), (∀ d ∈ ds, d.WF ∧ d.data.length < 2 ^ 31 ∧ (d.data ≠ [] → d.nObs = w)) → ∀ (o : DataSet α) (t : List Int),
      (o.nObs = 0 ∨ o.nObs = w) → ∃ out, Res.forFold (fun (s : DataSet α × List Int) (d : DataSet α) => do
        let out ← Res.forFold (fun (o : DataSet α) j => do
          let e ← d.getEntry j
          o.addEntry e) s.1 (List.range d.getNEntries)
        pure (out, s.2 ++ [toInt32 d.getNEntries])) (o, t) ds = .ok (out, t ++ ds.map (fun d => (d.data.length : Int))) ∧
        out.data = o.data ++ (ds.map (·.data)).flatten ∧ out.names = o.names := by
    intro ds
    induction ds with
    | nil => intro _ o t _; exact ⟨o, by simp, by simp, rfl⟩
    | cons d ds ih =>
      intro hs o t ho
      obtain ⟨h1, h2, h3⟩ := hs d List.mem_cons_self
      obtain ⟨o1, k1, k2, k3, k4⟩ := Res.forFold_range (f := fun (o : DataSet α) j => do
          let e ← d.getEntry j
          o.addEntry e) (fun k (s : DataSet α) => s.data = o.data ++ d.data.take k ∧ s.names = o.names ∧ (s.nObs = 0 ∨ s.nObs = w))
        (n := d.data.length) (s := o) ⟨by simp, rfl, ho⟩ (by
          rintro i s hi ⟨a1, a2, a3⟩
          have hl := h1.1 _ (List.getElem_mem hi)
          have hw : d.nObs = w := h3 (List.ne_nil_of_mem (List.getElem_mem hi))
          have hn0 := h1.2.1 (List.ne_nil_of_mem (List.getElem_mem hi))
          have hadd : s.addEntry ⟨d.data[i], some d.names⟩ = _ := DataSet.addEntry_ok (d := s) (e := ⟨d.data[i], some d.names⟩)
            (by intro h; simp only at h; rw [h] at hl; simp at hl; exact hn0 hl.symm) (by simp only [hl, hw]; exact a3)
          refine ⟨⟨s.data ++ [d.data[i]], s.names, d.data[i].length⟩, ?_, ?_, a2, .inr (hl.trans hw)⟩
          · simp only [DataSet.getEntry, List.getElem?_eq_getElem hi, Res.ok_bind]; exact hadd
          · simp only
            rw [← List.take_append_getElem hi, a1, List.append_assoc])
      obtain ⟨out, g1, g2, g3⟩ := ih (fun e he => hs e (List.mem_cons_of_mem _ he)) o1 (t ++ [(d.data.length : Int)]) k4
      refine ⟨out, ?_, ?_, by rw [g3, k3]⟩
      · simp only [Res.forFold]
        have : (Res.forFold (fun (o : DataSet α) j => do
          let e ← d.getEntry j
          o.addEntry e) o (List.range d.getNEntries)) = .ok o1 := k1
        simp only [this, Res.ok_bind]
        show Res.forFold _ _ ds = _
        rw [show toInt32 d.getNEntries = (d.data.length : Int) from toInt32_small h2, g1]
        simp
      · rw [g2, k2, List.take_length]; simp
  obtain ⟨out, h1, h2, h3⟩ := key g.sets hs (DataSet.empty.setObservableNames g.sets[0].names) [] (.inl rfl)
  refine ⟨out, by simpa using h1, by rw [h2]; rfl, ?_⟩
  intro d hd
  rw [List.getElem?_eq_getElem hpos] at hd
  rw [h3, ← Option.some.inj hd]; rfl

/-- Two data sets of the same two observables, given in different order. -/
def exTwoSets : Generator ℚ :=
  ((Generator.new.addDataSet ⟨[[1, 100], [2, 200], [3, 300]], ["energy", "radius"], 2⟩ 2 false).addDataSet
    ⟨[[500, 5], [600, 6]], ["radius", "energy"], 2⟩ 1 true)

/-- C80 is false: a set's own observable names are ignored. An event with radius 600 and energy 6 comes out with energy 600 and radius 6. -/
theorem C80_names_wrong : ((exTwoSets.setBootstrap [false, false]).expectedRatesDataSet (fun _ _ => 0)).toOption.map (·.2) =
      some (⟨[[1, 100], [3, 300], [600, 6]], ["energy", "radius"], 2⟩, [2, 1]) ∧
    exTwoSets.sets[1]? = some ⟨[[500, 5], [600, 6]], ["radius", "energy"], 2⟩ := by
  decide +kernel

/-- C80 is false: a generator built with `AddDataSet` alone cannot generate, it throws `NotFoundError` until bootstrap flags are set. -/
theorem C80_add_only_wrong : exTwoSets.rates.length = exTwoSets.sets.length ∧ exTwoSets.seqFlags = [false, true] ∧
    exTwoSets.expectedRatesDataSet (fun _ _ => 0) = .throw .notFound := by
  refine ⟨rfl, rfl, ?_⟩
  rw [(C80_requests exTwoSets (fun _ _ => 0) rfl).1 (fun i => if i = 0 then 2 else 1) (by
    intro i r hr
    have hi := (List.getElem?_eq_some_iff.1 hr).1
    change i < 2 at hi
    obtain rfl | rfl : i = 0 ∨ i = 1 := by omega
    · have : r = 2 := (Option.some.inj hr).symm
      subst this; norm_num
    · have : r = 1 := (Option.some.inj hr).symm
      subst this; norm_num)]
  exact ((C80_refused exTwoSets _ _).2.2 rfl (by simp [exTwoSets, Generator.addDataSet])).1 rfl

/-- C80 is false: "all valid events" holds the events failing the cuts as well. -/
theorem C80_cuts_ignored_wrong (g : Generator α) : g.allValidEvents = ({ g with cuts := [] } : Generator α).allValidEvents := rfl

example : exTwoSets.allValidEvents = .ok (⟨[[1, 100], [2, 200], [3, 300], [500, 5], [600, 6]], ["energy", "radius"], 2⟩, [3, 2]) := by decide +kernel

/-- Non-vacuity of the C80 theorems: one random, one sequential and one bootstrapped set, two calls. -/
example : ∃ g : Generator ℚ, ∃ mode : Nat → Drawing, ∃ calls : List (Request ℚ), g.Ready 1 ∧ (∀ p ∈ g.pools, p = Pool.fresh ∨ p = Pool.added) ∧
    (∀ i < g.sets.length, g.Draws i (mode i)) ∧ (∀ c ∈ calls, ∀ i k, 0 ≤ c.rnd i k ∧ c.rnd i k < 1) ∧ (∀ c ∈ calls, ∀ i, c.counts i < 2 ^ 31) ∧
    (∀ (i : Nat) d, g.sets[i]? = some d → match mode i with
      | .bootstrap => 0 < d.data.length
      | .sequential => 2 ≤ d.data.length ∧ (calls.map (·.counts i)).sum ≤ d.data.length
      | .random => (calls.map (·.counts i)).sum ≤ d.data.length) ∧
    (g.generateMany calls).toOption.map (fun r => r.2.map (·.1.data)) =
      some [[[10], [30], [30], [20], [20], [20], [20]], [[20], [20], [20], [20], [20], [20]]] := by
  refine ⟨⟨[false, true, false], [exSet3, exSet3, exSet3], [1, 1, 1], [Pool.added, Pool.added, Pool.added], [false, false, true], []⟩,
    fun i => if i = 0 then .random else if i = 1 then .sequential else .bootstrap,
    [⟨fun i => if i = 2 then 3 else 2, fun i k => if i = 2 then 1/2 else 0⟩, ⟨fun i => if i = 2 then 4 else 1, fun i k => if i = 2 then 1/2 else 0⟩], ?_, ?_, ?_, ?_, ?_, ?_, ?_⟩
  · refine ⟨rfl, by simp, rfl, ?_⟩
    intro d hd
    simp only [List.mem_cons, List.not_mem_nil, or_false, or_self] at hd
    subst hd
    exact ⟨by decide +kernel, (by intro r _ c hc; cases hc), by decide +kernel, fun _ => rfl⟩
  · simp
  · intro i hi
    simp only [List.length_cons, List.length_nil] at hi
    obtain rfl | rfl | rfl : i = 0 ∨ i = 1 ∨ i = 2 := by omega
    · exact ⟨rfl, rfl⟩
    · exact ⟨rfl, rfl⟩
    · show _ = _; rfl
  · intro c hc i k
    simp only [List.mem_cons, List.not_mem_nil, or_false] at hc
    rcases hc with rfl | rfl <;> simp only <;> split <;> norm_num
  · intro c hc i
    simp only [List.mem_cons, List.not_mem_nil, or_false] at hc
    rcases hc with rfl | rfl <;> simp only <;> split <;> norm_num
  · intro i d hd
    have hi := (List.getElem?_eq_some_iff.1 hd).1
    simp only [List.length_cons, List.length_nil] at hi
    obtain rfl | rfl | rfl : i = 0 ∨ i = 1 ∨ i = 2 := by omega
    all_goals (simp only [List.getElem?_cons_zero, List.getElem?_cons_succ, Option.some.injEq] at hd; subst hd; simp [exSet3])
  · decide +kernel

end Oxsx
