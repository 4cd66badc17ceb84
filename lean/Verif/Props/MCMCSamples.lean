import Verif.Model.MCMCSamples
import Verif.Spec.MCMCSamples
import Verif.Props.AutoCorrelation
import Verif.Props.Histogram
/-
C54: what a chain's sample store keeps.
-/
set_option linter.unusedSectionVars false
set_option linter.unusedSimpArgs false
set_option linter.unusedVariables false
namespace Oxsx
open Spec
variable {α : Type} [Field α] [LinearOrder α]

/-- Storing the steps of a history one after the other. -/
def MCMCSamples.fillAll (s : MCMCSamples α) (b : MCMCBounds α) (h : List (ChainStep α)) : Res (MCMCSamples α) :=
  Res.forFold (fun s x => s.fill b x.params x.val x.accepted) s h

/-- Filling a histogram with the parameters of some steps. -/
def fillSteps (h : Histogram α) (l : List (ChainStep α)) : Res (Histogram α) := Res.forFold (fun h x => h.fillMap x.params 1) h l

/-- A store before its first step: new, or just cleared. -/
structure MCMCSamples.Fresh (s : MCMCSamples α) : Prop where
  accepted : s.accepted = 0
  total : s.total = 0
  initialised : s.initialised = false
  auto : s.auto = .new s.auto.qLen

theorem MCMCSamples.fresh_new : (MCMCSamples.new : MCMCSamples α).Fresh := ⟨rfl, rfl, rfl, rfl⟩

theorem Spec.recorded_append {burn thin : Int} (h : List (ChainStep α)) (x : ChainStep α) :
    recorded burn thin (h ++ [x]) = recorded burn thin h ++ (if burn < (h.length : Int) ∧ thin ∣ (h.length : Int) then [x] else []) := by
  unfold recorded
  rw [List.zipIdx_append, List.filter_append, List.map_append]
  congr 1
  simp only [List.zipIdx_cons, List.zipIdx_nil, List.filter_cons, List.filter_nil, Nat.zero_add, decide_eq_true_eq]
  split <;> simp_all

/-- What the store holds after a history, `i` being the store as initialised by the first step. -/
structure MCMCSamples.After (i : MCMCSamples α) (h : List (ChainStep α)) (s : MCMCSamples α) : Prop where
  total : s.total = h.length
  accepted : s.accepted = h.countP (·.accepted)
  initialised : s.initialised = true
  saveFull : s.saveFull = i.saveFull
  burnIn : s.burnIn = i.burnIn
  thin : s.thin = i.thin
  saveChain : s.saveChain = i.saveChain
  branches : s.branches = i.branches
  auto : i.auto.fillAll ((recorded i.burnIn i.thin h).map (·.val)) = .ok s.auto
  hist : if i.saveFull then fillSteps i.hist (recorded i.burnIn i.thin h) = .ok s.hist else
    List.Forall₂ (fun p q => p.1 = q.1 ∧ fillSteps p.2 (recorded i.burnIn i.thin h) = .ok q.2) i.proj1 s.proj1 ∧
    List.Forall₂ (fun p q => p.1 = q.1 ∧ fillSteps p.2 (recorded i.burnIn i.thin h) = .ok q.2) i.proj2 s.proj2
  chain : if i.saveChain then s.chain = i.chain ++ h.zipIdx.map (fun p => ⟨p.1.val, p.1.accepted, p.2, p.1.params.map (·.2)⟩) else s.chain = i.chain

theorem fillSteps_snoc {h h' h'' : Histogram α} {l : List (ChainStep α)} {x : ChainStep α} (h1 : fillSteps h l = .ok h') (h2 : h'.fillMap x.params 1 = .ok h'') :
    fillSteps h (l ++ [x]) = .ok h'' := by
  unfold fillSteps at *
  rw [Res.forFold_append, h1]
  rw [Res.bind]; simp [Res.forFold, h2]

theorem HistTools.fillAll_snoc {i s t : SMap (Histogram α)} {l : List (ChainStep α)} {x : ChainStep α}
    (h1 : List.Forall₂ (fun p q => p.1 = q.1 ∧ fillSteps p.2 l = .ok q.2) i s) (h2 : HistTools.fillAll s x.params = .ok t) :
    List.Forall₂ (fun p q => p.1 = q.1 ∧ fillSteps p.2 (l ++ [x]) = .ok q.2) i t := by
  unfold HistTools.fillAll at h2
  induction h1 generalizing t with
  | nil => cases h2; exact .nil
  | cons hp hr ih =>
    obtain ⟨b, bs, e1, e2, rfl⟩ := Res.traverse_cons_eq_ok.1 h2
    obtain ⟨h', e3, e4⟩ := Res.bind_eq_ok.1 e1
    cases e4
    exact .cons ⟨hp.1, fillSteps_snoc hp.2 e3⟩ (ih e2)

theorem AutoCorr.fillAll_snoc {a b c : AutoCorr α} {l : List α} {v : α} (h1 : a.fillAll l = .ok b) (h2 : b.fill v = .ok c) : a.fillAll (l ++ [v]) = .ok c := by
  unfold AutoCorr.fillAll at *
  rw [Res.forFold_append, h1]
  rw [Res.bind]; simp [Res.forFold, h2]

/-- What initialising keeps. -/
theorem MCMCSamples.initialise_keeps {s i : MCMCSamples α} {b : MCMCBounds α} (h : s.initialise b = .ok i) :
    i.total = s.total ∧ i.accepted = s.accepted ∧ i.initialised = true ∧ i.saveFull = s.saveFull ∧ i.burnIn = s.burnIn ∧ i.thin = s.thin ∧
    i.saveChain = s.saveChain ∧ i.auto = s.auto ∧ (i.saveChain = true → i.branches = b.minima.keys.map branchName ∧ i.chain = []) := by
  unfold MCMCSamples.initialise at h
  obtain ⟨ax, _, h⟩ := Res.bind_eq_ok.1 h
  obtain ⟨s1, h1, h⟩ := Res.bind_eq_ok.1 h
  have k : s1.total = s.total ∧ s1.accepted = s.accepted ∧ s1.saveFull = s.saveFull ∧ s1.burnIn = s.burnIn ∧ s1.thin = s.thin ∧
      s1.saveChain = s.saveChain ∧ s1.auto = s.auto := by
    unfold MCMCSamples.makeHists at h1
    split at h1
    · cases h1; exact ⟨rfl, rfl, rfl, rfl, rfl, rfl, rfl⟩
    · obtain ⟨p2, _, h1⟩ := Res.bind_eq_ok.1 h1
      obtain ⟨p1, _, h1⟩ := Res.bind_eq_ok.1 h1
      cases h1; exact ⟨rfl, rfl, rfl, rfl, rfl, rfl, rfl⟩
  cases h
  obtain ⟨k1, k2, k3, k4, k5, k6, k7⟩ := k
  unfold MCMCSamples.startChain
  split
  · rename_i hc
    exact ⟨k1, k2, rfl, k3, k4, k5, k6, k7, fun _ => ⟨rfl, rfl⟩⟩
  · rename_i hc
    exact ⟨k1, k2, rfl, k3, k4, k5, k6, k7, fun h => absurd h hc⟩

/-- The histograms after the recorded steps `l`. -/
def MCMCSamples.Hists (i : MCMCSamples α) (l : List (ChainStep α)) (s : MCMCSamples α) : Prop :=
  if i.saveFull then fillSteps i.hist l = .ok s.hist else
    List.Forall₂ (fun p q => p.1 = q.1 ∧ fillSteps p.2 l = .ok q.2) i.proj1 s.proj1 ∧
    List.Forall₂ (fun p q => p.1 = q.1 ∧ fillSteps p.2 l = .ok q.2) i.proj2 s.proj2

theorem MCMCSamples.recordHists_snoc {i s s' : MCMCSamples α} {l : List (ChainStep α)} {x : ChainStep α} (hs : s.saveFull = i.saveFull)
    (h1 : MCMCSamples.Hists i l s) (h2 : s.recordHists x.params = .ok s') :
    MCMCSamples.Hists i (l ++ [x]) s' ∧ s' = { s with hist := s'.hist, proj1 := s'.proj1, proj2 := s'.proj2 } := by
  unfold MCMCSamples.recordHists at h2
  unfold MCMCSamples.Hists at *
  split at h2
  · rename_i hsf
    rw [if_pos (hs.symm.trans hsf)] at h1 ⊢
    obtain ⟨h', h3, h2⟩ := Res.bind_eq_ok.1 h2
    cases h2
    exact ⟨fillSteps_snoc h1 h3, rfl⟩
  · rename_i hsf
    rw [if_neg (fun h => hsf (hs.trans h))] at h1 ⊢
    obtain ⟨p1, h3, h2⟩ := Res.bind_eq_ok.1 h2
    obtain ⟨p2, h4, h2⟩ := Res.bind_eq_ok.1 h2
    cases h2
    exact ⟨⟨HistTools.fillAll_snoc h1.1 h3, HistTools.fillAll_snoc h1.2 h4⟩, rfl⟩

theorem MCMCSamples.maybeRecord_after {i s s1 : MCMCSamples α} {h : List (ChainStep α)} {x : ChainStep α}
    (ha : MCMCSamples.After i h s) (h1 : s.maybeRecord x.params x.val = .ok s1) :
    s1 = { s with hist := s1.hist, proj1 := s1.proj1, proj2 := s1.proj2, auto := s1.auto } ∧
    MCMCSamples.Hists i (recorded i.burnIn i.thin (h ++ [x])) s1 ∧
    i.auto.fillAll ((recorded i.burnIn i.thin (h ++ [x])).map (·.val)) = .ok s1.auto := by
  rw [Spec.recorded_append]
  unfold MCMCSamples.maybeRecord at h1
  split at h1
  · rename_i hb
    split at h1
    · cases h1
    · rename_i ht
      split at h1
      · rename_i hd
        have hrec : i.burnIn < (h.length : Int) ∧ i.thin ∣ (h.length : Int) := by
          rw [← ha.total, ← ha.burnIn, ← ha.thin]; exact ⟨hb, Int.dvd_of_emod_eq_zero hd⟩
        rw [if_pos hrec]
        unfold MCMCSamples.record at h1
        obtain ⟨s0, h0, h1⟩ := Res.bind_eq_ok.1 h1
        obtain ⟨au, hau, h1⟩ := Res.bind_eq_ok.1 h1
        cases h1
        obtain ⟨r1, r2⟩ := MCMCSamples.recordHists_snoc ha.saveFull ha.hist h0
        have r3 : s0.auto = s.auto := by rw [r2]
        refine ⟨?_, r1, ?_⟩
        · simp only; rw [r2]
        · rw [List.map_append]; exact AutoCorr.fillAll_snoc ha.auto (r3 ▸ hau)
      · rename_i hd
        cases h1
        rw [if_neg (fun hc => hd (by rw [ha.total, ha.thin]; exact Int.emod_eq_zero_of_dvd hc.2)), List.append_nil]
        exact ⟨rfl, ha.hist, ha.auto⟩
  · rename_i hb
    cases h1
    rw [if_neg (fun hc => hb (by rw [ha.total, ha.burnIn]; exact hc.1)), List.append_nil]
    exact ⟨rfl, ha.hist, ha.auto⟩

theorem MCMCSamples.fill_after {b : MCMCBounds α} {i s s' : MCMCSamples α} {h : List (ChainStep α)} {x : ChainStep α}
    (ha : MCMCSamples.After i h s) (hf : s.fill b x.params x.val x.accepted = .ok s') : MCMCSamples.After i (h ++ [x]) s' := by
  unfold MCMCSamples.fill at hf
  have e : s.ensureInit b = .ok s := by unfold MCMCSamples.ensureInit; rw [ha.initialised]; rfl
  rw [e] at hf
  simp only [Res.ok_bind] at hf
  obtain ⟨s1, h1, hf⟩ := Res.bind_eq_ok.1 hf
  obtain ⟨s2, h2, hf⟩ := Res.bind_eq_ok.1 hf
  cases hf
  obtain ⟨k1, k2, k3⟩ := MCMCSamples.maybeRecord_after ha h1
  have hcnt : (if x.accepted = true then s1.accepted + 1 else s1.accepted) = (h ++ [x]).countP (·.accepted) := by
    rw [k1, List.countP_append, ← ha.accepted]
    simp only [List.countP_cons, List.countP_nil, Nat.zero_add]
    split <;> simp
  have htot : s1.total + 1 = (h ++ [x]).length := by rw [k1]; simp [ha.total]
  have hch := ha.chain
  have t1 : s1.initialised = true := by rw [k1]; exact ha.initialised
  have t2 : s1.saveFull = i.saveFull := by rw [k1]; exact ha.saveFull
  have t3 : s1.burnIn = i.burnIn := by rw [k1]; exact ha.burnIn
  have t4 : s1.thin = i.thin := by rw [k1]; exact ha.thin
  have t5 : s1.saveChain = i.saveChain := by rw [k1]; exact ha.saveChain
  have t6 : s1.branches = i.branches := by rw [k1]; exact ha.branches
  have t7 : s1.chain = s.chain := by rw [k1]
  have t8 : s1.total = h.length := by rw [k1]; exact ha.total
  unfold MCMCSamples.addRow at h2
  split at h2
  · rename_i hsc
    have hsc' : i.saveChain = true := t5.symm.trans hsc
    rw [hsc'] at hch
    split at h2
    · cases h2
    · cases h2
      refine ⟨htot, hcnt, t1, t2, t3, t4, t5, t6, k3, k2, ?_⟩
      rw [hsc']
      simp only [if_true] at hch ⊢
      show s1.chain ++ [⟨x.val, x.accepted, s1.total, _⟩] = _
      rw [t7, hch, t8, List.zipIdx_append, List.map_append]
      simp
  · rename_i hsc
    have hsc' : ¬ i.saveChain = true := fun h => hsc (t5.trans h)
    cases h2
    refine ⟨htot, hcnt, t1, t2, t3, t4, t5, t6, k3, k2, ?_⟩
    rw [if_neg hsc'] at hch ⊢
    exact t7.trans hch

theorem MCMCSamples.fillAll_after {b : MCMCBounds α} {i s s' : MCMCSamples α} {g h : List (ChainStep α)}
    (ha : MCMCSamples.After i g s) (hf : s.fillAll b h = .ok s') : MCMCSamples.After i (g ++ h) s' := by
  induction h generalizing g s with
  | nil => cases hf; simpa using ha
  | cons x h ih =>
    obtain ⟨s1, h1, h2⟩ := Res.forFold_cons_eq_ok.1 hf
    have := ih (MCMCSamples.fill_after ha h1) h2
    simpa using this

theorem MCMCSamples.after_init {b : MCMCBounds α} {s i : MCMCSamples α} (hf : s.Fresh) (h : s.initialise b = .ok i) : MCMCSamples.After i [] i := by
  obtain ⟨k1, k2, k3, k4, k5, k6, k7, k8, k9⟩ := MCMCSamples.initialise_keeps h
  refine ⟨by rw [k1, hf.total]; rfl, by rw [k2, hf.accepted]; rfl, k3, rfl, rfl, rfl, rfl, rfl, rfl, ?_, ?_⟩
  · split
    · rfl
    · exact ⟨List.forall₂_same.2 (fun p _ => ⟨rfl, rfl⟩), List.forall₂_same.2 (fun p _ => ⟨rfl, rfl⟩)⟩
  · split <;> simp

/-- The first step initialises, then acts like any other. -/
theorem MCMCSamples.fill_fresh {b : MCMCBounds α} {s : MCMCSamples α} (hf : s.Fresh) (p : ParamDict α) (v : α) (acc : Bool) :
    s.fill b p v acc = (s.initialise b >>= fun i => i.fill b p v acc) := by
  have e : s.ensureInit b = s.initialise b := by unfold MCMCSamples.ensureInit; rw [hf.initialised]; rfl
  conv_lhs => unfold MCMCSamples.fill
  rw [e]
  cases h : s.initialise b with
  | ok i =>
    obtain ⟨_, _, k3, _⟩ := MCMCSamples.initialise_keeps h
    have e' : i.ensureInit b = .ok i := by unfold MCMCSamples.ensureInit; rw [k3]; rfl
    simp only [Res.ok_bind]
    conv_rhs => unfold MCMCSamples.fill
    rw [e']; rfl
  | throw e => rfl
  | ub => rfl

theorem MCMCSamples.fillAll_fresh {b : MCMCBounds α} {s s' : MCMCSamples α} (hf : s.Fresh) {h : List (ChainStep α)} (hn : h ≠ [])
    (hr : s.fillAll b h = .ok s') : ∃ i, s.initialise b = .ok i ∧ MCMCSamples.After i h s' := by
  cases h with
  | nil => exact absurd rfl hn
  | cons x h =>
    obtain ⟨s1, h1, h2⟩ := Res.forFold_cons_eq_ok.1 hr
    rw [MCMCSamples.fill_fresh hf] at h1
    obtain ⟨i, hi, h1⟩ := Res.bind_eq_ok.1 h1
    refine ⟨i, hi, ?_⟩
    have a1 := MCMCSamples.fill_after (MCMCSamples.after_init hf hi) h1
    simpa using MCMCSamples.fillAll_after a1 h2

/-- C54, counting: after any history the store has counted every step and every accepted one, and the acceptance rate is their quotient. -/
theorem C54_rate [CharZero α] {b : MCMCBounds α} {s s' : MCMCSamples α} (hf : s.Fresh) {h : List (ChainStep α)} (hr : s.fillAll b h = .ok s') :
    s'.total = h.length ∧ s'.accepted = h.countP (·.accepted) ∧
    (h ≠ [] → s'.acceptanceRate = some ((h.countP (·.accepted) : α) / (h.length : α)) ∧
      s'.rejectionRate = some (1 - (h.countP (·.accepted) : α) / (h.length : α))) := by
  have key : s'.total = h.length ∧ s'.accepted = h.countP (·.accepted) := by
    by_cases hn : h = []
    · subst hn; cases hr; exact ⟨hf.total, hf.accepted⟩
    · obtain ⟨i, _, ha⟩ := MCMCSamples.fillAll_fresh hf hn hr
      exact ⟨ha.total, ha.accepted⟩
  refine ⟨key.1, key.2, fun hn => ?_⟩
  have : (h.length : α) ≠ 0 := by simpa using hn
  have e : s'.acceptanceRate = some ((h.countP (·.accepted) : α) / (h.length : α)) := by
    unfold MCMCSamples.acceptanceRate Fl.div
    rw [key.1, key.2, if_neg this]
  exact ⟨e, by unfold MCMCSamples.rejectionRate; rw [e]; rfl⟩

/-- C54, recording: exactly the steps after the burn-in at multiples of the thinning factor go into the histograms and the
autocorrelation, in order; each is filled once with weight 1. `i` is the store with the empty histograms of `C54_init`. -/
theorem C54_recorded {b : MCMCBounds α} {s s' : MCMCSamples α} (hf : s.Fresh) {h : List (ChainStep α)} (hn : h ≠ []) (hr : s.fillAll b h = .ok s') :
    ∃ i, s.initialise b = .ok i ∧
      (s.saveFull = true → fillSteps i.hist (recorded s.burnIn s.thin h) = .ok s'.hist) ∧
      (s.saveFull = false →
        List.Forall₂ (fun p q => p.1 = q.1 ∧ fillSteps p.2 (recorded s.burnIn s.thin h) = .ok q.2) i.proj1 s'.proj1 ∧
        List.Forall₂ (fun p q => p.1 = q.1 ∧ fillSteps p.2 (recorded s.burnIn s.thin h) = .ok q.2) i.proj2 s'.proj2) ∧
      (AutoCorr.new s.auto.qLen).fillAll ((recorded s.burnIn s.thin h).map (·.val)) = .ok s'.auto := by
  obtain ⟨i, hi, ha⟩ := MCMCSamples.fillAll_fresh hf hn hr
  obtain ⟨k1, k2, k3, k4, k5, k6, k7, k8, k9⟩ := MCMCSamples.initialise_keeps hi
  have hh := ha.hist
  have hau := ha.auto
  rw [k8, k5, k6, hf.auto] at hau
  rw [k4, k5, k6] at hh
  refine ⟨i, hi, fun hs => by simpa [hs] using hh, fun hs => by simpa [hs] using hh, hau⟩

/-- C54, the chain: with chain saving on, there is one row per step, whatever the burn-in and thinning, holding the step's number,
statistic, acceptance and parameter values in name order; the branches are the parameter names in order with the first dash replaced. -/
theorem C54_chain {b : MCMCBounds α} {s s' : MCMCSamples α} (hf : s.Fresh) (hc : s.saveChain = true) {h : List (ChainStep α)} (hn : h ≠ [])
    (hr : s.fillAll b h = .ok s') :
    s'.branches = b.minima.keys.map MCMCSamples.branchName ∧
    s'.chain = h.zipIdx.map (fun p => ⟨p.1.val, p.1.accepted, p.2, p.1.params.map (·.2)⟩) := by
  obtain ⟨i, hi, ha⟩ := MCMCSamples.fillAll_fresh hf hn hr
  obtain ⟨k1, k2, k3, k4, k5, k6, k7, k8, k9⟩ := MCMCSamples.initialise_keeps hi
  have hc' := k7.trans hc
  have := ha.chain
  rw [if_pos hc', (k9 hc').2, List.nil_append] at this
  exact ⟨ha.branches.trans (k9 hc').1, this⟩

/-- C54, clearing: whatever was stored, a cleared store starts again like a new one with the same settings. -/
theorem C54_clear (s : MCMCSamples α) : s.clear.Fresh ∧ s.clear.burnIn = s.burnIn ∧ s.clear.thin = s.thin ∧ s.clear.saveFull = s.saveFull ∧
    s.clear.saveChain = s.saveChain ∧ s.clear.auto.qLen = s.auto.qLen ∧ s.clear.axes = s.axes :=
  ⟨⟨rfl, rfl, rfl, rfl⟩, rfl, rfl, rfl, rfl, rfl, rfl⟩

/-- C54, the histograms start empty: in full mode the histogram has one axis per axis given (or per parameter) and no content; the
projections are one histogram per parameter and, unless two joined names agree, one per pair of parameters. -/
theorem C54_init {b : MCMCBounds α} {s i : MCMCSamples α} (h : s.initialise b = .ok i) :
    ∃ ax, s.histAxes b = .ok ax ∧ (s.saveFull = true → i.hist = Histogram.ofAxes ax) ∧
      (s.saveFull = false → HistTools.makeAll1 ax b.minima.keys = .ok i.proj1 ∧
        HistTools.makeAll2 ax (Combinations.allCombsNoDiag b.minima.keys) = .ok i.proj2) := by
  unfold MCMCSamples.initialise at h
  obtain ⟨ax, h0, h⟩ := Res.bind_eq_ok.1 h
  obtain ⟨s1, h1, h⟩ := Res.bind_eq_ok.1 h
  cases h
  have e : (s1.startChain b).hist = s1.hist ∧ (s1.startChain b).proj1 = s1.proj1 ∧ (s1.startChain b).proj2 = s1.proj2 := by
    unfold MCMCSamples.startChain; split <;> exact ⟨rfl, rfl, rfl⟩
  rw [e.1, e.2.1, e.2.2]
  refine ⟨ax, h0, ?_⟩
  unfold MCMCSamples.makeHists at h1
  split at h1
  · rename_i hs; cases h1; exact ⟨fun _ => rfl, fun h => by simp [hs] at h⟩
  · rename_i hs
    obtain ⟨p2, h2, h1⟩ := Res.bind_eq_ok.1 h1
    obtain ⟨p1, h3, h1⟩ := Res.bind_eq_ok.1 h1
    cases h1; exact ⟨fun h => absurd h hs, fun _ => ⟨h3, h2⟩⟩

/-- Without thinning and with a burn-in of `n` steps, the recorded steps are all but the first `n + 1` (the comparison is strict). -/
theorem C54_no_thinning (n : Nat) (h : List (ChainStep α)) : recorded n 1 h = h.drop (n + 1) := by
  unfold recorded
  have gen : ∀ (h : List (ChainStep α)) (k : Nat),
      ((h.zipIdx k).filter (fun p => decide ((n : Int) < (p.2 : Int) ∧ (1 : Int) ∣ (p.2 : Int)))).map (·.1) = h.drop (n + 1 - k) := by
    intro h
    induction h with
    | nil => simp
    | cons x h ih =>
      intro k
      rw [List.zipIdx_cons, List.filter_cons]
      split
      · rename_i hc
        simp only [decide_eq_true_eq] at hc
        rw [List.map_cons, ih]
        have e1 : n + 1 - k = 0 := by omega
        have e2 : n + 1 - (k + 1) = 0 := by omega
        rw [e1, e2]; rfl
      · rename_i hc
        have hk : k ≤ n := by
          by_contra hlt
          exact hc (by simp; omega)
        rw [ih]
        have : n + 1 - k = (n + 1 - (k + 1)) + 1 := by omega
        rw [this, List.drop_succ_cons]
  simpa using gen h 0

variable [IsStrictOrderedRing α]

theorem Histogram.fillMap_total {as : List (BinAxis α)} {h : Histogram α} (hv : h.Valid as) (hc : ∀ a ∈ as, a.Contiguous) (m : ParamDict α)
    (hm : ∀ a ∈ as, (List.lookup a.name m).isSome) (w : α) : ∃ h', h.fillMap m w = .ok h' ∧ h'.Valid as ∧ h'.integral = h.integral + w := by
  have hex : ∃ vs : List α, as.map (fun a => List.lookup a.name m) = vs.map some := by
    clear hv hc
    induction as with
    | nil => exact ⟨[], rfl⟩
    | cons a as ih =>
      obtain ⟨vs, hvs⟩ := ih (fun x hx => hm x (List.mem_cons_of_mem _ hx))
      obtain ⟨v, hv⟩ := Option.isSome_iff_exists.1 (hm a List.mem_cons_self)
      exact ⟨v :: vs, by simp [hv, hvs]⟩
  obtain ⟨vs, hvs⟩ := hex
  have hlen : vs.length = as.length := by have := congrArg List.length hvs; simpa using this.symm
  obtain ⟨h', h1, _, _, _, h5⟩ := C07_fill_sequence as h hv hc [(vs, w)] (by simpa using hlen)
  have h1' : h.fill vs w = .ok h' := by
    unfold fillAll at h1
    obtain ⟨x, hx, h1⟩ := Res.forFold_cons_eq_ok.1 h1
    cases h1; exact hx
  refine ⟨h', (C07_fill_map as h hv m w).2 vs hvs h' h1', fill_valid hv h1', by simpa using h5⟩

theorem fillSteps_total {as : List (BinAxis α)} {h : Histogram α} (hv : h.Valid as) (hc : ∀ a ∈ as, a.Contiguous) (l : List (ChainStep α))
    (hm : ∀ x ∈ l, ∀ a ∈ as, (List.lookup a.name x.params).isSome) :
    ∃ h', fillSteps h l = .ok h' ∧ h'.Valid as ∧ h'.integral = h.integral + (l.length : α) := by
  induction l generalizing h with
  | nil => exact ⟨h, rfl, hv, by simp⟩
  | cons x l ih =>
    obtain ⟨h1, e1, e2, e3⟩ := Histogram.fillMap_total hv hc x.params (hm x List.mem_cons_self) 1
    obtain ⟨h2, e4, e5, e6⟩ := ih e2 (fun y hy => hm y (List.mem_cons_of_mem _ hy))
    refine ⟨h2, Res.forFold_cons_eq_ok.2 ⟨h1, e1, e4⟩, e5, ?_⟩
    rw [e6, e3, List.length_cons]; push_cast; ring

/-- C54, with the full histogram: if the axes given are named after parameters of every step, storing never fails, and the histogram's
integral is the number of recorded steps. -/
theorem C54_full_total {b : MCMCBounds α} {s : MCMCSamples α} (hf : s.Fresh) (hs : s.saveFull = true) (hch : s.saveChain = false) (ht : s.thin ≠ 0)
    (hq : 0 < s.auto.qLen) {as : List (BinAxis α)} (hax : (AxisCollection.empty : AxisCollection α).addAxes as = .ok s.axes) (hne : as ≠ [])
    (hc : ∀ a ∈ as, a.Contiguous) (hd : as.length = b.minima.length) {h : List (ChainStep α)} (hn : h ≠ [])
    (hm : ∀ x ∈ h, ∀ a ∈ as, (List.lookup a.name x.params).isSome) :
    ∃ s', s.fillAll b h = .ok s' ∧ s'.hist.integral = ((recorded s.burnIn s.thin h).length : α) := by
  have hH := AxisCollection.holds_of_addAxes hax
  have hinit : ∃ i, s.initialise b = .ok i ∧ i.hist = Histogram.ofAxes s.axes := by
    have e1 : s.histAxes b = .ok s.axes := by
      unfold MCMCSamples.histAxes
      rw [if_pos (by rw [hH.dims]; simpa using hne), if_neg (by rw [hH.dims, hd]; simp)]
    refine ⟨({ s with hist := Histogram.ofAxes s.axes } : MCMCSamples α).startChain b, ?_, ?_⟩
    · unfold MCMCSamples.initialise MCMCSamples.makeHists
      rw [e1, Res.ok_bind, if_pos hs]; rfl
    · unfold MCMCSamples.startChain
      split <;> rfl
  obtain ⟨i, hi, hih⟩ := hinit
  obtain ⟨k1, k2, k3, k4, k5, k6, k7, k8, k9⟩ := MCMCSamples.initialise_keeps hi
  have hv : i.hist.Valid as := by rw [hih]; exact Histogram.valid_ofAxes hH hne
  have hzero : (Histogram.ofAxes s.axes).integral = (0 : α) := by
    have hv0 : (Histogram.ofAxes s.axes).Valid as := Histogram.valid_ofAxes hH hne
    rw [hv0.integral]
    unfold Histogram.ofAxes Histogram.setAxes Histogram.empty resize
    simp
  have stepOk : ∀ (g : List (ChainStep α)) (x : ChainStep α) (t : MCMCSamples α), MCMCSamples.After i g t →
      (∀ y ∈ g ++ [x], ∀ a ∈ as, (List.lookup a.name y.params).isSome) → ∃ t', t.fill b x.params x.val x.accepted = .ok t' := by
    intro g x t ha hg
    have hauto : ∃ au, t.auto.fill x.val = .ok au := by
      have hq' : 0 < i.auto.qLen := by rw [k8]; exact hq
      obtain ⟨c, c1, c2⟩ := AutoCorr.fillAll_after hq' ((recorded i.burnIn i.thin g).map (·.val)) (AutoCorr.after_nil (α := α) i.auto.qLen)
      have : i.auto = AutoCorr.new i.auto.qLen := by rw [k8]; exact hf.auto
      rw [← this, ha.auto] at c1
      cases c1
      obtain ⟨d, d1, _⟩ := AutoCorr.fill_after hq' c2 x.val
      exact ⟨d, d1⟩
    obtain ⟨au, hau⟩ := hauto
    have hhist : ∃ h', t.hist.fillMap x.params 1 = .ok h' := by
      have hh := ha.hist
      rw [if_pos (k4.trans hs)] at hh
      obtain ⟨h', e1, e2, _⟩ := fillSteps_total hv hc (recorded i.burnIn i.thin g) (by
        intro y hy
        unfold recorded at hy
        obtain ⟨p, hp, rfl⟩ := List.mem_map.1 hy
        have := List.fst_mem_of_mem_zipIdx (List.mem_of_mem_filter hp)
        exact hg _ (by simp [this]))
      rw [hh] at e1
      cases e1
      obtain ⟨h'', e3, _⟩ := Histogram.fillMap_total e2 hc x.params (hg x (by simp)) 1
      exact ⟨h'', e3⟩
    obtain ⟨h', hh'⟩ := hhist
    have hrec : t.record x.params x.val = .ok { t with hist := h', auto := au } := by
      unfold MCMCSamples.record MCMCSamples.recordHists
      rw [if_pos (ha.saveFull.trans (k4.trans hs)), hh']
      simp only [Res.ok_bind]
      rw [hau]; rfl
    have hmr : ∃ t1, t.maybeRecord x.params x.val = .ok t1 := by
      unfold MCMCSamples.maybeRecord
      rw [hrec]
      split
      · rw [if_neg (by rw [ha.thin, k6]; exact ht)]
        split
        · exact ⟨_, rfl⟩
        · exact ⟨_, rfl⟩
      · exact ⟨_, rfl⟩
    obtain ⟨t1, hmr⟩ := hmr
    obtain ⟨m1, _⟩ := MCMCSamples.maybeRecord_after ha hmr
    have hnc : ¬ t1.saveChain = true := by
      rw [m1]; show ¬ t.saveChain = true
      rw [ha.saveChain, k7, hch]; simp
    have e : t.ensureInit b = .ok t := by unfold MCMCSamples.ensureInit; rw [ha.initialised]; rfl
    unfold MCMCSamples.fill
    rw [e, Res.ok_bind, hmr, Res.ok_bind]
    unfold MCMCSamples.addRow
    rw [if_neg (show ¬ (t1.countAccepted x.accepted).saveChain = true from hnc), Res.ok_bind]
    exact ⟨_, rfl⟩
  have loop : ∀ (l g : List (ChainStep α)) (t : MCMCSamples α), MCMCSamples.After i g t →
      (∀ y ∈ g ++ l, ∀ a ∈ as, (List.lookup a.name y.params).isSome) → ∃ t', t.fillAll b l = .ok t' := by
    intro l
    induction l with
    | nil => intro g t _ _; exact ⟨t, rfl⟩
    | cons x l ih =>
      intro g t ha hg
      obtain ⟨t1, h1⟩ := stepOk g x t ha (fun y hy => hg y (by
        rcases List.mem_append.1 hy with hy | hy
        · exact List.mem_append_left _ hy
        · exact List.mem_append_right _ (by simpa using Or.inl (by simpa using hy))))
      obtain ⟨t2, h2⟩ := ih (g ++ [x]) t1 (MCMCSamples.fill_after ha h1) (by simpa using hg)
      exact ⟨t2, Res.forFold_cons_eq_ok.2 ⟨t1, h1, h2⟩⟩
  have htot : ∃ s', s.fillAll b h = .ok s' := by
    obtain ⟨t, ht⟩ := loop h [] i (MCMCSamples.after_init hf hi) (by simpa using hm)
    cases h with
    | nil => exact absurd rfl hn
    | cons x l =>
      obtain ⟨t1, h1, h2⟩ := Res.forFold_cons_eq_ok.1 ht
      refine ⟨t, Res.forFold_cons_eq_ok.2 ⟨t1, ?_, h2⟩⟩
      rw [MCMCSamples.fill_fresh hf, hi]; exact h1
  obtain ⟨s', hs'⟩ := htot
  refine ⟨s', hs', ?_⟩
  obtain ⟨i', hi', hh, _⟩ := C54_recorded hf hn hs'
  rw [hi] at hi'; cases hi'
  have hh := hh hs
  obtain ⟨h', e1, _, e3⟩ := fillSteps_total hv hc (recorded s.burnIn s.thin h) (by
    intro y hy
    unfold recorded at hy
    obtain ⟨p, hp, rfl⟩ := List.mem_map.1 hy
    exact hm _ (List.fst_mem_of_mem_zipIdx (List.mem_of_mem_filter hp)))
  rw [hh] at e1; cases e1
  rw [e3, hih, hzero, zero_add]

/-- Bounds and steps for the examples. -/
def exBounds : MCMCBounds ℚ := ⟨[("a", 0), ("b", 0)], [("a", 2), ("b", 2)], 2⟩
def exSteps : List (ChainStep ℚ) := [⟨[("a", 1/2), ("b", 1/2)], 1, true⟩, ⟨[("a", 1/2), ("b", 3/2)], 4, false⟩,
  ⟨[("a", 3/2), ("b", 1/2)], 3, true⟩, ⟨[("a", 1/2), ("b", 1/2)], 7, true⟩, ⟨[("a", 3/2), ("b", 3/2)], 5, false⟩]

/-- A store with burn-in 1, thinning 2 and a chain. -/
def exSampleStore : MCMCSamples ℚ := ⟨false, .empty, 0, 0, 1, 2, false, .new 1000, [], [], .empty, true, [], []⟩

set_option synthInstance.maxSize 4000 in
set_option synthInstance.maxHeartbeats 400000 in
/-- Non-vacuity of C54 with projections and a chain: burn-in 1 and thinning 2 keep steps 2 and 4 of 5. -/
example : ((exSampleStore.fillAll exBounds exSteps >>= fun s =>
    Res.ok (s.proj1.map (fun p => (p.1, p.2.contents)), s.proj2.map (fun p => (p.1, p.2.contents)), s.acceptanceRate.getD 0, s.auto.values, s.chain.length)) :
      Res (List (String × List ℚ) × List (String × List ℚ) × ℚ × List ℚ × Nat)) =
    .ok ([("a", [0, 2]), ("b", [1, 1])], [("b_a", [0, 1, 0, 1])], 3/5, [3, 5], 5) := by decide +kernel

/-- Non-vacuity of C54 with the full histogram (hypotheses of `C54_full_total`). -/
example : ∃ (s : MCMCSamples ℚ) (as : List (BinAxis ℚ)), s.Fresh ∧ s.saveFull = true ∧ s.saveChain = false ∧ s.thin ≠ 0 ∧ 0 < s.auto.qLen ∧
    (AxisCollection.empty : AxisCollection ℚ).addAxes as = .ok s.axes ∧ as ≠ [] ∧ as.length = exBounds.minima.length ∧
    (∀ x ∈ exSteps, ∀ a ∈ as, (List.lookup a.name x.params).isSome) ∧ (recorded s.burnIn s.thin exSteps).length = 2 := by
  have hw : (BinAxis.mkEqual "a" (0 : ℚ) 2 2 >>= fun a => BinAxis.mkEqual "b" (0 : ℚ) 2 2 >>= fun b =>
      (AxisCollection.empty : AxisCollection ℚ).addAxes [a, b] >>= fun c => Res.ok (a.name, b.name)) = .ok ("a", "b") := by decide +kernel
  obtain ⟨a, _, hw⟩ := Res.bind_eq_ok.1 hw
  obtain ⟨b, _, hw⟩ := Res.bind_eq_ok.1 hw
  obtain ⟨c, hc, hw⟩ := Res.bind_eq_ok.1 hw
  have hw := Res.ok.inj hw
  simp only [Prod.mk.injEq] at hw
  refine ⟨⟨true, c, 0, 0, 1, 2, false, .new 1000, [], [], .empty, false, [], []⟩, [a, b], ⟨rfl, rfl, rfl, rfl⟩, rfl, rfl, by simp,
    Nat.zero_lt_succ _, hc, by simp, rfl, ?_, ?_⟩
  swap
  · show (recorded 1 2 exSteps).length = 2
    decide +kernel
  intro x hx y hy
  rcases List.mem_cons.1 hy with rfl | hy
  · rw [hw.1]; revert x; decide +kernel
  · simp at hy; subst hy; rw [hw.2]; revert x; decide +kernel

/-- Two pairs of parameters with the same joined name share one 2D projection, so that one is missing: of the 6 pairs of the names
a, a_a, b, b_a only 5 histograms exist, and the one called b_a_a has the axes b_a and a. -/
theorem C54_joined_name_wrong : ∃ hs : SMap (Histogram ℚ),
    (Res.traverse (fun n => BinAxis.mkEqual n (0 : ℚ) 1 1) ["a", "a_a", "b", "b_a"] >>= fun as =>
      (AxisCollection.empty : AxisCollection ℚ).addAxes as >>= fun c =>
        HistTools.makeAll2 c (Combinations.allCombsNoDiag ["a", "a_a", "b", "b_a"])) = .ok hs ∧
    hs.length = 5 ∧ (SMap.find hs "b_a_a").map (fun h => h.axes.axisNames) = some ["b_a", "a"] := by
  have hw : ((Res.traverse (fun n => BinAxis.mkEqual n (0 : ℚ) 1 1) ["a", "a_a", "b", "b_a"] >>= fun as =>
      (AxisCollection.empty : AxisCollection ℚ).addAxes as >>= fun c =>
        HistTools.makeAll2 c (Combinations.allCombsNoDiag ["a", "a_a", "b", "b_a"])) >>= fun hs =>
          Res.ok (hs.length, (SMap.find hs "b_a_a").map (fun h => h.axes.axisNames))) = .ok (5, some ["b_a", "a"]) := by decide +kernel
  obtain ⟨hs, h, hw⟩ := Res.bind_eq_ok.1 hw
  have hw := Res.ok.inj hw
  simp only [Prod.mk.injEq] at hw
  exact ⟨hs, h, hw⟩

/-- C54, names of the stored chain: a name without dashes is the branch's name; otherwise the first dash, and only it, becomes an
underscore. -/
theorem C54_branch_names (pre post : List Char) (h : '-' ∉ pre) :
    MCMCSamples.branchName (String.ofList pre) = String.ofList pre ∧
    MCMCSamples.branchName (String.ofList (pre ++ '-' :: post)) = String.ofList (pre ++ '_' :: post) := by
  have key : MCMCSamples.branchName.go pre = pre ∧ MCMCSamples.branchName.go (pre ++ '-' :: post) = pre ++ '_' :: post := by
    induction pre with
    | nil => exact ⟨rfl, rfl⟩
    | cons c cs ih =>
      have hc : c ≠ '-' := fun e => h (by simp [e])
      obtain ⟨i1, i2⟩ := ih (fun h' => h (by simp [h']))
      constructor
      · rw [MCMCSamples.branchName.go, if_neg hc, i1]
      · rw [List.cons_append, MCMCSamples.branchName.go, if_neg hc, i2]; rfl
  unfold MCMCSamples.branchName
  rw [String.toList_ofList, String.toList_ofList, key.1, key.2]
  exact ⟨rfl, rfl⟩

/-- Different parameters can get the same branch name. -/
example : MCMCSamples.branchName "a-b" = MCMCSamples.branchName "a_b" ∧ MCMCSamples.branchName "a-b-c" = "a_b-c" := by decide +kernel

end Oxsx
