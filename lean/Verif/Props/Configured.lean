import Verif.Props.Kernels
import Verif.Props.Generator
import Verif.Props.GridSearch
import Verif.Props.HistTools
import Verif.Props.MCMC
import Verif.Props.LeapFrog
import Verif.Props.LazyDataSet
import Verif.Props.Matrix
import Verif.Props.Minuit
import Verif.Props.Ownership
import Verif.Props.Parameters
import Verif.Props.Histogram
import Verif.Props.Slice
import Verif.Props.Shrinker
/-
What a newly made object starts from, and what the configuration calls change and leave alone: parts of C07, C15, C17, C18, C50, C52, C53, C54, C55,
C56, C72, C78, C80, C91 which the theorems on the work done with the objects take as given.
-/
set_option linter.unusedSectionVars false
set_option linter.unusedSimpArgs false
set_option linter.unusedVariables false
namespace Oxsx

section kernels
variable {α : Type} [Field α] [LinearOrder α] [IsStrictOrderedRing α]

/-- C78, the density of a varying kernel: going from `y` to `x` it is that of the kernel with each governed parameter set to what its function
gives at `y`, the point it starts from, and the others as they were. -/
theorem C78_varying_probability (rt ex : α → α) (c : α) {v : VaryingCDF α} {j : JumpPDF α} {g : Gaussian α} (hk : v.kernel = some j) (hj : j.pdf = some g)
    (h : g.Ok) (hv : v.functions.Sorted) (y : α) (ys x : List α) (hl : x.length ≤ ys.length + 1) :
    ∃ g' d d', g'.Ok ∧ g.getParameters = .ok d ∧ g'.getParameters = .ok d' ∧ g'.meanNames = g.meanNames ∧ g'.sdNames = g.sdNames ∧ d'.keys = d.keys ∧
      (∀ m ∈ d.keys, d'.find m = match SMap.find v.functions m with | some f => some (f.gradient * rt |y|) | none => d.find m) ∧
      v.probability rt ex c x (y :: ys) =
        (g'.eval ex c (List.zipWith (· - ·) x (y :: ys)) >>= fun r => Res.ok (r, { v with kernel := some { j with pdf := some g' } })) := by
  obtain ⟨g', d, d', e1, e2, e3, e4, e5, e6, e7, e8⟩ := C61_setParameters h (VaryingCDF.governed_sorted rt hv y)
  refine ⟨g', d, d', e2, e3, e4, e5, e6, e7, ?_, ?_⟩
  · intro m hm
    rw [e8 m hm, VaryingCDF.governed_find]
    cases SMap.find v.functions m <;> rfl
  · unfold VaryingCDF.probability
    rw [hk]
    simp only
    rw [VaryingCDF.setup_eq]
    simp only [Res.ok_bind, JumpPDF.setParameters, hj]
    rw [e1]
    simp only [Res.ok_bind, JumpPDF.probability, JumpPDF.diff]
    rw [if_neg (by simp; omega)]
    rfl

/-- Changing every function under its own key. -/
theorem VaryingCDF.each {β : Type} (step : β → Res β) (l l' : SMap β)
    (h : Res.traverse (fun (p : String × β) => step p.2 >>= fun f => Res.ok (p.1, f)) l = .ok l') :
    l'.keys = l.keys ∧ List.Forall₂ (fun p q => step p.2 = .ok q.2) l l' ∧ ∀ k f, SMap.find l k = some f → ∃ f', SMap.find l' k = some f' ∧ step f = .ok f' := by
  induction l generalizing l' with
  | nil => cases h; exact ⟨rfl, .nil, fun k f hf => by simp [SMap.find] at hf⟩
  | cons p r ih =>
    obtain ⟨a, as, ha, has, rfl⟩ := Res.traverse_cons_eq_ok.1 h
    obtain ⟨f, hf, ha⟩ := Res.bind_eq_ok.1 ha
    cases ha
    obtain ⟨i1, i2, i3⟩ := ih as has
    refine ⟨by simp only [SMap.keys, List.map_cons] at i1 ⊢; rw [i1], .cons hf i2, ?_⟩
    intro k g hg
    obtain ⟨k', f0⟩ := p
    rw [SMap.find_cons] at hg ⊢
    by_cases e : k' = k
    · simp only [e] at hg ⊢
      simp only [if_true] at hg ⊢
      cases hg
      exact ⟨f, rfl, hf⟩
    · simp only [e, if_false] at hg ⊢
      exact i3 k g hg

theorem VaryingCDF.each_ok {β γ : Type} (f : β → Res γ) (l : List β) (h : ∀ p ∈ l, ∃ b, f p = .ok b) : ∃ l', Res.traverse f l = .ok l' := by
  induction l with
  | nil => exact ⟨[], rfl⟩
  | cons p r ih =>
    obtain ⟨b, hb⟩ := h p (by simp)
    obtain ⟨bs, hbs⟩ := ih (fun p hp => h p (by simp [hp]))
    exact ⟨b :: bs, Res.traverse_cons_eq_ok.2 ⟨b, bs, hb, hbs, rfl⟩⟩

theorem VaryingCDF.each_throws {β : Type} (step : β → Res β) (l : SMap β) (hub : ∀ p ∈ l, step p.2 ≠ .ub) {p : String × β} (hp : p ∈ l)
    (h : ∀ f, step p.2 ≠ .ok f) (e : Exc) (he : ∀ p ∈ l, ∀ e', step p.2 = .throw e' → e' = e) :
    Res.traverse (fun (p : String × β) => step p.2 >>= fun f => Res.ok (p.1, f)) l = .throw e := by
  induction l with
  | nil => cases hp
  | cons q r ih =>
    unfold Res.traverse
    cases hq : step q.2 with
    | ub => exact absurd hq (hub q (by simp))
    | throw e' => rw [he q (by simp) e' hq]; rfl
    | ok f =>
      simp only [Res.ok_bind]
      rw [ih (fun p hp => hub p (by simp [hp])) (by
        rcases List.mem_cons.1 hp with rfl | h'
        · exact absurd hq (h f)
        · exact h') (fun p hp => he p (by simp [hp]))]

/-- C78, configuring a varying kernel: a new one has no functions and no kernel and bears the name given, "VaryingCDF" if none; the kernel set is a copy
of the Gaussian given, around which jumps are measured, and leaves the functions; setting the function of one parameter replaces that one and
leaves the others and the kernel. -/
theorem C78_varying_setters (v : VaryingCDF α) (name n : String) (f : SquareRootScale α) {g : Gaussian α} (h : g.Ok) :
    ((VaryingCDF.new "" : VaryingCDF α).name = "VaryingCDF" ∧ (name ≠ "" → (VaryingCDF.new name : VaryingCDF α).name = name) ∧
      (VaryingCDF.new name : VaryingCDF α).functions = [] ∧ (VaryingCDF.new name : VaryingCDF α).kernel = none) ∧
    (∃ v' j g', v.setKernel g = .ok v' ∧ v'.kernel = some j ∧ j.pdf = some g' ∧ g'.means = g.means ∧ g'.stdDevs = g.stdDevs ∧
      g'.meanNames = g.meanNames ∧ g'.sdNames = g.sdNames ∧ g'.cutOff = g.cutOff ∧ v'.functions = v.functions ∧ v'.name = v.name) ∧
    (SMap.find (v.setDependance n f).functions n = some f ∧ (∀ m, m ≠ n → SMap.find (v.setDependance n f).functions m = SMap.find v.functions m) ∧
      (v.setDependance n f).kernel = v.kernel ∧ (v.setDependance n f).name = v.name) := by
  refine ⟨⟨rfl, fun hn => by simp [VaryingCDF.new, hn], rfl, rfl⟩, ?_, ?_⟩
  · have hc : g.copy = .ok { g with name := g.name ++ "_copy" } := by
      unfold Gaussian.copy
      rw [if_neg (by have := h; obtain ⟨a, b, c, d⟩ := h; simp only [ne_eq, not_not]; omega)]
    exact ⟨{ v with kernel := some ⟨"kernel", some { g with name := g.name ++ "_copy" }⟩ }, ⟨"kernel", some { g with name := g.name ++ "_copy" }⟩,
      { g with name := g.name ++ "_copy" }, by unfold VaryingCDF.setKernel JumpPDF.make; simp only [hc, Res.ok_bind], rfl, rfl, rfl, rfl, rfl, rfl, rfl, rfl, rfl⟩
  · refine ⟨?_, ?_, rfl, rfl⟩
    · unfold VaryingCDF.setDependance; simp only [SMap.find_insert]; simp
    · intro m hm; unfold VaryingCDF.setDependance; simp only [SMap.find_insert]; simp [hm, Ne.symm hm]

/-- C78, the parameters of a varying kernel: a dictionary that has the parameter of every function is stored by each of them, under unchanged
dependences, the kernel untouched; one that lacks some is a ParameterError. A renaming reaches every function in the same way. The dictionary given out has exactly
the names of the functions' parameters, with the value of a function that has this name (of each, when those agree). -/
theorem C78_varying_parameters (v : VaryingCDF α) (d : ParamDict α) (old new : String) :
    ((∀ p ∈ v.functions, (d.find p.2.paramName).isSome) → ∃ v', v.setParameters d = .ok v' ∧ v'.functions.keys = v.functions.keys ∧ v'.kernel = v.kernel ∧
      ∀ k f, SMap.find v.functions k = some f → ∃ f', SMap.find v'.functions k = some f' ∧ f'.paramName = f.paramName ∧ d.find f.paramName = some f'.gradient) ∧
    ((∃ p ∈ v.functions, d.find p.2.paramName = none) → v.setParameters d = .throw .parameter) ∧
    ((∀ p ∈ v.functions, p.2.paramName = old) → ∃ v', v.renameParameter old new = .ok v' ∧ v'.functions.keys = v.functions.keys ∧ v'.kernel = v.kernel ∧
      ∀ k f, SMap.find v.functions k = some f → ∃ f', SMap.find v'.functions k = some f' ∧ f'.paramName = new ∧ f'.gradient = f.gradient) ∧
    ((∃ p ∈ v.functions, p.2.paramName ≠ old) → v.renameParameter old new = .throw .parameter) ∧
    (∀ n x, v.getParameters.find n = some x → ∃ p ∈ v.functions, p.2.paramName = n ∧ p.2.gradient = x) ∧
    (∀ p ∈ v.functions, ∃ x, v.getParameters.find p.2.paramName = some x) := by
  refine ⟨fun h => ?_, fun ⟨p, hp, h⟩ => ?_, fun h => ?_, fun ⟨p, hp, h⟩ => ?_, ?_⟩
  · have hok : ∃ l', Res.traverse (fun (p : String × SquareRootScale α) => p.2.setParameters d >>= fun f => Res.ok (p.1, f)) v.functions = .ok l' := by
      refine VaryingCDF.each_ok _ _ (fun p hp => ?_)
      obtain ⟨x, hx⟩ := Option.isSome_iff_exists.1 (h p hp)
      exact ⟨(p.1, { p.2 with gradient := x }), by unfold SquareRootScale.setParameters; rw [hx]; rfl⟩
    obtain ⟨l', hl'⟩ := hok
    obtain ⟨e1, e2, e3⟩ := VaryingCDF.each (fun f : SquareRootScale α => f.setParameters d) _ _ hl'
    refine ⟨{ v with functions := l' }, by unfold VaryingCDF.setParameters; rw [hl']; rfl, e1, rfl, fun k f hf => ?_⟩
    obtain ⟨f', hf', hs⟩ := e3 k f hf
    unfold SquareRootScale.setParameters at hs
    cases hx : d.find f.paramName with
    | none => rw [hx] at hs; cases hs
    | some x => rw [hx] at hs; cases Res.ok.inj hs; exact ⟨_, hf', rfl, rfl⟩
  · unfold VaryingCDF.setParameters
    rw [VaryingCDF.each_throws (fun f => f.setParameters d) v.functions (fun p _ => by unfold SquareRootScale.setParameters; split <;> simp) hp
      (fun f => by unfold SquareRootScale.setParameters; rw [h]; simp) .parameter
      (fun p _ e' => by unfold SquareRootScale.setParameters; split <;> intro h <;> cases h; rfl)]
    rfl
  · have hok : ∃ l', Res.traverse (fun (p : String × SquareRootScale α) => p.2.renameParameter old new >>= fun f => Res.ok (p.1, f)) v.functions = .ok l' := by
      refine VaryingCDF.each_ok _ _ (fun p hp => ?_)
      exact ⟨(p.1, { p.2 with paramName := new }), by unfold SquareRootScale.renameParameter; rw [if_neg (by simp [h p hp])]; rfl⟩
    obtain ⟨l', hl'⟩ := hok
    obtain ⟨e1, e2, e3⟩ := VaryingCDF.each (fun f : SquareRootScale α => f.renameParameter old new) _ _ hl'
    refine ⟨{ v with functions := l' }, by unfold VaryingCDF.renameParameter; rw [hl']; rfl, e1, rfl, fun k f hf => ?_⟩
    obtain ⟨f', hf', hs⟩ := e3 k f hf
    unfold SquareRootScale.renameParameter at hs
    split at hs
    · cases hs
    · cases Res.ok.inj hs; exact ⟨_, hf', rfl, rfl⟩
  · unfold VaryingCDF.renameParameter
    rw [VaryingCDF.each_throws (fun f => f.renameParameter old new) v.functions (fun p _ => by unfold SquareRootScale.renameParameter; split <;> simp) hp
      (fun f => by unfold SquareRootScale.renameParameter; rw [if_pos (Ne.symm h)]; simp) .parameter
      (fun p _ e' => by unfold SquareRootScale.renameParameter; split <;> intro h <;> cases h; rfl)]
    rfl
  · have key : ∀ (l : SMap (SquareRootScale α)) (d : ParamDict α),
        (∀ n x, (l.foldl (fun (d : ParamDict α) p => d.insertAll p.2.getParameters) d).find n = some x →
          d.find n = some x ∨ ∃ p ∈ l, p.2.paramName = n ∧ p.2.gradient = x) ∧
        (∀ n, (d.find n).isSome ∨ (∃ p ∈ l, p.2.paramName = n) → ((l.foldl (fun (d : ParamDict α) p => d.insertAll p.2.getParameters) d).find n).isSome) := by
      intro l
      induction l with
      | nil => intro d; exact ⟨fun n x h => .inl h, fun n h => by rcases h with h | ⟨p, hp, _⟩; exact h; cases hp⟩
      | cons q r ih =>
        intro d
        obtain ⟨i1, i2⟩ := ih (d.insertAll q.2.getParameters)
        have hfind : ∀ n, (d.insertAll q.2.getParameters).find n = (d.find n).or (if q.2.paramName = n then some q.2.gradient else none) := by
          intro n
          rw [SMap.find_insertAll]
          simp only [SquareRootScale.getParameters, SMap.find_cons]
          rfl
        refine ⟨fun n x h => ?_, fun n h => ?_⟩
        · rcases i1 n x h with h1 | ⟨p, hp, h1⟩
          · rw [hfind] at h1
            cases hd : d.find n with
            | some y => rw [hd] at h1; exact .inl h1
            | none =>
              rw [hd] at h1
              simp only [Option.none_or] at h1
              split at h1
              · rename_i e; cases h1; exact .inr ⟨q, by simp, e, rfl⟩
              · cases h1
          · exact .inr ⟨p, by simp [hp], h1⟩
        · refine i2 n ?_
          rcases h with h | ⟨p, hp, h⟩
          · left; rw [hfind]; obtain ⟨y, hy⟩ := Option.isSome_iff_exists.1 h; rw [hy]; rfl
          · rcases List.mem_cons.1 hp with rfl | hp
            · left; rw [hfind, if_pos h]; cases d.find n <;> rfl
            · exact .inr ⟨p, hp, h⟩
    refine ⟨fun n x h => ?_, fun p hp => Option.isSome_iff_exists.1 ((key v.functions []).2 _ (.inr ⟨p, hp, rfl⟩))⟩
    rcases (key v.functions []).1 n x h with h | h
    · simp [SMap.find] at h
    · exact h

/-- Two functions, one parameter name each; the kernel's parameters are set and read through them. -/
example : (VaryingCDF.new "" : VaryingCDF ℚ).name = "VaryingCDF" ∧
    (varying1.setParameters [("grad", 3), ("other", 1)]).toOption.map (·.functions) = some [("stddevs_0", ⟨"f", "grad", 3⟩)] ∧
    (varying1.renameParameter "grad" "slope").toOption.map (·.getParameters) = some [("slope", 2)] ∧
    varying1.setParameters [("other", 1)] = .throw .parameter ∧
    varying1.probability (fun x => x) (fun x => x) 1 [5] [4] = .ok (- 1 / 1024, { varying1 with kernel := some ⟨"kernel", some ⟨[0], [8], 6, 1, "g", ["means_0"], ["stddevs_0"]⟩⟩ }) := by
  decide +kernel

end kernels

section generator
variable {α : Type} [Field α] [LinearOrder α] [IsStrictOrderedRing α] [FloorRing α]

/-- C80, configuring: a new generator is empty; rates and flags given replace those it had and touch nothing else; clearing drops data sets, rates and
sequential flags but keeps the bootstrap flags and the cuts, after it generating is refused, and sets added from then on are the only ones. -/
theorem C80_setters (g : Generator α) (rs : List α) (bs : List Bool) (n : Nat → Nat) (rnd : Nat → Nat → α) (d : DataSet α) (r : α) (q : Bool) :
    ((Generator.new : Generator α).sets = [] ∧ (Generator.new : Generator α).rates = [] ∧ (Generator.new : Generator α).boots = [] ∧
      (Generator.new : Generator α).seqFlags = [] ∧ (Generator.new : Generator α).cuts = []) ∧
    ((g.setExpectedRates rs).rates = rs ∧ (g.setExpectedRates rs).sets = g.sets ∧ (g.setExpectedRates rs).pools = g.pools ∧
      (g.setExpectedRates rs).boots = g.boots ∧ (g.setExpectedRates rs).seqFlags = g.seqFlags ∧ (g.setExpectedRates rs).cuts = g.cuts) ∧
    ((g.setSequentialFlags bs).seqFlags = bs ∧ (g.setSequentialFlags bs).sets = g.sets ∧ (g.setSequentialFlags bs).pools = g.pools ∧
      (g.setSequentialFlags bs).boots = g.boots ∧ (g.setSequentialFlags bs).rates = g.rates ∧ (g.setSequentialFlags bs).cuts = g.cuts) ∧
    ((g.setBootstrap bs).boots = bs ∧ (g.setBootstrap bs).sets = g.sets ∧ (g.setBootstrap bs).pools = g.pools ∧
      (g.setBootstrap bs).seqFlags = g.seqFlags ∧ (g.setBootstrap bs).rates = g.rates ∧ (g.setBootstrap bs).cuts = g.cuts) ∧
    (g.clearDataSets.generate (fun i => .ok (n i)) rnd = .throw .logic ∧ g.clearDataSets.boots = g.boots ∧ g.clearDataSets.cuts = g.cuts ∧
      (g.clearDataSets.addDataSet d r q).sets = [d] ∧ (g.clearDataSets.addDataSet d r q).rates = [r] ∧
      (g.clearDataSets.addDataSet d r q).seqFlags = [q] ∧ (g.clearDataSets.addDataSet d r q).pools = [Pool.added]) :=
  ⟨⟨rfl, rfl, rfl, rfl, rfl⟩, ⟨rfl, rfl, rfl, rfl, rfl, rfl⟩, ⟨rfl, rfl, rfl, rfl, rfl, rfl⟩, ⟨rfl, rfl, rfl, rfl, rfl, rfl⟩,
    (C80_refused g.clearDataSets n rnd).2.1 rfl, rfl, rfl, rfl, rfl, rfl, rfl⟩

/-- Non-vacuity: the example generator, cleared, has nothing left; given new rates it has those. -/
example : exTwoSets.clearDataSets.sets = [] ∧ exTwoSets.sets.length = 2 ∧ (exTwoSets.setExpectedRates [5, 6]).rates = [5, 6] := ⟨rfl, rfl, rfl⟩

end generator

section searches
variable {α : Type} [Field α] [LinearOrder α] [IsStrictOrderedRing α]

/-- C52: a new grid search minimises, and has no grid. -/
theorem C52_default : (GridSearch.new : GridSearch α).maximising = false ∧ (GridSearch.new : GridSearch α).minima = [] ∧
    (GridSearch.new : GridSearch α).maxima = [] ∧ (GridSearch.new : GridSearch α).steps = [] := ⟨rfl, rfl, rfl, rfl⟩

/-- C56: a new Minuit interface takes the errors from a change of one half of a likelihood to be minimised, by Migrad, and has no limits, starting points
or fixed parameters. -/
theorem C56_default : (Minuit.new : Minuit α).getUpperContourEdge = 1 / 2 ∧ (Minuit.new : Minuit α).fcn.flip = false ∧ (Minuit.new : Minuit α).method = "Migrad" ∧
    (Minuit.new : Minuit α).minima = [] ∧ (Minuit.new : Minuit α).maxima = [] ∧ (Minuit.new : Minuit α).initVals = [] ∧
    (Minuit.new : Minuit α).initErrs = [] ∧ (Minuit.new : Minuit α).maximising = false := ⟨rfl, rfl, rfl, rfl, rfl, rfl, rfl, rfl⟩

/-- C53: the Metropolis sampler as a proposal asks for no correction, so that a logged chain accepts a move to a better point always, and to a worse
one when the uniform number is at most the exponential of the change. -/
theorem C53_metropolis_input {s : MetropolisSampler α} {g : String → α → α} {u : α} {cur new : ParamDict α} {c : α}
    (h : (s.input g u).draw cur = .ok (new, c)) : s.draw g cur = .ok new ∧ c = 0 ∧ (s.input g u).unif = u ∧
      ∀ (ex : α → α) (w v : α), MCMC.accepts ex true w v c u = MCMC.accepts ex true w v 0 u := by
  unfold MetropolisSampler.input at h
  obtain ⟨d, hd, h⟩ := Res.bind_eq_ok.1 h
  cases Res.ok.inj h
  exact ⟨hd, rfl, rfl, fun _ _ _ => rfl⟩

/-- C54: a new store of samples drops the first thousand steps, keeps every step after, and keeps no chain and no full histogram; no step is in it. -/
theorem C54_defaults : (MCMCSamples.new : MCMCSamples α).burnIn = 1000 ∧ (MCMCSamples.new : MCMCSamples α).thin = 1 ∧
    (MCMCSamples.new : MCMCSamples α).saveFull = false ∧ (MCMCSamples.new : MCMCSamples α).saveChain = false ∧ (MCMCSamples.new : MCMCSamples α).total = 0 ∧
    (MCMCSamples.new : MCMCSamples α).accepted = 0 ∧ (MCMCSamples.new : MCMCSamples α).axes.nDims = 0 := ⟨rfl, rfl, rfl, rfl, rfl, rfl, rfl⟩

/-- C54, clearing: nothing of the steps stored is left — no counts, no projections, nothing in the full histogram, no autocorrelations — while the binning and
the settings stay; the next step starts afresh. -/
theorem C54_clear_all (s : MCMCSamples α) : s.clear.Fresh ∧ s.clear.proj1 = [] ∧ s.clear.proj2 = [] ∧ s.clear.hist.contents.length = s.hist.contents.length ∧
    (∀ x ∈ s.clear.hist.contents, x = 0) ∧ s.clear.hist.axes = s.hist.axes ∧ s.clear.burnIn = s.burnIn ∧ s.clear.thin = s.thin ∧
    s.clear.saveFull = s.saveFull ∧ s.clear.saveChain = s.saveChain ∧ s.clear.axes = s.axes := by
  refine ⟨⟨rfl, rfl, rfl, rfl⟩, rfl, rfl, ?_, ?_, rfl, rfl, rfl, rfl, rfl, rfl⟩
  · simp [MCMCSamples.clear, Histogram.emptyContents]
  · intro x hx
    simp only [MCMCSamples.clear, Histogram.emptyContents, List.mem_map] at hx
    obtain ⟨_, _, rfl⟩ := hx
    rfl

/-- One default axis per name, in order. -/
theorem guessAxes_from (b : MCMCBounds α) (ns : List String) : ∀ (c c' : AxisCollection α) (as : List (BinAxis α)), AxisCollection.Holds c as →
    Res.forFold (MCMCSamples.guessAxis b) c ns = .ok c' → ∃ bs, AxisCollection.Holds c' (as ++ bs) ∧
      List.Forall₂ (fun n (a : BinAxis α) => a.name = n ∧ a.nBins = b.nGuess ∧ a.Contiguous ∧ ∃ lo hi, SMap.find b.minima n = some lo ∧ SMap.find b.maxima n = some hi ∧
        a.min = lo ∧ (hi ≠ lo → a.max = hi) ∧ (hi = lo → a.max = lo + 1 / 100)) ns bs := by
  induction ns with
  | nil => intro c c' as h e; cases e; exact ⟨[], by simpa using h, .nil⟩
  | cons n ns ih =>
    intro c c' as h e
    obtain ⟨c1, e1, e2⟩ := Res.forFold_cons_eq_ok.1 e
    unfold MCMCSamples.guessAxis at e1
    cases hhi : SMap.find b.maxima n with
    | none => rw [hhi] at e1; cases e1
    | some hi =>
      cases hlo : SMap.find b.minima n with
      | none => rw [hhi, hlo] at e1; cases e1
      | some lo =>
        rw [hhi, hlo] at e1
        simp only at e1
        obtain ⟨a, ha, e1⟩ := Res.bind_eq_ok.1 e1
        have hcont := BinAxis.mkEqual_contiguous ha
        obtain ⟨_, _, rfl⟩ := BinAxis.mkEqual_ok_iff.1 ha
        have hc1 : AxisCollection.Holds c1 (as ++ [_]) := AxisCollection.holds_of_forFold (bs := [_]) h (by
          rw [Res.forFold_cons_eq_ok]; exact ⟨c1, e1, rfl⟩)
        obtain ⟨bs, i1, i2⟩ := ih c1 c' _ hc1 e2
        refine ⟨_ :: bs, by simpa using i1, .cons ⟨rfl, rfl, hcont, lo, hi, hlo, hhi, rfl, fun h => if_neg h, fun h => ?_⟩ i2⟩
        simp only [h, if_true]

/-- C54, the default binning: without axes of one's own the histograms have, for each parameter in order, one axis of the asked number of bins from its lower to its
upper bound — a bound less wide than that, where both bounds are the same number, is widened by 0.01. -/
theorem C54_guessed_axes {s : MCMCSamples α} {b : MCMCBounds α} {c : AxisCollection α} (h0 : s.axes.nDims = 0) (h : s.histAxes b = .ok c) :
    List.Forall₂ (fun n (a : BinAxis α) => a.name = n ∧ a.nBins = b.nGuess ∧ a.Contiguous ∧ ∃ lo hi, SMap.find b.minima n = some lo ∧ SMap.find b.maxima n = some hi ∧
      a.min = lo ∧ (hi ≠ lo → a.max = hi) ∧ (hi = lo → a.max = lo + 1 / 100)) b.minima.keys c.axes := by
  unfold MCMCSamples.histAxes at h
  rw [if_neg (by simpa using h0)] at h
  obtain ⟨bs, h1, h2⟩ := guessAxes_from b _ _ _ [] AxisCollection.holds_empty h
  rw [h1.axes]
  simpa using h2

/-- A degenerate range and an ordinary one. -/
example : ((MCMCSamples.new : MCMCSamples ℚ).histAxes ⟨[("a", 0), ("b", 3)], [("a", 2), ("b", 3)], 4⟩).toOption.map (fun c => c.axes.map (fun a => (a.name, a.min, a.max, a.nBins))) =
    some [("a", 0, 2, 4), ("b", 3, 301 / 100, 4)] := by decide +kernel

/-- C55: a new Hamiltonian sampler gives every parameter of the statistic the mass 1, has no bounds, and takes the step and number of steps given; the gradient it
follows is the central difference of the statistic with a twentieth of the step. -/
theorem C55_new (t : TestStat α) (e : α) (n : Nat) :
    (HamiltonianSampler.new t e n).eps = e ∧ (HamiltonianSampler.new t e n).nSteps = n ∧ (HamiltonianSampler.new t e n).minima = [] ∧
    (HamiltonianSampler.new t e n).maxima = [] ∧ (∀ m, (HamiltonianSampler.new t e n).masses.find m = if m ∈ t.names then some 1 else none) ∧
    (∀ (x g : ParamDict α), x.Sorted → (HamiltonianSampler.new t e n).differ x = .ok g → g.keys = x.keys ∧
      ∀ k v, x.find k = some v → ∃ a b, t.eval (x.insert k (v + e / 20)) = .ok a ∧ t.eval (x.insert k (v - e / 20)) = .ok b ∧
        g.find k = some ((a - b) / 2 / (e / 20))) := by
  refine ⟨rfl, rfl, rfl, rfl, fun m => ?_, fun x g hx hg => ?_⟩
  · have key : ∀ (ns : List String) (d : ParamDict α), (ns.foldl (fun (m : ParamDict α) n => m.insert n 1) d).find m = if m ∈ ns then some 1 else d.find m := by
      intro ns
      induction ns with
      | nil => intro d; simp
      | cons a r ih =>
        intro d
        rw [List.foldl_cons, ih, SMap.find_insert]
        by_cases h1 : m ∈ r
        · simp [h1]
        · by_cases h2 : a = m
          · simp [h2]
          · simp [h1, h2, Ne.symm h2]
    have := key t.names []
    simpa [HamiltonianSampler.new, SMap.find] using this
  · have e1 : e / 20 = e * 5 / 100 := by ring
    rw [e1]
    exact C55_gradient hx hg

/-- C55: the energy is minus the statistic, so that a move which lowers the energy raises the statistic by as much. -/
theorem C55_energy {ll : ParamDict α → Res α} {p q : ParamDict α} {a b : α} (hp : ll p = .ok a) (hq : ll q = .ok b) :
    ∃ x y, hmcEnergy ll p = .ok x ∧ hmcEnergy ll q = .ok y ∧ x + a = 0 ∧ x - y = b - a := by
  refine ⟨-a, -b, by unfold hmcEnergy; rw [hp]; rfl, by unfold hmcEnergy; rw [hq]; rfl, by ring, by ring⟩

example : ((HamiltonianSampler.new (⟨["a", "b"], fun p => .ok ((p.find "a").getD 0 ^ 2)⟩ : TestStat ℚ) 1 3).differ [("a", 3), ("b", 1)]) =
    .ok [("a", 6), ("b", 0)] := by decide +kernel

end searches

section containers
variable {α : Type} [Field α] [LinearOrder α] [IsStrictOrderedRing α]
open AxisCollection Histogram

/-- C07, changing the axes: the histogram has the new axes and as many bins as they say; bins with a number in both are kept as they were, those added are 0. -/
theorem C07_retarget {as : List (BinAxis α)} {c : AxisCollection α} (hc : Holds c as) (hne : as ≠ []) (h : Histogram α) :
    (h.setAxes c).Valid as ∧ (∀ b, b < (shape as).prod → b < h.contents.length → (h.setAxes c).contents[b]? = h.contents[b]?) ∧
    (∀ b, b < (shape as).prod → h.contents.length ≤ b → (h.setAxes c).contents[b]? = some 0) := by
  have hv := valid_ofAxes hc hne
  have hnb : c.nBins = (shape as).prod := hv.nb
  refine ⟨⟨hv.axes, hv.ne, hv.nb, hv.nd, ?_⟩, fun b h1 h2 => ?_, fun b h1 h2 => ?_⟩
  · simp only [setAxes, resize_length]
    exact hnb
  · simp only [setAxes, resize]
    rw [List.getElem?_append_left (by simp; omega), List.getElem?_take, if_pos (by omega)]
  · simp only [setAxes, resize]
    rw [List.getElem?_append_right (by simp; omega), List.getElem?_replicate, if_pos (by simp; omega)]

/-- C07 in one dimension: filling with a number is filling with the list of that number, with the weight given. -/
theorem C07_single {a : BinAxis α} {h : Histogram α} (hv : h.Valid [a]) (hc : a.Contiguous) (v w : α) :
    ∃ h' b x, h.fill1 v w = .ok h' ∧ h.findBin [v] = .ok b ∧ b < a.nBins ∧ h.getBinContent b = .ok x ∧ h'.getBinContent b = .ok (x + w) ∧
      h'.integral = h.integral + w := by
  obtain ⟨h', b, x, e1, e2, e3, e4, e5, _⟩ := (C07_fill_one [a] h hv (by simpa using hc) [v] w).2 rfl
  refine ⟨h', b, x, e1, e2, ?_, e4, e5, ?_⟩
  · rw [hv.nb] at e3; simpa [shape] using e3
  · obtain ⟨h2, f1, _, _, _, f5⟩ := C07_fill_sequence [a] h hv (by simpa using hc) [([v], w)] (by simp)
    have : h2 = h' := by
      have f1' : (h.fill [v] w >>= fun x => Res.ok x) = .ok h2 := by
        unfold fillAll at f1
        obtain ⟨y, f2, f3⟩ := Res.forFold_cons_eq_ok.1 f1
        cases f3; rw [f2]; rfl
      rw [e1] at f1'
      exact (Res.ok.inj f1').symm
    rw [← this, f5]; simp

/-- C72, filling: every histogram is filled with the event once, with weight 1, and stays under its name; one that cannot take it makes the call fail. -/
theorem C72_fill {hs hs' : SMap (Histogram α)} {vals : SMap α} (h : HistTools.fillAll hs vals = .ok hs') :
    hs'.keys = hs.keys ∧ ∀ n p, SMap.find hs n = some p → ∃ p', SMap.find hs' n = some p' ∧ p.fillMap vals 1 = .ok p' := by
  obtain ⟨e1, _, e3⟩ := VaryingCDF.each (fun p : Histogram α => p.fillMap vals 1) hs hs' h
  exact ⟨e1, e3⟩

/-- C18: scaling a matrix scales every component, and the vector it gives, by the factor. -/
theorem C18_scale (m : Matrix' α) (h : m.Sized) (s : α) (i j : Nat) (hi : i < m.nRows) (hj : j < m.nCols) :
    (∃ x, m.getComponent i j = .ok x ∧ (m.scale s).getComponent i j = .ok (x * s)) ∧
    ∀ v w, m.apply v = .ok w → (m.scale s).apply v = .ok (w.map (· * s)) := by
  refine ⟨?_, fun v w hw => ?_⟩
  · unfold Matrix'.getComponent ArmaMat.get Matrix'.scale
    simp only
    rw [if_neg (by omega), if_pos (by rw [h.1, h.2]; exact ⟨hi, hj⟩), if_neg (by omega), if_pos (by rw [h.1, h.2]; exact ⟨hi, hj⟩)]
    exact ⟨_, rfl, rfl⟩
  · unfold Matrix'.apply ArmaMat.mulVec Matrix'.scale at *
    simp only at *
    split at hw
    · cases hw
    · rename_i hl
      rw [if_neg hl]
      have := Res.ok.inj hw
      rw [← this]
      simp only [Res.mapExc, List.map_map]
      congr 1
      apply List.map_congr_left
      intro a _
      simp only [Function.comp_apply]
      rw [← List.sum_map_mul_right]
      congr 1
      apply List.map_congr_left
      intro b _
      ring

/-- C15, registering: a variable registered under a name is the one this name stands for from then on, also if another had it; other names stay. A
container registered with as many names as it has elements gives each its element, otherwise it is a DimensionError. -/
theorem C15_register (m : ParamManager) (r : Ref) (n k : String) (c size : Nat) (names : List String) :
    ((m.add r n).find n = some r ∧ (k ≠ n → (m.add r n).find k = m.find k) ∧ (∀ (s : Store α) x, r.get s = .ok x → (m.add r n).getParameter s n = .ok x)) ∧
    (size ≠ names.length → m.addContainer c size names = .throw .dimension) ∧
    (size = names.length → names.Nodup → ∃ m', m.addContainer c size names = .ok m' ∧ (∀ (i : Nat) n, names[i]? = some n → m'.find n = some (.elem c i)) ∧
      ∀ n, n ∉ names → m'.find n = m.find n) := by
  refine ⟨⟨?_, ?_, ?_⟩, fun h => by unfold ParamManager.addContainer; rw [if_pos h], fun h hn => ?_⟩
  · simp [ParamManager.add, SMap.find_insert]
  · intro hk; simp [ParamManager.add, SMap.find_insert, Ne.symm hk, hk]
  · intro s x hx; simp [ParamManager.getParameter, ParamManager.add, SMap.find_insert, hx, Res.mapExc]
  · refine ⟨_, by unfold ParamManager.addContainer; rw [if_neg (by simpa using h)], ?_⟩
    have key : ∀ (l : List String) (k : Nat) (m : ParamManager), l.Nodup →
        (∀ (i : Nat) n, l[i]? = some n → SMap.find ((l.zipIdx k).foldl (fun (m : ParamManager) p => m.insert p.1 (.elem c p.2)) m) n = some (.elem c (k + i))) ∧
        ∀ n, n ∉ l → SMap.find ((l.zipIdx k).foldl (fun (m : ParamManager) p => m.insert p.1 (.elem c p.2)) m) n = SMap.find m n := by
      intro l
      induction l with
      | nil => intro k m _; exact ⟨by simp, fun n _ => rfl⟩
      | cons a r ih =>
        intro k m hnd
        obtain ⟨ha, hr⟩ := List.nodup_cons.1 hnd
        obtain ⟨i1, i2⟩ := ih (k + 1) (m.insert a (.elem c k)) hr
        simp only [List.zipIdx_cons, List.foldl_cons]
        refine ⟨fun i n hi => ?_, fun n hn => ?_⟩
        · cases i with
          | zero =>
            simp only [List.getElem?_cons_zero, Option.some.injEq] at hi
            subst hi
            rw [i2 a ha, SMap.find_insert]; simp
          | succ i =>
            simp only [List.getElem?_cons_succ] at hi
            rw [i1 i n hi]; congr 2; omega
        · simp only [List.mem_cons, not_or] at hn
          rw [i2 n hn.2, SMap.find_insert]; simp [hn.1, Ne.symm hn.1]
    obtain ⟨e1, e2⟩ := key names 0 m hn
    exact ⟨fun i n hi => by rw [e1 i n hi, Nat.zero_add], e2⟩

/-- C17, registering: a component added comes after those there, which all stay. -/
theorem C17_register (cm : ComponentManager) (c d : ParamManager) : (d ∈ cm.addComponent c ↔ d = c ∨ d ∈ cm) ∧
    (cm.addComponent c).length = cm.length + 1 := by
  simp [ComponentManager.addComponent, or_comm]

/-- Non-vacuity: registering twice under one name, a container of two, and one whose size does not fit. -/
example : SMap.find (ParamManager.add [] (.dbl 0) "a") "a" = some (.dbl 0) ∧
    SMap.find (ParamManager.add (ParamManager.add [] (.dbl 0) "a") (.dbl 1) "a") "a" = some (.dbl 1) ∧
    (ParamManager.addContainer [] 0 2 ["x", "y"]).toOption.map (fun m => (SMap.find m "x", SMap.find m "y")) = some (some (.elem 0 0), some (.elem 0 1)) ∧
    ParamManager.addContainer [] 0 3 ["x", "y"] = .throw .dimension := by decide +kernel

/-- Non-vacuity: the example histogram put on its own axes again keeps its contents. -/
example : exHist.Valid exAxes ∧ (exHist.setAxes exHist.axes).contents = exHist.contents := ⟨exHist_valid, by decide +kernel⟩

end containers

section lazy
variable {α : Type}
open LazyWorld

/-- C50, copies: after copying a lazy data set to a new one, or assigning it to one there is, reading the new one gives what the file of the original gives; the
original and all others keep their files. -/
theorem C50_copied (files : String → Res (DataSet α)) (hf : ∀ f, files f ≠ .ub) (w w' : LazyWorld α) (hw : Reach files w) (i j : Nat)
    (h : w.assign i j = .ok w' ∨ (w.objs i = none ∧ w.copy i j = .ok w')) (k : Nat) :
    ∃ o, w.objs j = some o ∧ (∃ w'', w'.getEntry files i k = .ok (w'', files o.file >>= fun d => d.getEntry k)) ∧
      (∃ w'', w'.getNEntries files i = .ok (w'', files o.file >>= fun d => .ok d.getNEntries)) ∧
      (∀ l, l ≠ i → w'.objs l = w.objs l) ∧ w'.registered = w.registered := by
  have hr : Reach files w' := by
    rcases h with h | ⟨h0, h⟩
    · exact Reach.assign w w' i j hw h
    · exact Reach.copy w w' i j hw h0 h
  have hobj : ∃ o, w.objs j = some o ∧ w' = w.setObj i (some ⟨o.file, none⟩) := by
    rcases h with h | ⟨h0, h⟩
    · unfold LazyWorld.assign at h
      cases hi : w.objs i with
      | none => rw [hi] at h; cases h
      | some oi =>
        cases hj : w.objs j with
        | none => rw [hi, hj] at h; cases h
        | some o => rw [hi, hj] at h; exact ⟨o, rfl, (Res.ok.inj h).symm⟩
    · unfold LazyWorld.copy at h
      cases hj : w.objs j with
      | none => rw [hj] at h; cases h
      | some o => rw [hj] at h; exact ⟨o, rfl, (Res.ok.inj h).symm⟩
  obtain ⟨o, ho, e⟩ := hobj
  have hi : w'.objs i = some ⟨o.file, none⟩ := by rw [e]; simp [setObj]
  obtain ⟨c1, c2⟩ := C50_content files hf w' hr i _ hi k
  refine ⟨o, ho, c1, c2, fun l hl => by rw [e]; simp [setObj, hl], by rw [e]; rfl⟩

/-- Non-vacuity: two data sets, the first assigned to the second. -/
example : ∃ w : LazyWorld ℚ, Reach (fun f => if f = "one" then .ok ⟨[[1], [2]], ["e"], 1⟩ else .throw .io) w ∧
    ∃ w', w.assign 1 0 = .ok w' ∧ w'.objs 1 = some ⟨"one", none⟩ :=
  ⟨(start.construct 0 "one").construct 1 "two", Reach.construct _ _ _ (Reach.construct _ _ _ Reach.start rfl) rfl, _, rfl, rfl⟩

end lazy

section ownership
variable {V : Type}

/-- C91, analytic distributions: without assignments between them programs behave as programs on values do; with one, between two of them that own
something, destroying both is undefined behaviour. -/
theorem C91_analytic_partial {cs : List (OwnCall V)} {vs : ValueState V} {obs : List (List V)} (hno : ∀ o src, OwnCall.assign o src ∉ cs)
    (hv : ValueState.start.run cs = .ok (vs, obs)) :
    (∃ s, OwnState.start.run .analyticED cs = .ok (s, obs) ∧ s.NoLeak) ∧
    ∀ o src v vl wl, o ≠ src → vs src = some (v :: vl) → vs o = some wl →
      OwnState.start.run .analyticED (cs ++ [.assign o src, .destroy src, .destroy o]) = .ub := by
  have hc : ∀ c ∈ cs, OwnerClass.Clones .analyticED c := by
    intro c hc
    cases c with
    | assign o src => exact absurd hc (hno o src)
    | copy o src => rfl
    | _ => trivial
  have hfr : ∀ c ∈ cs, OwnerClass.Frees .analyticED c := by
    intro c hc
    cases c with
    | assign o src => exact absurd hc (hno o src)
    | set o v => rfl
    | _ => trivial
  refine ⟨?_, fun o src v vl wl hne hsrc ho => (C91_shallow_assign_wrong rfl hc hv hne hsrc ho).1⟩
  obtain ⟨s, h1, _, h3⟩ := OwnState.owns_start.run hc hv
  exact ⟨s, h1, h3 hfr (fun a ha => absurd rfl ha)⟩

example : (∀ o src, OwnCall.assign o src ∉ ([.construct 0, .add 0 10, .copy 1 0, .look 1, .destroy 0, .look 1] : List (OwnCall Nat))) ∧
    (OwnState.start.run .analyticED ([.construct 0, .add 0 10, .copy 1 0, .look 1, .destroy 0, .look 1] : List (OwnCall Nat))).toOption.map (·.2) = some [[10], [10]] :=
  ⟨by simp, rfl⟩

end ownership

section shrinker
variable {α : Type} [Field α] [LinearOrder α] [IsStrictOrderedRing α]

/-- C30, asking for a buffer: it gives the pair of the last call for that observable, whatever was asked for the others; NotFoundError where none was set. -/
theorem C30_buffer (calls : List (String × Nat × Nat)) (ov : Bool) (n : String) (l u : Nat) (later : List (String × Nat × Nat)) :
    ((∀ c ∈ calls, c.1 ≠ n) → (configureShrinker calls ov : Shrinker α).getBuffer n = .throw .notFound) ∧
    ((∀ c ∈ later, c.1 ≠ n) → (configureShrinker (calls ++ (n, l, u) :: later) ov : Shrinker α).getBuffer n = .ok (l, u)) := by
  have key : ∀ (cs : List (String × Nat × Nat)), (∀ c ∈ cs, c.1 ≠ n) → ∀ m : SMap (Nat × Nat), SMap.find (cs.foldl (fun (m : SMap (Nat × Nat)) c => m.insert c.1 c.2) m) n = SMap.find m n := by
    intro cs
    induction cs with
    | nil => intro _ m; rfl
    | cons c cs ih =>
      intro h m
      rw [List.foldl_cons, ih (fun c hc => h c (by simp [hc])), SMap.find_insert, if_neg]
      first
        | exact h c (by simp)
        | exact Ne.symm (h c (by simp))
  have hb : ∀ cs : List (String × Nat × Nat), (configureShrinker cs ov : Shrinker α).buffers = buffersOf cs := fun cs => (configure_foldl (α := α) cs Shrinker.new).2.2.2
  refine ⟨fun h => ?_, fun h => ?_⟩
  · unfold Shrinker.getBuffer
    rw [hb, buffersOf, key calls h []]
    rfl
  · unfold Shrinker.getBuffer
    rw [hb, buffersOf, List.foldl_append, List.foldl_cons, key later h, SMap.find_insert, if_pos rfl]

example : (configureShrinker [("x", 1, 2), ("y", 0, 1), ("x", 3, 4)] false : Shrinker ℚ).getBuffer "x" = .ok (3, 4) := by decide +kernel

end shrinker
end Oxsx
