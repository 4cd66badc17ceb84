import Verif.Props.EventConvolution
import Verif.Props.Configured
import Verif.Props.EventDist
import Verif.Props.FitData
/-
Parameters of smearing systematics whose kernel varies with the value, renamed normalisations of unbinned distributions, and cuts given to a likelihood as
a whole: parts of C86, C69 and C104.
-/
set_option linter.unusedSectionVars false
set_option linter.unusedSimpArgs false
set_option linter.unusedVariables false
namespace Oxsx
variable {σ α : Type} [Field α] [LinearOrder α] [IsStrictOrderedRing α]

/-- C86 (parameters of a varying kernel): values set through the systematic are the gradients of the functions that govern mean and width in the smearing that
follows; what no function governs stays; and a name the first function has is read back. A dictionary that lacks one of the names is refused. -/
theorem C86_varying_parameters (rt : α → α) {c : EventConvolution α} {v : VaryingCDF α} {j : JumpPDF α} {g : Gaussian α} {mean sd : α} {mn sn : String}
    {names : List String} {o : String} (hk : c.dist = some (.varying v)) (hv : v.kernel = some j) (hj : j.pdf = some g) (hl : g.Line mean sd mn sn)
    (hs : v.functions.Sorted) (ho : ∃ os, c.outObs.names = o :: os ∧ ∀ n ∈ o :: os, n ∈ names) (d : ParamDict α) :
    ((∀ p ∈ v.functions, (d.find p.2.paramName).isSome) → ∃ c', c.setParameters d = .ok c' ∧ c'.name = c.name ∧
      c'.Smears rt names o
        (fun x => match SMap.find v.functions mn with | some f => (d.find f.paramName).getD 0 * rt |x| | none => mean)
        (fun x => match SMap.find v.functions sn with | some f => (d.find f.paramName).getD 0 * rt |x| | none => sd) ∧
      ∀ p ps, v.functions = p :: ps → c'.getParameter p.2.paramName = .ok ((d.find p.2.paramName).getD 0)) ∧
    ((∃ p ∈ v.functions, d.find p.2.paramName = none) → c.setParameters d = .throw .parameter) := by
  obtain ⟨h1, h2, _⟩ := C78_varying_parameters v d "" ""
  constructor
  · intro hall
    obtain ⟨v', e1, e2, e3, e4⟩ := h1 hall
    have hs' : v'.functions.Sorted := by
      unfold SMap.Sorted at hs ⊢
      have hp : v'.functions.keys.Pairwise (· < ·) := by
        rw [e2]; unfold SMap.keys; rw [List.pairwise_map]; exact hs
      unfold SMap.keys at hp; rw [List.pairwise_map] at hp; exact hp
    have hgov : ∀ n own x, governedOr rt v'.functions n own x =
        match SMap.find v.functions n with | some f => (d.find f.paramName).getD 0 * rt |x| | none => own := by
      intro n own x
      unfold governedOr
      cases hf : SMap.find v.functions n with
      | some f =>
        obtain ⟨f', g1, g2, g3⟩ := e4 n f hf
        rw [g1]
        simp only
        rw [g3]
        rfl
      | none =>
        have : SMap.find v'.functions n = none := by
          rw [SMap.find_none_iff] at hf ⊢
          rw [e2]; exact hf
        rw [this]
    refine ⟨{ c with dist := some (.varying v') }, ?_, rfl, ⟨⟨_, rfl, ⟨j, g, mean, sd, mn, sn, e3.trans hv, hj, hl, hs', ?_, ?_⟩⟩, ho⟩, ?_⟩
    · unfold EventConvolution.setParameters Kernel.setParameters
      simp only [hk]
      rw [e1]; rfl
    · intro x; exact (hgov mn mean x).symm
    · intro x; exact (hgov sn sd x).symm
    · intro p ps hp
      have hfp : SMap.find v.functions p.1 = some p.2 := SMap.find_of_mem hs (by rw [hp]; simp)
      obtain ⟨f', g1, g2, g3⟩ := e4 p.1 p.2 hfp
      have hkeys := e2
      rw [hp] at hkeys
      cases hv' : v'.functions with
      | nil => rw [hv'] at hkeys; simp [SMap.keys] at hkeys
      | cons q qs =>
        rw [hv'] at hkeys
        have hq : q.1 = p.1 := by simp [SMap.keys] at hkeys; exact hkeys.1
        have : SMap.find v'.functions q.1 = some q.2 := SMap.find_of_mem hs' (by rw [hv']; simp)
        rw [hq, g1] at this
        have hq2 := Option.some.inj this
        show VaryingCDF.getParameter v' _ = _
        unfold VaryingCDF.getParameter
        rw [hv']
        unfold VaryingCDF.getParameterLoop SquareRootScale.getParameter
        rw [← hq2, g2]
        simp [g3]
  · intro hm
    unfold EventConvolution.setParameters Kernel.setParameters
    simp only [hk]
    rw [h2 hm]; rfl

/-- C69 (renaming): a normalisation of an unbinned sum can be given a new name: it is then found under that and no longer under the distribution's; the other
names, the values and the density stay as they were. A name already taken or unknown is refused. -/
theorem C69_rename {ds : List (EDist α)} {m : EDManager α} (h : EDManager.Built ds m) (o n : String) :
    (o ∉ ds.map (·.name) ∨ n ∈ ds.map (·.name) → m.renameParameter o n = .throw .parameter) ∧
    (o ∈ ds.map (·.name) → n ∉ ds.map (·.name) → ∃ m', m.renameParameter o n = .ok m' ∧ m'.getParameter n = m.getParameter o ∧
      m'.getParameter o = .throw .parameter ∧ (∀ k, k ≠ o → k ≠ n → m'.getParameter k = m.getParameter k) ∧ m'.norms = m.norms ∧
      ∀ e, m'.probability e = m.probability e) := by
  have hi := EDManager.inv_of_built h
  have hkeys : ∀ n, n ∈ m.params.getParameterNames ↔ n ∈ ds.map (·.name) := by
    intro n; rw [hi.params]; exact regOf_keys n
  obtain ⟨r1, r2, r3⟩ := C16_registry_rename_partial m.params (by rw [hi.params]; exact regOf_sorted _ _) m.store o n
  constructor
  · intro hh
    unfold EDManager.renameParameter
    rcases hh with hh | hh
    · rw [r1 (fun hc => hh ((hkeys o).1 hc))]; rfl
    · rw [r2 ((hkeys n).2 hh)]; rfl
  · intro ho hn
    obtain ⟨p', e1, _, _, e2, e3, e4, _⟩ := r3 ((hkeys o).2 ho) (fun hc => hn ((hkeys n).1 hc))
    refine ⟨{ m with params := p' }, ?_, e2, e3, e4, rfl, fun _ => rfl⟩
    unfold EDManager.renameParameter
    rw [e1]; rfl

/-- C104 (cuts set as a whole): `SetCuts` before the first evaluation replaces the cuts: the likelihood is that of the entries passing the new ones only, and the
likelihood lists those. -/
theorem C104_set_cuts_partial {name : Nat → String} {C : FitSys σ ℝ} {objs : Nat → σ} {log : List (BinnedED ℝ × NormStatus)} {cons : ConstraintManager ℝ}
    {ps : ParamDict ℝ} {cuts cuts' : List (Cut ℝ)} {d : DataSet ℝ} {first : BinnedED ℝ} {as : List (BinAxis ℝ)} {c : ℝ}
    (h : CanFitData log first as cuts' d) (hp : FitPoint log cons first ps c) :
    ∃ L L', NLLH.configuredData name C objs log cons ps cuts d = .ok L ∧ (L.setCuts cuts').getCuts = cuts' ∧ (L.setCuts cuts').evaluate C CMath.real =
      .ok (some (extendedNLL first.hist.nBins (rateAt log ps) (fun e => rateAt log ps (first.binOf e)) (d.passing cuts') + c), L') := by
  obtain ⟨K, k1, hK⟩ := NLLH.configuredData_unbinned (name := name) (C := C) (objs := objs) (cons := cons) (cuts := cuts) (d := d) h.distinct hp.nonempty hp.all
  have hU : (K.setCuts cuts').Unbinned log cons ps cuts' d :=
    ⟨rfl, hK.data, hK.calced, hK.params, fun dist => by
      have s := hK.simple dist
      exact ⟨s.built, s.work, s.bb, s.buf, s.sys, s.data, s.calced, s.cons, s.comp⟩⟩
  obtain ⟨L', _, e, _⟩ := hU.evaluate h hp C
  exact ⟨K, L', k1, rfl, e⟩

/-! ### The hypotheses are met -/

example : ∃ c', exConv.setParameters [("grad", 3)] = .ok c' ∧ c'.getParameter "grad" = .ok 3 ∧ exConv.setParameters [("g", 3)] = .throw .parameter := by
  obtain ⟨h1, h2⟩ := C86_varying_parameters (fun x => x) (c := exConv) (names := ["e", "r"]) (o := "e") rfl rfl rfl (mean := 1/2) (sd := 1)
    (mn := "means_0") (sn := "stddevs_0") ⟨rfl, rfl, rfl, rfl, rfl⟩ (by decide) ⟨[], rfl, by decide⟩ [("grad", 3)]
  obtain ⟨c', e1, _, _, e2⟩ := h1 (by decide +kernel)
  exact ⟨c', e1, e2 _ _ rfl, by decide +kernel⟩

example : ∃ m m' : EDManager ℚ, EDManager.Built [exAnalytic "a" id, exAnalytic "b" (· + 1)] m ∧ m.renameParameter "a" "c" = .ok m' ∧
    m'.getParameter "a" = .throw .parameter := by
  obtain ⟨m, hb, _⟩ := exTwoDists
  obtain ⟨m', e1, _, e2, _⟩ := (C69_rename hb "a" "c").2 (by simp [exAnalytic, EDist.name]) (by simp [exAnalytic, EDist.name])
  exact ⟨m, m', hb, e1, e2⟩

example (C : FitSys σ ℝ) (objs : Nat → σ) : ∃ L L' v,
    NLLH.configuredData exSysName C objs exTwo .empty [("b", 3), ("s", 2)] [.line "c" "q" 0 "lower"] (exEntries [[0, 1/2], [5, 1/2]]) = .ok L ∧
    (L.setCuts [.line "c" "q" 1 "upper"]).evaluate C CMath.real = .ok (some v, L') := by
  have h1 := exTwo_data [.line "c" "q" 1 "upper"] (by simp [Cut.observable]) [[0, 1/2], [5, 1/2]] (by simp) (by simp) (by norm_num)
  obtain ⟨L, L', e1, _, e2⟩ := C104_set_cuts_partial (name := exSysName) (C := C) (objs := objs) (cuts := [.line "c" "q" 0 "lower"]) h1 exTwo_at
  exact ⟨L, L', _, e1, e2⟩

end Oxsx
