import Verif.Model.EventConvolution
import Verif.Props.EventSystematic
import Verif.Props.Kernels
set_option linter.unusedSectionVars false
set_option linter.unusedSimpArgs false
set_option linter.unusedVariables false
/-
C86: smearing events with EventConvolution.
-/
namespace Oxsx
variable {α : Type} [Field α] [LinearOrder α] [IsStrictOrderedRing α]

/-! ### Specification: the law of a one-dimensional kernel -/

/-- A one-dimensional Gaussian called with `mean`, `sd` and the names of these parameters. -/
structure Gaussian.Line (g : Gaussian α) (mean sd : α) (meanName sdName : String) : Prop where
  dims : g.nDims = 1
  means : g.means = [mean]
  sds : g.stdDevs = [sd]
  meanNames : g.meanNames = [meanName]
  sdNames : g.sdNames = [sdName]

theorem Gaussian.Line.ok {g : Gaussian α} {m s : α} {mn sn : String} (h : g.Line m s mn sn) : g.Ok :=
  ⟨by rw [h.means, h.dims]; rfl, by rw [h.sds, h.dims]; rfl, by rw [h.meanNames, h.dims]; rfl, by rw [h.sdNames, h.dims]; rfl⟩

/-- What a parameter of a varying kernel is at `x`: given by its function if it has one. -/
def governedOr (rt : α → α) (fs : SMap (SquareRootScale α)) (n : String) (own x : α) : α :=
  match SMap.find fs n with
  | some f => f.gradient * rt |x|
  | none => own

/-- The kernel smears a value `x` with a Gaussian of mean `m x` and width `s x`. -/
def Kernel.Law (rt : α → α) (k : Kernel α) (m s : α → α) : Prop :=
  match k with
  | .jump j => ∃ g mean sd mn sn, j.pdf = some g ∧ g.Line mean sd mn sn ∧ (∀ x, m x = mean) ∧ ∀ x, s x = sd
  | .varying v => ∃ j g mean sd mn sn, v.kernel = some j ∧ j.pdf = some g ∧ g.Line mean sd mn sn ∧ v.functions.Sorted ∧
      (∀ x, m x = governedOr rt v.functions mn mean x) ∧ ∀ x, s x = governedOr rt v.functions sn sd x

/-! ### Sampling -/

theorem Gaussian.Line.sample {g : Gaussian α} {m s : α} {mn sn : String} (h : g.Line m s mn sn) (z : Draws α) :
    g.sample z = .ok ([m + s * z.seq z.used], { z with used := z.used + 1 }) := by
  unfold Gaussian.sample
  rw [h.dims]
  simp [List.range_succ, Res.forFold, Gaussian.sampleStep, at_, h.means, h.sds, setIdx, Draws.gaus]

theorem JumpPDF.sample_line {j : JumpPDF α} {g : Gaussian α} {m s : α} {mn sn : String} (hj : j.pdf = some g) (h : g.Line m s mn sn) (x : α)
    (xs : List α) (z : Draws α) : j.sample (x :: xs) z = .ok ([m + s * z.seq z.used + x], { z with used := z.used + 1 }) := by
  unfold JumpPDF.sample
  rw [hj]
  simp only
  rw [h.sample]
  simp [JumpPDF.sum]

/-- Setting parameters of a one-dimensional Gaussian. -/
theorem Gaussian.Line.setParameters {g : Gaussian α} {m s : α} {mn sn : String} (h : g.Line m s mn sn) {d : ParamDict α} (hd : d.Sorted) :
    ∃ g', g.setParameters d = .ok g' ∧ g'.Line ((d.find mn).getD m) ((d.find sn).getD s) mn sn := by
  rw [(Gaussian.setParameters_puts h.ok d).1]
  refine ⟨_, rfl, ?_⟩
  induction d generalizing g m s with
  | nil => exact h
  | cons q r ih =>
    obtain ⟨k, v⟩ := q
    have hr : SMap.Sorted r := (List.pairwise_cons.1 hd).2
    have hk : ∀ p ∈ r, p.1 ≠ k := fun p hp e => by
      have := (List.pairwise_cons.1 hd).1 p hp
      rw [e] at this
      exact absurd this (lt_irrefl _)
    have hnone : SMap.find r k = none := by
      cases hf : SMap.find r k with
      | none => rfl
      | some y => exact absurd rfl (hk _ (SMap.find_mem hf))
    have h' : (g.put k v).Line (if mn = k then v else m) (if sn = k then v else s) mn sn := by
      refine ⟨h.dims, ?_, ?_, h.meanNames, h.sdNames⟩
      · unfold Gaussian.put setNamed; simp [h.means, h.meanNames]
      · unfold Gaussian.put setNamed; simp [h.sds, h.sdNames]
    have := ih h' hr
    simp only [List.foldl_cons]
    rw [SMap.find_cons, SMap.find_cons]
    have e : ∀ n (y : α), (SMap.find r n).getD (if n = k then v else y) = (if k = n then some v else SMap.find r n).getD y := by
      intro n y
      by_cases hn : k = n
      · subst hn; rw [hnone]; simp
      · rw [if_neg hn, if_neg (Ne.symm hn)]
    rw [← e, ← e]
    exact this

/-- A draw from a kernel with a law: one random number is used, the value is as the law says, and the kernel left behind has the same law. -/
theorem Kernel.Law.sample {rt : α → α} {k : Kernel α} {m s : α → α} (h : k.Law rt m s) (x : α) (xs : List α) (z : Draws α) :
    ∃ k', k.sample rt (x :: xs) z = .ok (([m x + s x * z.seq z.used + x], { z with used := z.used + 1 }), k') ∧ k'.Law rt m s := by
  cases k with
  | jump j =>
    obtain ⟨g, mean, sd, mn, sn, hj, hl, hm, hs⟩ := h
    refine ⟨.jump j, ?_, ⟨g, mean, sd, mn, sn, hj, hl, hm, hs⟩⟩
    unfold Kernel.sample
    simp only
    rw [JumpPDF.sample_line hj hl, hm, hs]; rfl
  | varying v =>
    obtain ⟨j, g, mean, sd, mn, sn, hv, hj, hl, hsort, hm, hs⟩ := h
    obtain ⟨g', hset, hl'⟩ := hl.setParameters (d := v.governed rt x) (VaryingCDF.governed_sorted rt hsort x)
    have gov : ∀ n y, (SMap.find (v.governed rt x) n).getD y = governedOr rt v.functions n y x := by
      intro n y
      rw [VaryingCDF.governed_find]
      unfold governedOr
      cases SMap.find v.functions n <;> rfl
    rw [gov, gov] at hl'
    refine ⟨.varying { v with kernel := some { j with pdf := some g' } }, ?_, ⟨{ j with pdf := some g' }, g', _, _, mn, sn, rfl, rfl, hl', hsort, ?_, ?_⟩⟩
    · unfold Kernel.sample VaryingCDF.sample
      simp only [hv]
      rw [VaryingCDF.setup_eq]
      simp only [Res.ok_bind, JumpPDF.setParameters, hj, hset]
      rw [JumpPDF.sample_line (j := { j with pdf := some g' }) rfl hl', hm, hs]; rfl
    · intro y
      rw [hm]
      unfold governedOr
      cases SMap.find v.functions mn <;> rfl
    · intro y
      rw [hs]
      unfold governedOr
      cases SMap.find v.functions sn <;> rfl

/-- The systematic is set up for events with these names: a kernel with law `m`, `s`, and observables the events have, the first of which is
changed. -/
structure EventConvolution.Smears (rt : α → α) (c : EventConvolution α) (names : List String) (o : String) (m s : α → α) : Prop where
  kernel : ∃ k, c.dist = some k ∧ k.Law rt m s
  out : ∃ os, c.outObs.names = o :: os ∧ ∀ n ∈ o :: os, n ∈ names

theorem toObsSet_complete {e : Event α} {names : List String} (he : e.Complete names) {rep : ObsSet} {o : String} {os : List String}
    (hr : rep.names = o :: os) (hm : ∀ n ∈ o :: os, n ∈ names) {x : α} (hx : e.value o = some x) : ∃ xs, e.toObsSet rep = .ok (x :: xs) := by
  have all : ∀ l : List String, (∀ n ∈ l, n ∈ names) → ∃ ys, Res.traverse e.getDatumByName l = .ok ys := by
    intro l
    induction l with
    | nil => intro _; exact ⟨[], rfl⟩
    | cons a r ih =>
      intro hl
      obtain ⟨y, hy⟩ := he.get (hl a (by simp))
      obtain ⟨ys, hys⟩ := ih (fun n hn => hl n (by simp [hn]))
      exact ⟨y :: ys, by unfold Res.traverse; rw [hy, hys]⟩
  obtain ⟨ys, hys⟩ := all os (fun n hn => hm n (by simp [hn]))
  obtain ⟨y, hy⟩ := he.get (hm o (by simp))
  have hxy : y = x := by
    unfold Event.value at hx; rw [hy] at hx; exact Option.some.inj hx
  subst hxy
  refine ⟨ys, ?_⟩
  unfold Event.toObsSet
  rw [hr]
  unfold Res.traverse
  rw [hy, hys]

/-- C86: one event. The observable goes from `x` to `x` plus one draw of the Gaussian with the mean and width the kernel has at `x`; nothing
else in the event changes; exactly one random number is used; the systematic is as good for the next event. -/
theorem C86_event (rt : α → α) {c : EventConvolution α} {names : List String} {o : String} {m s : α → α} (h : c.Smears rt names o m s)
    {e : Event α} (he : e.Complete names) (z : Draws α) :
    ∃ x e' c', e.value o = some x ∧ c.apply rt e z = .ok (e', { z with used := z.used + 1 }, c') ∧ e'.Complete names ∧
      e'.value o = some (x + (m x + s x * z.seq z.used)) ∧ (∀ n, n ≠ o → e'.value n = e.value n) ∧ c'.Smears rt names o m s := by
  obtain ⟨⟨k, hk, hlaw⟩, os, hout, hin⟩ := h
  obtain ⟨x, hx⟩ := he.get (hin o (by simp))
  have hx' : e.value o = some x := by unfold Event.value; rw [hx]; rfl
  obtain ⟨xs, hxs⟩ := toObsSet_complete he hout hin hx'
  obtain ⟨k', hk', hlaw'⟩ := hlaw.sample x xs z
  obtain ⟨e', h1, h2, h3, h4⟩ := he.set (hin o (by simp)) (m x + s x * z.seq z.used + x)
  refine ⟨x, e', { c with dist := some k' }, hx', ?_, h2, by rw [h3, add_comm], h4, ⟨⟨k', rfl, hlaw'⟩, os, hout, hin⟩⟩
  unfold EventConvolution.apply
  rw [hk]
  simp only
  rw [hout, hxs]
  simp only [at_, List.getElem?_cons_zero, Res.ok_bind]
  rw [hk']
  simp only [List.getElem?_cons_zero, Res.ok_bind]
  rw [h1]
  rfl

/-- C86: any number of events. The `i`-th event is smeared with the `i`-th random number and with the mean and width at its own value,
whatever the events before it were. -/
theorem C86_sequence (rt : α → α) {c : EventConvolution α} {names : List String} {o : String} {m s : α → α} (h : c.Smears rt names o m s)
    {es : List (Event α)} (he : ∀ e ∈ es, e.Complete names) (z : Draws α) :
    ∃ es' c', c.applySeq rt es z = .ok (es', { z with used := z.used + es.length }, c') ∧ es'.length = es.length ∧ c'.Smears rt names o m s ∧
      ∀ (i : Nat) (e e' : Event α), es[i]? = some e → es'[i]? = some e' → e'.Complete names ∧ (∀ n, n ≠ o → e'.value n = e.value n) ∧
        ∃ x, e.value o = some x ∧ e'.value o = some (x + (m x + s x * z.seq (z.used + i))) := by
  induction es generalizing c z with
  | nil => exact ⟨[], c, rfl, rfl, h, by intro i e e' h1; simp at h1⟩
  | cons e es ih =>
    obtain ⟨x, e', c', a1, a2, a3, a4, a5, a6⟩ := C86_event rt h (he e (by simp)) z
    obtain ⟨es', c'', b1, b2, b3, b4⟩ := ih a6 (fun q hq => he q (by simp [hq])) { z with used := z.used + 1 }
    refine ⟨e' :: es', c'', ?_, by simp [b2], b3, ?_⟩
    · unfold EventConvolution.applySeq
      rw [a2]
      simp only [Res.ok_bind]
      rw [b1]
      simp [Nat.add_assoc, Nat.add_comm 1]
    · intro i f f' h1 h2
      cases i with
      | zero =>
        simp only [List.getElem?_cons_zero, Option.some.injEq] at h1 h2
        subst h1 h2
        exact ⟨a3, a5, x, a1, a4⟩
      | succ i =>
        simp only [List.getElem?_cons_succ] at h1 h2
        obtain ⟨c1, c2, y, c3, c4⟩ := b4 i f f' h1 h2
        refine ⟨c1, c2, y, c3, ?_⟩
        rw [c4]
        simp [Nat.add_assoc, Nat.add_comm 1]

/-- C86: setting a Gaussian. Only one-dimensional ones are accepted; the systematic then smears with its mean and width. -/
theorem C86_setPDF (rt : α → α) (c : EventConvolution α) {g : Gaussian α} (hg : g.Ok) :
    (g.nDims ≠ 1 → c.setPDF (some g) = .throw .dimension) ∧
    ∀ mean sd mn sn, g.Line mean sd mn sn → ∀ names o os, c.outObs.names = o :: os → (∀ n ∈ o :: os, n ∈ names) →
      ∃ c', c.setPDF (some g) = .ok c' ∧ c'.name = c.name ∧ c'.Smears rt names o (fun _ => mean) (fun _ => sd) := by
  constructor
  · intro h
    unfold EventConvolution.setPDF; simp only; rw [if_pos h]
  · intro mean sd mn sn hl names o os ho hin
    have hc : g.copy = .ok { g with name := g.name ++ "_copy" } := by
      unfold Gaussian.copy; rw [if_neg (by rw [hl.meanNames, hl.sdNames]; simp)]
    refine ⟨{ c with dist := some (.jump ⟨"kernel", some { g with name := g.name ++ "_copy" }⟩) }, ?_, rfl,
      ⟨⟨_, rfl, ⟨_, mean, sd, mn, sn, rfl, ⟨hl.dims, hl.means, hl.sds, hl.meanNames, hl.sdNames⟩, fun _ => rfl, fun _ => rfl⟩⟩, os, ho, hin⟩⟩
    unfold EventConvolution.setPDF JumpPDF.make
    simp only
    rw [if_neg (by rw [hl.dims]; simp), hc]
    rfl

theorem Kernel.Law.clone {rt : α → α} {k : Kernel α} {m s : α → α} (h : k.Law rt m s) : ∃ k', k.clone = .ok k' ∧ k'.Law rt m s := by
  have hc : ∀ {g : Gaussian α} {mean sd : α} {mn sn : String}, g.Line mean sd mn sn →
      g.copy = .ok { g with name := g.name ++ "_copy" } ∧ ({ g with name := g.name ++ "_copy" } : Gaussian α).Line mean sd mn sn := by
    intro g mean sd mn sn hl
    refine ⟨?_, ⟨hl.dims, hl.means, hl.sds, hl.meanNames, hl.sdNames⟩⟩
    unfold Gaussian.copy; rw [if_neg (by rw [hl.meanNames, hl.sdNames]; simp)]
  cases k with
  | jump j =>
    obtain ⟨g, mean, sd, mn, sn, hj, hl, hm, hs⟩ := h
    refine ⟨.jump ⟨j.name, some { g with name := g.name ++ "_copy" }⟩, ?_, ⟨_, mean, sd, mn, sn, rfl, (hc hl).2, hm, hs⟩⟩
    unfold Kernel.clone JumpPDF.clone JumpPDF.make
    simp only [hj]
    rw [(hc hl).1]; rfl
  | varying v =>
    obtain ⟨j, g, mean, sd, mn, sn, hv, hj, hl, hsort, hm, hs⟩ := h
    refine ⟨.varying { v with kernel := some ⟨j.name, some { g with name := g.name ++ "_copy" }⟩ }, ?_, ⟨_, _, mean, sd, mn, sn, rfl, rfl, (hc hl).2, hsort, hm, hs⟩⟩
    unfold Kernel.clone VaryingCDF.clone JumpPDF.clone JumpPDF.make
    simp only [hv, hj]
    rw [(hc hl).1]; rfl

/-- C86: a kernel given by `SetConditionalPDF`, and copies and assignments, smear with the same law. -/
theorem C86_copies (rt : α → α) {c : EventConvolution α} {names : List String} {o : String} {m s : α → α} :
    (∀ k, Kernel.Law rt k m s → (∃ os, c.outObs.names = o :: os ∧ ∀ n ∈ o :: os, n ∈ names) →
      ∃ c', c.setConditionalPDF (some k) = .ok c' ∧ c'.name = c.name ∧ c'.Smears rt names o m s) ∧
    (c.Smears rt names o m s → ∃ c', c.copy = .ok c' ∧ c'.Smears rt names o m s) ∧
    (c.Smears rt names o m s → ∀ d : EventConvolution α, ∃ c', d.assign c = .ok c' ∧ c'.Smears rt names o m s) := by
  refine ⟨?_, ?_, ?_⟩
  · intro k hk ho
    obtain ⟨k', h1, h2⟩ := hk.clone
    refine ⟨{ c with dist := some k' }, ?_, rfl, ⟨⟨k', rfl, h2⟩, ho⟩⟩
    unfold EventConvolution.setConditionalPDF; simp only; rw [h1]; rfl
  · rintro ⟨⟨k, hk, hl⟩, ho⟩
    obtain ⟨k', h1, h2⟩ := hl.clone
    refine ⟨⟨"", some k', c.inObs, c.outObs⟩, ?_, ⟨⟨k', rfl, h2⟩, ho⟩⟩
    unfold EventConvolution.copy; rw [hk]; simp only; rw [h1]; rfl
  · rintro ⟨⟨k, hk, hl⟩, ho⟩ d
    obtain ⟨k', h1, h2⟩ := hl.clone
    refine ⟨⟨d.name, some k', c.inObs, c.outObs⟩, ?_, ⟨⟨k', rfl, h2⟩, ho⟩⟩
    unfold EventConvolution.assign; rw [hk]; simp only; rw [h1]; rfl

/-- C86 (parameters): values set through the systematic are those of the smearing that follows; the other one is kept. -/
theorem C86_parameters (rt : α → α) {c : EventConvolution α} {j : JumpPDF α} {g : Gaussian α} {mean sd : α} {mn sn : String} {names : List String}
    {o : String} (hk : c.dist = some (.jump j)) (hj : j.pdf = some g) (hl : g.Line mean sd mn sn) (hne : mn ≠ sn)
    (ho : ∃ os, c.outObs.names = o :: os ∧ ∀ n ∈ o :: os, n ∈ names) {d : ParamDict α} (hd : d.Sorted) :
    ∃ c', c.setParameters d = .ok c' ∧ c'.name = c.name ∧ c'.Smears rt names o (fun _ => (d.find mn).getD mean) (fun _ => (d.find sn).getD sd) ∧
      c'.getParameter mn = .ok ((d.find mn).getD mean) ∧ c'.getParameter sn = .ok ((d.find sn).getD sd) := by
  obtain ⟨g', h1, h2⟩ := hl.setParameters hd
  refine ⟨{ c with dist := some (.jump { j with pdf := some g' }) }, ?_, rfl, ⟨⟨_, rfl, ⟨g', _, _, mn, sn, rfl, h2, fun _ => rfl, fun _ => rfl⟩⟩, ho⟩, ?_, ?_⟩
  · unfold EventConvolution.setParameters Kernel.setParameters JumpPDF.setParameters
    simp only [hk, hj]
    rw [h1]; rfl
  · show g'.getParameter mn = _
    exact C61_get_partial h2.ok (.inl ⟨by rw [h2.meanNames]; rfl, by rw [h2.means]; rfl⟩)
  · show g'.getParameter sn = _
    exact C61_get_partial h2.ok (.inr ⟨by rw [h2.meanNames]; simp [Ne.symm hne], by rw [h2.sdNames]; rfl, by rw [h2.sds]; rfl⟩)

/-- C86 (one parameter): a single value set through a smearing systematic, which keeps its name, is the one the smearing uses and the one read back; the other
parameter is kept, and a name that is neither is ignored. -/
theorem C86_set_one (rt : α → α) {c : EventConvolution α} {j : JumpPDF α} {g : Gaussian α} {mean sd : α} {mn sn : String} {names : List String}
    {o : String} (hk : c.dist = some (.jump j)) (hj : j.pdf = some g) (hl : g.Line mean sd mn sn) (hne : mn ≠ sn)
    (ho : ∃ os, c.outObs.names = o :: os ∧ ∀ n ∈ o :: os, n ∈ names) (n : String) (v : α) :
    ∃ c', c.setParameter n v = .ok c' ∧ c'.name = c.name ∧
      c'.Smears rt names o (fun _ => if n = mn then v else mean) (fun _ => if n = sn then v else sd) ∧
      c'.getParameter mn = .ok (if n = mn then v else mean) ∧ c'.getParameter sn = .ok (if n = sn then v else sd) := by
  have h1 : g.setParameter n v = .ok (g.put n v) := Gaussian.setParameter_eq hl.ok ..
  have h2 : (g.put n v).Line (if n = mn then v else mean) (if n = sn then v else sd) mn sn := by
    refine ⟨hl.dims, ?_, ?_, hl.meanNames, hl.sdNames⟩
    · unfold Gaussian.put setNamed; simp [hl.means, hl.meanNames, eq_comm]
    · unfold Gaussian.put setNamed; simp [hl.sds, hl.sdNames, eq_comm]
  refine ⟨{ c with dist := some (.jump { j with pdf := some (g.put n v) }) }, ?_, rfl,
    ⟨⟨_, rfl, ⟨g.put n v, _, _, mn, sn, rfl, h2, fun _ => rfl, fun _ => rfl⟩⟩, ho⟩, ?_, ?_⟩
  · unfold EventConvolution.setParameter Kernel.setParameter JumpPDF.setParameter
    simp only [hk, hj]
    rw [h1]; rfl
  · show (g.put n v).getParameter mn = _
    exact C61_get_partial h2.ok (.inl ⟨by rw [h2.meanNames]; rfl, by rw [h2.means]; rfl⟩)
  · show (g.put n v).getParameter sn = _
    exact C61_get_partial h2.ok (.inr ⟨by rw [h2.meanNames]; simp [Ne.symm hne], by rw [h2.sdNames]; rfl, by rw [h2.sds]; rfl⟩)

/-- C86 (start): a new smearing systematic has the name given, no kernel and no observables, so that applying it is refused; a systematic is brought
into use by naming the observables and giving a Gaussian, and keeps its name throughout. -/
theorem C86_configured (rt : α → α) (name : String) {g : Gaussian α} {mean sd : α} {mn sn : String} (hg : g.Line mean sd mn sn) {names : List String} {o : String}
    {os : List String} (hin : ∀ n ∈ o :: os, n ∈ names) :
    (∀ e z, (EventConvolution.new name : EventConvolution α).apply rt e z = .throw .nullPtr) ∧
    ∃ c', ((EventConvolution.new name : EventConvolution α).setOutObservables (o :: os)).setPDF (some g) = .ok c' ∧ c'.name = name ∧
      c'.Smears rt names o (fun _ => mean) (fun _ => sd) := by
  refine ⟨fun e z => rfl, ?_⟩
  obtain ⟨c', h1, h2, h3⟩ := (C86_setPDF rt ((EventConvolution.new name : EventConvolution α).setOutObservables (o :: os)) hg.ok).2 mean sd mn sn hg names o os rfl hin
  exact ⟨c', h1, h2, h3⟩

/-- C86 (refusals): without a kernel every use is a NULLPointerAccessError, also after removing it again; an event without the observable is
refused, and so is a systematic without observables. No random number is used. -/
theorem C86_refused (rt : α → α) (c : EventConvolution α) :
    (c.dist = none → (∀ e z, c.apply rt e z = .throw .nullPtr) ∧ (∀ n x, c.setParameter n x = .throw .nullPtr) ∧ (∀ n, c.getParameter n = .throw .nullPtr) ∧
      (∀ d, c.setParameters d = .throw .nullPtr) ∧ c.getParameters = .throw .nullPtr) ∧
    (∀ name, (EventConvolution.new name : EventConvolution α).dist = none) ∧
    (∃ c', c.setPDF none = .ok c' ∧ c'.dist = none) ∧ (∃ c', c.setConditionalPDF none = .ok c' ∧ c'.dist = none) ∧
    (∀ k e z, c.dist = some k → c.outObs.names = [] → c.apply rt e z = .throw .outOfRange) ∧
    (∀ k e names z o os, c.dist = some k → c.outObs.names = o :: os → e.Complete names → o ∉ names → c.apply rt e z = .throw .notFound) := by
  refine ⟨?_, fun _ => rfl, ⟨_, rfl, rfl⟩, ⟨_, rfl, rfl⟩, ?_, ?_⟩
  · intro h
    refine ⟨fun e z => ?_, fun n x => ?_, fun n => ?_, fun d => ?_, ?_⟩
    · unfold EventConvolution.apply; rw [h]
    · unfold EventConvolution.setParameter; rw [h]
    · unfold EventConvolution.getParameter; rw [h]
    · unfold EventConvolution.setParameters; rw [h]
    · unfold EventConvolution.getParameters; rw [h]
  · intro k e z hk ho
    unfold EventConvolution.apply; rw [hk]; simp only; rw [ho]; rfl
  · intro k e names z o os hk ho he hm
    unfold EventConvolution.apply; rw [hk]; simp only; rw [ho]
    simp only [at_, List.getElem?_cons_zero, Res.ok_bind]
    unfold Event.toObsSet
    rw [ho]; unfold Res.traverse
    rw [he.missing hm]
    rfl

/-- C86 fails for copies: the copy of any systematic has lost its name. -/
theorem C86_copy_name_wrong {c c' : EventConvolution α} (h : c.copy = .ok c') : c'.name = "" := by
  unfold EventConvolution.copy at h
  split at h
  · obtain ⟨k, _, h⟩ := Res.bind_eq_ok.1 h
    rw [← Res.ok.inj h]
  · rw [← Res.ok.inj h]

/-- C86 fails for conditional kernels of more dimensions, which are not refused: applying them reads past the end of the observables. -/
theorem C86_wide_kernel_wrong (rt : α → α) {c : EventConvolution α} {j : JumpPDF α} {g : Gaussian α} {o : String} {names : List String} (hj : j.pdf = some g)
    (hg : g.Ok) (hw : 1 < g.nDims) (ho : c.outObs.names = [o]) (hm : o ∈ names) :
    ∃ c', c.setConditionalPDF (some (.jump j)) = .ok c' ∧ ∀ (e : Event α) z, e.Complete names → c'.apply rt e z = .ub := by
  have hc : g.copy = .ok { g with name := g.name ++ "_copy" } := by
    unfold Gaussian.copy; rw [if_neg (by rw [hg.meanNames, hg.sdNames]; simp)]
  refine ⟨{ c with dist := some (.jump ⟨j.name, some { g with name := g.name ++ "_copy" }⟩) }, ?_, ?_⟩
  · unfold EventConvolution.setConditionalPDF Kernel.clone JumpPDF.clone JumpPDF.make
    simp only [hj]
    rw [hc]; rfl
  · intro e z he
    obtain ⟨x, hx⟩ := he.get hm
    have hx' : e.value o = some x := by unfold Event.value; rw [hx]; rfl
    have hto : e.toObsSet c.outObs = .ok [x] := by
      unfold Event.toObsSet; rw [ho]; unfold Res.traverse; rw [hx]; rfl
    have samp : ∀ z : Draws α, ∃ l z', Gaussian.sample { g with name := g.name ++ "_copy" } z = .ok (l, z') ∧ l.length = g.nDims := by
      intro z
      have gen : ∀ (is : List Nat) (l : List α) (z : Draws α), l.length = g.nDims → (∀ i ∈ is, i < g.nDims) →
          ∃ l' z', Res.forFold (Gaussian.sampleStep { g with name := g.name ++ "_copy" }) (l, z) is = .ok (l', z') ∧ l'.length = g.nDims := by
        intro is
        induction is with
        | nil => intro l z hl _; exact ⟨l, z, rfl, hl⟩
        | cons i is ih =>
          intro l z hl hi
          have h0 := hi i (by simp)
          unfold Res.forFold Gaussian.sampleStep
          simp only
          rw [at_of_lt (by rw [hg.means]; exact h0)]
          simp only [Res.ok_bind]
          rw [at_of_lt (by rw [hg.sds]; exact h0)]
          simp only [Res.ok_bind]
          rw [setIdx_of_lt (by rw [hl]; exact h0)]
          simp only [Res.ok_bind]
          exact ih _ _ (by simpa using hl) (fun k hk => hi k (by simp [hk]))
      exact gen (List.range g.nDims) (List.replicate g.nDims 0) z (by simp) (fun i hi => List.mem_range.1 hi)
    obtain ⟨l, z', hs, hlen⟩ := samp z
    unfold EventConvolution.apply
    simp only
    rw [ho, hto]
    simp only [at_, List.getElem?_cons_zero, Res.ok_bind, Kernel.sample, JumpPDF.sample]
    rw [hs]
    simp only [Res.ok_bind, JumpPDF.sum]
    rw [if_pos (by simp [hlen]; omega)]
    rfl

/-! ### Examples -/

/-- Width 2 at value 1, growing with the value (here the "root" is the identity). -/
def exConv : EventConvolution ℚ :=
  ⟨"smear", some (.varying ⟨"v", [("stddevs_0", ⟨"f", "grad", 2⟩)], some ⟨"kernel", some ⟨[1/2], [1], 6, 1, "g", ["means_0"], ["stddevs_0"]⟩⟩⟩), .ofNames [], .ofNames ["e"]⟩

theorem exConv_smears : exConv.Smears (fun x => x) ["e", "r"] "e" (fun _ => 1/2) (fun x => 2 * |x|) := by
  refine ⟨⟨_, rfl, ⟨_, _, 1/2, 1, "means_0", "stddevs_0", rfl, rfl, ⟨rfl, rfl, rfl, rfl, rfl⟩, by decide, ?_, ?_⟩⟩, [], rfl, by decide⟩
  · intro x; simp [governedOr, SMap.find, show ("stddevs_0" : String) ≠ "means_0" by decide]
  · intro x; simp [governedOr, SMap.find]

-- two events, standard normal draws 1 and -1/4: 4 → 4 + 1/2 + 8·1 and 2 → 2 + 1/2 + 4·(-1/4)
example : (exConv.applySeq (fun x => x) [⟨[4, 9], some ["e", "r"]⟩, ⟨[2, 7], some ["e", "r"]⟩] ⟨fun n => if n = 0 then 1 else -1/4, 0⟩).toOption.map (·.1) =
    some [⟨[25/2, 9], some ["e", "r"]⟩, ⟨[3/2, 7], some ["e", "r"]⟩] := by decide +kernel
example (z : Draws ℚ) : ∃ es' c', exConv.applySeq (fun x => x) [⟨[4, 9], some ["e", "r"]⟩, ⟨[2, 7], some ["e", "r"]⟩] z = .ok (es', { z with used := z.used + 2 }, c') := by
  obtain ⟨es', c', h, _⟩ := C86_sequence (fun x => x) exConv_smears (es := [⟨[4, 9], some ["e", "r"]⟩, ⟨[2, 7], some ["e", "r"]⟩]) (by
    intro e he
    simp only [List.mem_cons, List.not_mem_nil, or_false] at he
    rcases he with rfl | rfl <;> exact ⟨by decide, rfl, rfl⟩) z
  exact ⟨es', c', h⟩
example : ∃ c', exConv.copy = .ok c' ∧ c'.name = "" ∧ exConv.name = "smear" := by
  obtain ⟨c', h, _⟩ := (C86_copies (fun x => x) (names := ["e", "r"]) (o := "e")).2.1 exConv_smears
  exact ⟨c', h, C86_copy_name_wrong h, rfl⟩
example : ∃ c', ((EventConvolution.new "s" : EventConvolution ℚ).setOutObservables ["e"]).setConditionalPDF
    (some (.jump ⟨"k", some ⟨[0, 0], [1, 1], 6, 2, "g", ["a", "b"], ["c", "d"]⟩⟩)) = .ok c' ∧ ∀ (e : Event ℚ) z, e.Complete ["e"] → c'.apply (fun x => x) e z = .ub :=
  C86_wide_kernel_wrong (fun x => x) rfl ⟨rfl, rfl, rfl, rfl⟩ (by decide) rfl (by simp)

end Oxsx
