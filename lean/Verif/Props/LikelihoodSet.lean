import Verif.Props.LikelihoodSys
import Verif.Props.SysParams
/-
Property C89: setting the parameters of a likelihood reaches every distribution and every systematic.
-/
set_option linter.unusedSectionVars false
set_option linter.unusedSimpArgs false
set_option linter.unusedVariables false
namespace Oxsx
open AxisCollection NLLH SysManager
variable {σ α : Type} [Field α] [LinearOrder α] [IsStrictOrderedRing α]

/-- The list kept by `RegisterFitComponents`: each name once. -/
theorem registered_spec (name : Nat → String) : ∀ (l acc : List Nat), acc.Nodup →
    (∀ p ∈ l ++ acc, ∀ q ∈ l ++ acc, name p = name q → p = q) →
    (l.foldl (fun (acc : List Nat) p => if name p ∈ acc.map name then acc else acc ++ [p]) acc).Nodup ∧
    ∀ p, p ∈ l.foldl (fun (acc : List Nat) p => if name p ∈ acc.map name then acc else acc ++ [p]) acc ↔ p ∈ l ∨ p ∈ acc := by
  intro l
  induction l with
  | nil => intro acc h _; exact ⟨h, fun p => by simp⟩
  | cons x l ih =>
    intro acc h hinj
    rw [List.foldl_cons]
    by_cases hx : name x ∈ acc.map name
    · rw [if_pos hx]
      obtain ⟨i1, i2⟩ := ih acc h (fun p hp q hq => hinj p (by simp at hp ⊢; tauto) q (by simp at hq ⊢; tauto))
      refine ⟨i1, fun p => ?_⟩
      rw [i2]
      obtain ⟨y, hy, hxy⟩ := List.mem_map.1 hx
      have : y = x := hinj y (by simp [hy]) x (by simp) hxy
      subst this
      constructor
      · rintro (h | h)
        · exact Or.inl (List.mem_cons_of_mem _ h)
        · exact Or.inr h
      · rintro (h | h)
        · rcases List.mem_cons.1 h with rfl | h
          · exact Or.inr hy
          · exact Or.inl h
        · exact Or.inr h
    · rw [if_neg hx]
      have hxa : x ∉ acc := fun h => hx (List.mem_map.2 ⟨x, h, rfl⟩)
      obtain ⟨i1, i2⟩ := ih (acc ++ [x]) (List.nodup_append.2 ⟨h, by simp, by
          intro a ha b hb
          rw [List.mem_singleton] at hb
          subst hb
          rintro rfl
          exact hxa ha⟩)
        (fun p hp q hq => hinj p (by simp at hp ⊢; tauto) q (by simp at hq ⊢; tauto))
      refine ⟨i1, fun p => ?_⟩
      rw [i2]
      simp only [List.mem_append, List.mem_singleton, List.mem_cons]
      tauto

/-- Setting the parameters of different systematics, all of which accept the dictionary. -/
theorem NLLH.setLoop_systematics (C : FitSys σ α) (d : ParamDict α) : ∀ (ps : List Nat) (L : NLLH σ α), ps.Nodup →
    (∀ p ∈ ps, (C.setParameters (L.objs p) d).2 = .ok ()) →
    NLLH.setLoop C d L (ps.map .sys) =
      ({ L with objs := fun p => if p ∈ ps then (C.setParameters (L.objs p) d).1 else L.objs p }, .ok ()) := by
  intro ps
  induction ps with
  | nil => intro L _ _; simp [NLLH.setLoop]
  | cons p ps ih =>
    intro L hn hok
    obtain ⟨hp, hn⟩ := List.nodup_cons.1 hn
    have hne : ∀ q ∈ ps, q ≠ p := fun q hq e => hp (e ▸ hq)
    simp only [List.map_cons, NLLH.setLoop, NLLH.setComponent]
    have h0 := hok p (by simp)
    generalize hr : C.setParameters (L.objs p) d = r at h0
    obtain ⟨s, o⟩ := r
    simp only at h0
    subst h0
    simp only
    rw [ih _ hn]
    · congr 1
      have : (fun q => if q ∈ ps then (C.setParameters (Function.update L.objs p s q) d).1 else Function.update L.objs p s q) =
          fun q => if q ∈ p :: ps then (C.setParameters (L.objs q) d).1 else L.objs q := by
        funext q
        by_cases hq : q = p
        · subst hq
          rw [if_neg hp, if_pos (by simp), Function.update_self, hr]
        · rw [Function.update_of_ne hq]
          by_cases hqs : q ∈ ps
          · rw [if_pos hqs, if_pos (by simp [hqs])]
          · rw [if_neg hqs, if_neg (by simp [hqs, hq])]
      simp only [this]
    · intro q hq
      rw [show ({ L with objs := Function.update L.objs p s } : NLLH σ α).objs q = L.objs q from Function.update_of_ne (hne q hq) _ _]
      exact hok q (by simp [hq])

/-- The likelihood after registering and setting. -/
theorem NLLH.set_reaches {name : Nat → String} {C : FitSys σ α} {M : CMath α} {calls : List ManagerCall}
    {log : List (BinnedED α × NormStatus)} {L : NLLH σ α} (hR : Recorded name C M calls log L)
    (hn : ∀ p ∈ SysLog.added calls, ∀ q ∈ SysLog.added calls, name p = name q → p = q) (hd : PdfLog.DistinctNames log)
    {d : ParamDict α} (hd0 : d ≠ []) (hall : ∀ n ∈ PdfLog.fitted log, (d.find n).isSome)
    (hsys : ∀ p ∈ SysLog.added calls, (C.setParameters (L.objs p) d).2 = .ok ()) :
    ∃ ps : List Nat, ps.Nodup ∧ (∀ p, p ∈ ps ↔ p ∈ SysLog.added calls) ∧
      (L.registerFitComponents name).components = .pdfs :: ps.map .sys ∧
      (L.registerFitComponents name).setParameters C d =
        ({ L.registerFitComponents name with
            pdfs := (L.pdfs.setParameters d).1
            objs := fun p => if p ∈ SysLog.added calls then (C.setParameters (L.objs p) d).1 else L.objs p }, .ok ()) := by
  obtain ⟨hb, hrel, hresp, hass, hkn⟩ := hR.facts
  obtain ⟨i1, i2⟩ := registered_spec name (L.sys.groups.flatMap (·.2)) [] (by simp) (by
    intro p hp q hq
    simp only [List.append_nil] at hp hq
    exact hn p (hrel.perm.mem_iff.1 hp) q (hrel.perm.mem_iff.1 hq))
  have hmem : ∀ p, p ∈ (L.sys.groups.flatMap (·.2)).foldl (fun (acc : List Nat) p =>
      if name p ∈ acc.map name then acc else acc ++ [p]) [] ↔ p ∈ SysLog.added calls := by
    intro p
    rw [i2]
    simp only [List.not_mem_nil, or_false]
    exact hrel.perm.mem_iff
  refine ⟨_, i1, hmem, rfl, ?_⟩
  have hset := (C28_set_get_partial hb hd d hall).2.1
  unfold NLLH.setParameters
  rw [if_neg (by intro h; exact hd0 (List.length_eq_zero_iff.1 h))]
  show NLLH.setLoop C d (L.registerFitComponents name) (.pdfs :: _) = _
  simp only [NLLH.setLoop, NLLH.setComponent]
  have hset : ((L.registerFitComponents name).pdfs.setParameters d).2 = .ok () := hset
  generalize hr : (L.registerFitComponents name).pdfs.setParameters d = r at hset
  obtain ⟨m, o⟩ := r
  simp only at hset
  subst hset
  simp only
  refine (NLLH.setLoop_systematics C d _ { L.registerFitComponents name with pdfs := m } i1 (fun p hp => hsys p ((hmem p).1 hp))).trans ?_
  have hm : (L.pdfs.setParameters d).1 = m := by
    have : L.pdfs.setParameters d = (m, .ok ()) := hr
    rw [this]
  rw [hm]
  simp only [hmem]
  rfl

/-- C89 (partial): after any history, with different names for the systematics added and for the fitted distributions, registering the
components and then setting a dictionary that has every normalisation and that every systematic accepts succeeds; the normalisation
parameter of each fitted distribution is the dictionary's value under its own name; every systematic added to any group has taken its
parameters from the dictionary, and no other object is touched. Missing: systematics of equal names in different groups, for which the
claim is false (`C89_equal_names_wrong`). -/
theorem C89_reaches_partial {name : Nat → String} {C : FitSys σ α} {M : CMath α} {calls : List ManagerCall}
    {log : List (BinnedED α × NormStatus)} {L : NLLH σ α} (hR : Recorded name C M calls log L)
    (hn : ∀ p ∈ SysLog.added calls, ∀ q ∈ SysLog.added calls, name p = name q → p = q) (hd : PdfLog.DistinctNames log)
    {d : ParamDict α} (hd0 : d ≠ []) (hall : ∀ n ∈ PdfLog.fitted log, (d.find n).isSome)
    (hsys : ∀ p ∈ SysLog.added calls, (C.setParameters (L.objs p) d).2 = .ok ()) :
    ∃ L', (L.registerFitComponents name).setParameters C d = (L', .ok ()) ∧
      (∀ n ∈ PdfLog.fitted log, ∀ v, d.find n = some v → L'.pdfs.getParameter n = .ok v) ∧
      (∀ p ∈ SysLog.added calls, L'.objs p = (C.setParameters (L.objs p) d).1) ∧
      (∀ p, p ∉ SysLog.added calls → L'.objs p = L.objs p) := by
  obtain ⟨ps, h1, h2, h3, h4⟩ := NLLH.set_reaches hR hn hd hd0 hall hsys
  refine ⟨_, h4, ?_, ?_, ?_⟩
  · intro n hn' v hv
    exact (C28_set_get_partial hR.facts.1 hd d hall).2.2 n hn' v hv
  · intro p hp; simp only [if_pos hp]
  · intro p hp; simp only [if_neg hp]

/-- C89 (partial), reading back: under the same conditions, if each systematic then reports only values of the dictionary,
`GetParameters` has exactly the names of the fitted distributions and of the systematics' parameters, each with the dictionary's value.
Missing: as for `C89_reaches_partial`. -/
theorem C89_read_back_partial {name : Nat → String} {C : FitSys σ α} {M : CMath α} {calls : List ManagerCall}
    {log : List (BinnedED α × NormStatus)} {L L' : NLLH σ α} (hR : Recorded name C M calls log L)
    (hn : ∀ p ∈ SysLog.added calls, ∀ q ∈ SysLog.added calls, name p = name q → p = q) (hd : PdfLog.DistinctNames log)
    {d : ParamDict α} (hd0 : d ≠ []) (hall : ∀ n ∈ PdfLog.fitted log, (d.find n).isSome)
    (hsys : ∀ p ∈ SysLog.added calls, (C.setParameters (L.objs p) d).2 = .ok ())
    (own : Nat → ParamDict α) (hown : ∀ p ∈ SysLog.added calls, C.getParameters (C.setParameters (L.objs p) d).1 = .ok (own p) ∧
      ∀ k v, (own p).find k = some v → d.find k = some v)
    (hL' : (L.registerFitComponents name).setParameters C d = (L', .ok ())) :
    ∃ g, L'.getParameters C = .ok g ∧
      ∀ k, (SMap.find g k = if k ∈ PdfLog.fitted log ∨ ∃ p ∈ SysLog.added calls, ((own p).find k).isSome then d.find k else none) := by
  classical
  obtain ⟨ps, h1, h2, h3, h4⟩ := NLLH.set_reaches hR hn hd hd0 hall hsys
  rw [h4] at hL'
  have hL' := (Prod.mk.inj hL').1
  have hb : PdfManager.Built log L'.pdfs := by rw [← hL']; exact hR.facts.1.setParameters d
  obtain ⟨p1, p2, p3, p4⟩ := PdfManager.params_ok hb hd
  obtain ⟨g0, g1, g2, g3, g4, g5⟩ := ParamManager.getParameters_ok p1 p3
  have hg0 : ∀ k, SMap.find g0 k = if k ∈ PdfLog.fitted log then d.find k else none := by
    intro k
    by_cases hk : k ∈ PdfLog.fitted log
    · rw [if_pos hk]
      obtain ⟨v, hv⟩ := Option.isSome_iff_exists.1 (hall k hk)
      have hget : L'.pdfs.getParameter k = .ok v := by
        rw [← hL']; exact (C28_set_get_partial hR.facts.1 hd d hall).2.2 k hk v hv
      have hmem := (SMap.find_isSome_iff L'.pdfs.params k).2 ((p4 k).2 hk)
      obtain ⟨r, hr⟩ := Option.isSome_iff_exists.1 hmem
      obtain ⟨w, hw, hrw⟩ := g4 k r hr
      unfold PdfManager.getParameter ParamManager.getParameter at hget
      rw [hr] at hget
      simp only [hrw, Res.mapExc] at hget
      rw [hw, hv, Res.ok.inj hget]
    · rw [if_neg hk]
      exact g5 k ((SMap.find_none_iff _ _).2 (fun h => hk ((p4 k).1 h)))
  have hcomp : L'.components = .pdfs :: ps.map .sys := by rw [← hL']; exact h3
  have hobj : ∀ p ∈ ps, C.getParameters (L'.objs p) = .ok (own p) := by
    intro p hp
    have ha := (h2 p).1 hp
    rw [← hL']
    simp only [if_pos ha]
    exact (hown p ha).1
  unfold NLLH.getParameters
  rw [hcomp]
  have hfold : ∀ (qs : List Nat) (acc : ParamDict α), (∀ p ∈ qs, p ∈ ps) →
      ∃ g, Res.forFold (fun (pd : ParamDict α) c => do
        let d ← L'.componentParameters C c
        pure (pd.insertAll d)) acc (qs.map .sys) = .ok g ∧
        ∀ k, SMap.find g k = (SMap.find acc k).or (if ∃ p ∈ qs, ((own p).find k).isSome then d.find k else none) := by
    intro qs
    induction qs with
    | nil => intro acc _; exact ⟨acc, rfl, fun k => by simp⟩
    | cons q qs ih =>
      intro acc hq
      obtain ⟨g, e1, e2⟩ := ih (acc.insertAll (own q)) (fun p hp => hq p (by simp [hp]))
      refine ⟨g, ?_, ?_⟩
      · rw [List.map_cons]
        simp only [Res.forFold, NLLH.componentParameters]
        rw [hobj q (hq q (by simp))]
        exact e1
      · intro k
        rw [e2, SMap.find_insertAll]
        have ho := (hown q ((h2 q).1 (hq q (by simp)))).2 k
        cases hk : SMap.find acc k with
        | some v => simp
        | none =>
          cases hq' : SMap.find (own q) k with
          | some v => simp [hq', ho v hq']
          | none => simp [hq']
  obtain ⟨g, e1, e2⟩ := hfold ps (SMap.insertAll ([] : ParamDict α) g0) (fun p hp => hp)
  refine ⟨g, ?_, ?_⟩
  · simp only [Res.forFold]
    show ((L'.pdfs.params.getParameters L'.pdfs.store >>= fun d => _) >>= fun _ => _) = _
    rw [g1]
    exact e1
  · intro k
    rw [e2, SMap.find_insertAll, hg0]
    simp only [SMap.find, Option.none_or, h2]
    by_cases hk : k ∈ PdfLog.fitted log
    · obtain ⟨v, hv⟩ := Option.isSome_iff_exists.1 (hall k hk)
      simp [hk, hv]
    · simp [hk]

/-- C89, a missing normalisation: a dictionary that is not empty and lacks the name of a fitted distribution is a `ParameterError`, and no
systematic has been changed. -/
theorem C89_missing {name : Nat → String} {C : FitSys σ α} {M : CMath α} {calls : List ManagerCall}
    {log : List (BinnedED α × NormStatus)} {L : NLLH σ α} (hR : Recorded name C M calls log L) (hd : PdfLog.DistinctNames log)
    {d : ParamDict α} (hd0 : d ≠ []) {n : String} (hn : n ∈ PdfLog.fitted log) (hmiss : d.find n = none) :
    ((L.registerFitComponents name).setParameters C d).2 = .throw .parameter ∧
    ((L.registerFitComponents name).setParameters C d).1.objs = L.objs := by
  obtain ⟨p1, p2, p3, p4⟩ := PdfManager.params_ok hR.facts.1 hd
  obtain ⟨s', pre, n', post, e, _⟩ := C15_missing_partial L.pdfs.params p1 p2 L.pdfs.store p3 d ⟨n, (p4 n).2 hn, hmiss⟩
  have hset : (L.registerFitComponents name).pdfs.setParameters d = (L.pdfs.withStore s', .throw .parameter) := by
    show L.pdfs.setParameters d = _
    unfold PdfManager.setParameters
    rw [e]
  unfold NLLH.setParameters
  rw [if_neg (by intro h; exact hd0 (List.length_eq_zero_iff.1 h))]
  unfold NLLH.registerFitComponents at hset ⊢
  simp only [NLLH.setLoop, NLLH.setComponent, hset]
  exact ⟨trivial, trivial⟩

/-- Systematics whose parameter is named after the object: number 2 has `g2`, number 3 has `g3` (the objects hold their number and value). -/
def exNumbered : FitSys (Nat × ℚ) ℚ where
  response g := ⟨2, 2, ⟨2, 2, fun i j => if i = j then g.2 else 0⟩⟩
  construct g := .ok g
  getParameters g := .ok [("g" ++ toString g.1, g.2)]
  setParameters g d := ((g.1, (SMap.find d ("g" ++ toString g.1)).getD g.2), .ok ())

/-- A likelihood with systematics `p` in group "a" and `q` in group "b", and a distribution in each group. -/
def exGrouped (p q : Nat) : Res (NLLH (Nat × ℚ) ℚ) := do
  let a ← exFitPdf "a" [("x", 2)] [1/2, 1/2]
  let b ← exFitPdf "b" [("x", 2)] [1/4, 3/4]
  let L ← (NLLH.new (fun i => (i, 1)) : NLLH (Nat × ℚ) ℚ).addSystematic exSysName p (some "a")
  let L ← L.addSystematic exSysName q (some "b")
  let L ← L.addPdf exSysName a (some ["a"]) none .direct
  let L ← L.addPdf exSysName b (some ["b"]) none .direct
  pure L

theorem exGrouped_recorded {p q : Nat} {L : NLLH (Nat × ℚ) ℚ} (h : exGrouped p q = .ok L) (M : CMath ℚ) : ∃ a b : BinnedED ℚ,
    exFitPdf "a" [("x", 2)] [1/2, 1/2] = .ok a ∧ exFitPdf "b" [("x", 2)] [1/4, 3/4] = .ok b ∧
    Recorded exSysName exNumbered M [.addTo p "a", .addTo q "b", .addDist a.name ["a"], .addDist b.name ["b"]]
      [(a, .direct), (b, .direct)] L := by
  unfold exGrouped at h
  obtain ⟨a, ha, h⟩ := Res.bind_eq_ok.1 h
  obtain ⟨b, hb, h⟩ := Res.bind_eq_ok.1 h
  obtain ⟨L1, h1, h⟩ := Res.bind_eq_ok.1 h
  obtain ⟨L2, h2, h⟩ := Res.bind_eq_ok.1 h
  obtain ⟨L3, h3, h4⟩ := Res.bind_eq_ok.1 h
  exact ⟨a, b, ha, hb, .addPdf b (some ["b"]) none .direct (.addPdf a (some ["a"]) none .direct
    (.addSystematic q (some "b") (.addSystematic p (some "a") (.new _) h1) h2) h3) h4⟩

/-- **C89 is false when two systematics have the same name.** Numbers 2 and 3 are different systematics called `conv`, with parameters
`g2` and `g3`, in different groups, and both are accepted. Only the first is registered as a fit component: the likelihood accepts a
dictionary with `g3 = 7`, but that systematic keeps its value 1, and its parameter is not among the likelihood's. -/
theorem C89_equal_names_wrong : ∃ (a b : BinnedED ℚ) (L L' : NLLH (Nat × ℚ) ℚ),
    Recorded exSysName exNumbered exMath [.addTo 2 "a", .addTo 3 "b", .addDist a.name ["a"], .addDist b.name ["b"]]
      [(a, .direct), (b, .direct)] L ∧
    (L.registerFitComponents exSysName).setParameters exNumbered [("a", 1), ("b", 2), ("g2", 5), ("g3", 7)] = (L', .ok ()) ∧
    L'.objs 2 = (2, 5) ∧ L'.objs 3 = (3, 1) ∧ L'.getParameters exNumbered = .ok [("a", 1), ("b", 2), ("g2", 5)] := by
  have hw : (exGrouped 2 3 >>= fun L =>
      let r := (L.registerFitComponents exSysName).setParameters exNumbered [("a", 1), ("b", 2), ("g2", 5), ("g3", 7)]
      r.2 >>= fun _ => r.1.getParameters exNumbered >>= fun g => Res.ok (r.1.objs 2, r.1.objs 3, g)) =
      .ok ((2, 5), (3, 1), [("a", 1), ("b", 2), ("g2", 5)]) := by decide +kernel
  obtain ⟨L, hL, hw⟩ := Res.bind_eq_ok.1 hw
  obtain ⟨u, hu, hw⟩ := Res.bind_eq_ok.1 hw
  obtain ⟨g, hg, hw⟩ := Res.bind_eq_ok.1 hw
  obtain ⟨a, b, _, _, hrec⟩ := exGrouped_recorded hL exMath
  have hw := Res.ok.inj hw
  simp only [Prod.mk.injEq] at hw
  refine ⟨a, b, L, _, hrec, Prod.ext rfl hu, hw.1, hw.2.1, ?_⟩
  rw [hg, hw.2.2]

/-- Non-vacuity of C89: systematics `shift` and `conv` in the two groups. -/
example : ∃ (L L' : NLLH (Nat × ℚ) ℚ), exGrouped 1 2 = .ok L ∧
    (∀ p ∈ [1, 2], ∀ q ∈ [1, 2], exSysName p = exSysName q → p = q) ∧
    (L.registerFitComponents exSysName).setParameters exNumbered [("a", 1), ("b", 2), ("g1", 5), ("g2", 7)] = (L', .ok ()) ∧
    L'.objs 1 = (1, 5) ∧ L'.objs 2 = (2, 7) ∧ L'.getParameters exNumbered = .ok [("a", 1), ("b", 2), ("g1", 5), ("g2", 7)] := by
  have hw : (exGrouped 1 2 >>= fun L =>
      let r := (L.registerFitComponents exSysName).setParameters exNumbered [("a", 1), ("b", 2), ("g1", 5), ("g2", 7)]
      r.2 >>= fun _ => r.1.getParameters exNumbered >>= fun g => Res.ok (r.1.objs 1, r.1.objs 2, g)) =
      .ok ((1, 5), (2, 7), [("a", 1), ("b", 2), ("g1", 5), ("g2", 7)]) := by decide +kernel
  obtain ⟨L, hL, hw⟩ := Res.bind_eq_ok.1 hw
  obtain ⟨u, hu, hw⟩ := Res.bind_eq_ok.1 hw
  obtain ⟨g, hg, hw⟩ := Res.bind_eq_ok.1 hw
  have hw := Res.ok.inj hw
  simp only [Prod.mk.injEq] at hw
  refine ⟨L, _, hL, by decide, Prod.ext rfl hu, hw.1, hw.2.1, ?_⟩
  rw [hg, hw.2.2]

/-- C89, the start of every history: a new likelihood has no parameters (whatever the systematics that exist elsewhere), takes any setting without effect, and
has neither data nor constraints: evaluating it is a logic error, and once given a data distribution without bins its value is 0. -/
theorem C89_new {σ α : Type} [Field α] [LinearOrder α] (objs : Nat → σ) (name : Nat → String) (C : FitSys σ α) (M : CMath α) (d : ParamDict α) :
    let L := (NLLH.new objs : NLLH σ α).registerFitComponents name
    L.getParameters C = .ok [] ∧ (L.setParameters C d).2 = .ok () ∧ ((L.setParameters C d).1.getParameters C) = .ok [] ∧
    (L.setParameters C d).1.objs = objs ∧ L.evaluate C M = .throw .logic := by
  intro L
  have hp : (L.setParameters C d) = (L, .ok ()) := by
    unfold NLLH.setParameters
    split
    · rfl
    · rename_i h
      show NLLH.setLoop C d L [.pdfs] = _
      have : L.pdfs.setParameters d = (L.pdfs, .ok ()) := rfl
      simp only [NLLH.setLoop, NLLH.setComponent, this]
  refine ⟨rfl, by rw [hp], by rw [hp]; rfl, by rw [hp]; rfl, rfl⟩

/-- C89 and C31 fail for a likelihood that is given a whole manager of distributions: `SetPdfManager` takes over the distributions but not their
parameters. With the mixed example the manager itself has the parameters "a" and "c", and setting them to 10 and 100 changes the probability of bin 1 from 4 to
734; the likelihood given that manager reports no parameters, accepts the same setting, and stays at 4. -/
theorem C89_setPdfManager_wrong :
    (exManager exMixed >>= fun m => m.getParameters >>= fun g0 =>
      let L := (NLLH.setPdfManager (NLLH.new (fun p => (p, (1 : ℚ))) : NLLH (Nat × ℚ) ℚ) m).registerFitComponents exSysName
      L.getParameters exNumbered >>= fun g => (L.setParameters exNumbered [("a", 10), ("c", 100)]).2 >>= fun _ =>
      (L.setParameters exNumbered [("a", 10), ("c", 100)]).1.pdfs.binProbability 1 >>= fun p =>
      (m.setParameters [("a", 10), ("c", 100)]).1.binProbability 1 >>= fun q => Res.ok (g0, g, p.1, q.1)) =
    .ok ([("a", 0), ("c", 0)], [], 4, 734) := by decide +kernel

/-- **C89** (which values a systematic is built from): when a systematic accepts a dictionary, every parameter it reported
before then reports the dictionary's value, a name the dictionary lacks keeps what it had, and a scaling function is built
from exactly the values reported. -/
theorem C89_own (s : AnySys α) (d : ParamDict α) (hd : SMap.Sorted d) (old : ParamDict α)
    (hold : s.getParameters = .ok old) (hset : (s.setParameters d).2 = .ok ()) :
    (∃ own, (s.setParameters d).1.getParameters = .ok own ∧
      (∀ k v, SMap.find d k = some v → (SMap.find old k).isSome = true → SMap.find own k = some v) ∧
      (∀ k, SMap.find d k = none → SMap.find own k = SMap.find old k)) ∧
    (∀ sys f ps, s = .scaleFunction sys f ps → ∀ y, s.construct = .ok y →
      ∃ sys', sys.constructScaleFunction f old = .ok sys' ∧ y.response = sys'.base.response) := by
  constructor
  · cases s with
    | scale s =>
      have := Res.ok.inj hold; subst this
      simp only [AnySys.setParameters, OneParam.setParameters] at hset ⊢
      cases hf : SMap.find d s.param.name with
      | none => simp [hf] at hset
      | some v =>
        refine ⟨_, rfl, ?_, ?_⟩
        · intro k w hw hk
          simp only [OneParam.getParameters, SMap.find_insert] at hk ⊢
          split at hk
          · next e => subst e; rw [hf] at hw; simp only [if_true]; exact hw
          · simp [SMap.find] at hk
        · intro k hk
          have hne : s.param.name ≠ k := by rintro rfl; rw [hf] at hk; simp at hk
          simp only [OneParam.getParameters, SMap.find_insert, if_neg hne]
    | shift s =>
      have := Res.ok.inj hold; subst this
      simp only [AnySys.setParameters, OneParam.setParameters] at hset ⊢
      cases hf : SMap.find d s.param.name with
      | none => simp [hf] at hset
      | some v =>
        refine ⟨_, rfl, ?_, ?_⟩
        · intro k w hw hk
          simp only [OneParam.getParameters, SMap.find_insert] at hk ⊢
          split at hk
          · next e => subst e; rw [hf] at hw; simp only [if_true]; exact hw
          · simp [SMap.find] at hk
        · intro k hk
          have hne : s.param.name ≠ k := by rintro rfl; rw [hf] at hk; simp at hk
          simp only [OneParam.getParameters, SMap.find_insert, if_neg hne]
    | scaleFunction sys f ps =>
      have := Res.ok.inj hold; subst this
      refine ⟨_, rfl, ?_, ?_⟩ <;> intro k <;> simp only [OwnParams.setParameters, find_foldl_insert d hd]
      · intro v hv _; rw [hv]
      · intro hk; rw [hk]
    | shape s =>
      have := Res.ok.inj hold; subst this
      refine ⟨_, rfl, ?_, ?_⟩ <;> intro k <;> simp only [OwnParams.setParameters, find_foldl_insert d hd]
      · intro v hv _; rw [hv]
      · intro hk; rw [hk]
    | renorm r =>
      have := Res.ok.inj hold; subst this
      refine ⟨_, rfl, ?_, ?_⟩ <;> intro k <;> simp only [Renorm.setParameters, OwnParams.setParameters, find_foldl_insert d hd]
      · intro v hv _; rw [hv]
      · intro hk; rw [hk]
  · rintro sys f ps rfl y hy
    have := Res.ok.inj hold; subst this
    simp only [AnySys.construct, Res.bind_eq_ok] at hy
    obtain ⟨z, hz, hy⟩ := hy
    have := Res.ok.inj hy; subst this
    exact ⟨z, hz, rfl⟩

/-- A scaling function with two parameters accepts new values for one of them. -/
example (sys : AxisSys ℚ) (f : Option (ParamDict ℚ → ℚ → ℚ)) :
    ((AnySys.scaleFunction sys f [("a", 1), ("b", 2)]).setParameters [("a", 5)]).2 = .ok () ∧
    ((AnySys.scaleFunction sys f [("a", 1), ("b", 2)]).setParameters [("a", 5)]).1.getParameters
      = .ok [("a", 5), ("b", 2)] := ⟨rfl, rfl⟩
end Oxsx
