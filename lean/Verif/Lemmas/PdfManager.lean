import Verif.Spec.PdfManager
import Verif.Lemmas.Parameters
import Verif.Lemmas.FailedCalls
set_option linter.unusedSectionVars false
set_option linter.unusedSimpArgs false
set_option linter.unusedVariables false
namespace Oxsx
variable {α : Type} [Field α] [LinearOrder α]

/-- A registry made of the elements of one container. -/
def regOf (c : Nat) (names : List String) : ParamManager :=
  (names.zipIdx).foldl (fun (m : ParamManager) p => m.insert p.1 (.elem c p.2)) []

theorem regFold (c : Nat) (names : List String) : ∀ (k : Nat) (m : ParamManager), m.Sorted →
    SMap.Sorted ((names.zipIdx k).foldl (fun (m : ParamManager) p => m.insert p.1 (.elem c p.2)) m) ∧
    (∀ n, n ∉ names → SMap.find ((names.zipIdx k).foldl (fun (m : ParamManager) p => m.insert p.1 (.elem c p.2)) m) n
      = m.find n) ∧
    (names.Nodup → ∀ (i : Nat) n, names[i]? = some n →
      SMap.find ((names.zipIdx k).foldl (fun (m : ParamManager) p => m.insert p.1 (.elem c p.2)) m) n
        = some (.elem c (k + i))) := by
  induction names with
  | nil => intro k m hm; simp [hm]
  | cons a names ih =>
    intro k m hm
    have hs := SMap.sorted_insert hm a (Ref.elem c k)
    obtain ⟨h1, h2, h3⟩ := ih (k + 1) _ hs
    simp only [List.zipIdx_cons, List.foldl_cons]
    refine ⟨h1, ?_, ?_⟩
    · intro n hn
      rw [h2 n (fun h => hn (List.mem_cons_of_mem _ h)), SMap.find_insert, if_neg]
      exact fun h => hn (h ▸ List.mem_cons_self)
    · intro hnd i n hi
      rw [List.nodup_cons] at hnd
      cases i with
      | zero =>
        simp at hi; subst hi
        rw [h2 _ hnd.1, SMap.find_insert, if_pos rfl]; rfl
      | succ i =>
        simp at hi
        rw [h3 hnd.2 i n hi]
        congr 2; omega

theorem regOf_sorted (c : Nat) (names : List String) : (regOf c names).Sorted :=
  (regFold c names 0 [] SMap.sorted_nil).1

theorem regOf_find {c : Nat} {names : List String} (hn : names.Nodup) {i : Nat} {n : String} (h : names[i]? = some n) :
    SMap.find (regOf c names) n = some (.elem c i) := by
  have := (regFold c names 0 [] SMap.sorted_nil).2.2 hn i n h
  simpa [regOf] using this

theorem regOf_find_none {c : Nat} {names : List String} {n : String} (h : n ∉ names) :
    SMap.find (regOf c names) n = none := by
  have := (regFold c names 0 [] SMap.sorted_nil).2.1 n h
  simpa [regOf, SMap.find] using this

theorem regOf_find_iff {c : Nat} {names : List String} (hn : names.Nodup) {n : String} {r : Ref}
    (h : SMap.find (regOf c names) n = some r) : ∃ i : Nat, names[i]? = some n ∧ r = .elem c i := by
  by_cases hm : n ∈ names
  · obtain ⟨i, hi, he⟩ := List.mem_iff_getElem.1 hm
    have hi' : names[i]? = some n := by simp [hi, he]
    rw [regOf_find hn hi'] at h
    exact ⟨i, hi', by cases h; rfl⟩
  · rw [regOf_find_none hm] at h; cases h

theorem regOf_distinct {c : Nat} {names : List String} (hn : names.Nodup) : (regOf c names).Distinct := by
  have hs := regOf_sorted c names
  unfold ParamManager.Distinct
  refine List.Nodup.map_on ?_ (List.Nodup.of_map (fun p : String × Ref => p.1) (SMap.sorted_nodup hs))
  rintro ⟨n, r⟩ h1 ⟨n', r'⟩ h2 he
  simp only at he
  subst he
  obtain ⟨i, hi, e1⟩ := regOf_find_iff hn (SMap.find_of_mem hs h1)
  obtain ⟨j, hj, e2⟩ := regOf_find_iff hn (SMap.find_of_mem hs h2)
  rw [e1] at e2
  cases e2
  rw [hi] at hj
  cases hj; rfl

theorem regOf_keys {c : Nat} {names : List String} (n : String) : n ∈ (regOf c names).keys ↔ n ∈ names := by
  have key : ∀ (names : List String) (k : Nat) (m : ParamManager),
      n ∈ SMap.keys ((names.zipIdx k).foldl (fun (m : ParamManager) p => m.insert p.1 (.elem c p.2)) m) ↔
        n ∈ names ∨ n ∈ m.keys := by
    intro names
    induction names with
    | nil => intro k m; simp
    | cons a names ih =>
      intro k m
      simp only [List.zipIdx_cons, List.foldl_cons]
      rw [ih, SMap.mem_keys_insert]
      simp only [List.mem_cons]
      tauto
  have := key names 0 []
  simpa [regOf, SMap.keys] using this

/-- Elements passing a test, before position `i`. -/
def rank {β : Type} (p : β → Bool) (l : List β) (i : Nat) : Nat := (l.take i).countP p

theorem rank_succ {β : Type} {p : β → Bool} {l : List β} {i : Nat} {a : β} (h : l[i]? = some a) :
    rank p l (i + 1) = rank p l i + if p a then 1 else 0 := by
  unfold rank
  rw [List.take_add_one, h]
  simp [List.countP_append, List.countP_cons]

theorem rank_le {β : Type} (p : β → Bool) (l : List β) (i : Nat) : rank p l i ≤ l.countP p := by
  unfold rank
  exact (List.take_sublist i l).countP_le

theorem rank_lt {β : Type} {p : β → Bool} {l : List β} {i : Nat} {a : β} (h : l[i]? = some a) (ha : p a = true) :
    rank p l i < l.countP p := by
  have := rank_le p l (i + 1)
  rw [rank_succ h, if_pos ha] at this
  omega

theorem filter_rank {β : Type} {p : β → Bool} {l : List β} : ∀ {i : Nat} {a : β}, l[i]? = some a → p a = true →
    (l.filter p)[rank p l i]? = some a := by
  induction l with
  | nil => intro i a h; simp at h
  | cons b l ih =>
    intro i a h ha
    cases i with
    | zero => simp at h; subst h; simp [rank, ha]
    | succ i =>
      simp at h
      have := ih h ha
      unfold rank at this ⊢
      by_cases hb : p b = true
      · simp [hb, this]
      · simp [hb, this]

theorem rank_map {β γ : Type} (p : γ → Bool) (f : β → γ) (l : List β) (i : Nat) :
    rank p (l.map f) i = rank (fun b => p (f b)) l i := by
  unfold rank
  rw [← List.map_take, List.countP_map]; rfl

theorem rank_all {β : Type} {p : β → Bool} {l : List β} (h : ∀ a ∈ l, p a = true) {i : Nat} (hi : i ≤ l.length) :
    rank p l i = i := by
  unfold rank
  rw [List.countP_eq_length.2 (fun a ha => h a (List.mem_of_mem_take ha))]
  simp [hi]

theorem rank_congr {β : Type} {p q : β → Bool} {l : List β} {i : Nat} (h : ∀ a ∈ l.take i, p a = q a) :
    rank p l i = rank q l i := by
  unfold rank
  exact List.countP_congr (fun a ha => by rw [h a ha])

namespace PdfManager

/-- What every history of calls maintains. -/
structure Inv (log : List (BinnedED α × NormStatus)) (m : PdfManager α) : Prop where
  orig : m.orig = log.map (·.1)
  status : m.status = log.map (·.2)
  work : m.work.length = log.length
  norms : m.norms.length = log.length
  fit : m.fitNorms.length = (PdfLog.fitted log).length
  alld : m.allDirect = log.all (fun p => p.2 = .direct)
  params : m.params = regOf (if m.allDirect then 0 else 1) (PdfLog.fitted log)

theorem fitted_all {log : List (BinnedED α × NormStatus)} (h : log.all (fun p => p.2 = .direct) = true) :
    PdfLog.fitted log = log.map (·.1.name) := by
  unfold PdfLog.fitted
  rw [List.filter_eq_self.2]
  intro p hp
  have := List.all_eq_true.1 h p hp
  simp only [decide_eq_true_eq] at this
  rw [this]; rfl

theorem register_ok {log : List (BinnedED α × NormStatus)} {m : PdfManager α} (ho : m.orig = log.map (·.1))
    (hs : m.status = log.map (·.2)) (hn : m.norms.length = log.length) (hf : m.fitNorms.length = (PdfLog.fitted log).length)
    (ha : m.allDirect = log.all (fun p => p.2 = .direct)) :
    m.registerParameters = .ok { m with params := regOf (if m.allDirect then 0 else 1) (PdfLog.fitted log) } := by
  unfold registerParameters paramNames
  by_cases h : m.allDirect = true
  · have h' : log.all (fun p => p.2 = .direct) = true := by rw [← ha, h]
    simp only [h, if_true, Res.ok_bind, ho, List.map_map]
    have : (log.map ((fun x : BinnedED α => x.name) ∘ fun x => x.1)) = PdfLog.fitted log := by
      rw [fitted_all h']; rfl
    rw [this]
    unfold ParamManager.addContainer
    have hl : m.norms.length = (PdfLog.fitted log).length := by rw [fitted_all h']; simp [hn]
    rw [if_neg (by rw [hl]; simp)]
    rfl
  · simp only [h]
    have ht : Res.traverse (fun i => do
        let s ← at_ m.status i
        let d ← at_ m.orig i
        pure (if s.fittable then [d.name] else [])) (List.range m.orig.length)
        = .ok (log.map (fun p => if p.2.fittable then [p.1.name] else [])) := by
      have : (List.range m.orig.length).map (fun i => match log[i]? with
          | some p => if p.2.fittable then [p.1.name] else []
          | none => []) = log.map (fun p => if p.2.fittable then [p.1.name] else []) := by
        apply List.ext_getElem
        · simp [ho]
        · intro i h1 h2
          simp at h1 h2
          simp [h2]
      rw [← this]
      refine Res.traverse_ok ?_
      intro i hi
      have hi' : i < log.length := by simpa [ho] using hi
      rw [hs, ho, at_of_lt (by simpa using hi'), at_of_lt (by simpa using hi')]
      simp [hi']
    have hfl : (log.map (fun p => if p.2.fittable then [p.1.name] else [])).flatten = PdfLog.fitted log := by
      unfold PdfLog.fitted
      clear * -
      induction log with
      | nil => rfl
      | cons p log ih =>
        by_cases hp : p.2.fittable = true
        · simp [hp, ih]
        · simp [hp, ih]
    simp only [Bool.false_eq_true, if_false] at ht ⊢
    rw [ht]
    simp only [Res.ok_bind, Res.pure_eq, hfl]
    unfold ParamManager.addContainer
    rw [if_neg (by rw [hf]; simp)]
    rfl

theorem set_len {r : Ref} {s s' : Store α} {v : α} (h : r.set s v = .ok s') (c : Nat) :
    (s'.cont c).length = (s.cont c).length := by
  cases r with
  | dbl i => simp only [Ref.set] at h; cases h; rfl
  | elem c' i =>
    simp only [Ref.set] at h
    split at h
    · cases h
    · cases h
      by_cases hc : c = c'
      · subst hc; simp
      · simp [Function.update_of_ne hc]

theorem setLoop_len (m : ParamManager) (d : ParamDict α) (ns : List String) : ∀ (s : Store α) (c : Nat),
    ((m.setLoop d s ns).1.cont c).length = (s.cont c).length := by
  induction ns with
  | nil => intro s c; rfl
  | cons n ns ih =>
    intro s c
    simp only [ParamManager.setLoop]
    cases h : m.setOne d s n with
    | throw e => rfl
    | ub => rfl
    | ok s' =>
      simp only
      rw [ih]
      unfold ParamManager.setOne at h
      split at h
      · exact set_len h c
      · cases h

theorem inv_withStore {log : List (BinnedED α × NormStatus)} {m : PdfManager α} (hi : Inv log m) {s : Store α}
    (h : ∀ c, (s.cont c).length = (m.store.cont c).length) : Inv log (m.withStore s) := by
  refine ⟨hi.orig, hi.status, hi.work, ?_, ?_, hi.alld, hi.params⟩
  · show (s.cont 0).length = _
    rw [h 0]; exact hi.norms
  · show (s.cont 1).length = _
    rw [h 1]; exact hi.fit

theorem reassert_inv {log : List (BinnedED α × NormStatus)} {m m' : PdfManager α} (hi : Inv log m) {b : Bool}
    (h : m.reassertNorms b = .ok m') : Inv log m' ∧ ∃ ns : List α, ns.length = m.norms.length ∧ m' = { m with norms := ns } := by
  unfold reassertNorms at h
  by_cases ha : m.allDirect = true
  · rw [if_pos ha] at h
    cases h
    exact ⟨hi, m.norms, rfl, rfl⟩
  · rw [if_neg ha] at h
    obtain ⟨⟨ns, j⟩, h1, h2⟩ := Res.bind_eq_ok.1 h
    cases h2
    have hlen : (ns, j).1.length = m.norms.length := by
      refine Res.forFold_inv (fun s : List α × Nat => s.1.length = m.norms.length) rfl h1 ?_
      intro s i s' hs _ hst
      unfold reassertStep at hst
      obtain ⟨st, _, hst⟩ := Res.bind_eq_ok.1 hst
      generalize (if b then NormStatus.direct else NormStatus.indirect) = t at hst
      split at hst
      · obtain ⟨v, _, hst⟩ := Res.bind_eq_ok.1 hst
        obtain ⟨l, hl, hst⟩ := Res.bind_eq_ok.1 hst
        cases hst
        unfold setIdx at hl
        split at hl
        · cases hl; simpa using hs
        · cases hl
      · cases hst; exact hs
    simp only at hlen
    exact ⟨⟨hi.orig, hi.status, hi.work, by rw [← hi.norms]; exact hlen, hi.fit, hi.alld, hi.params⟩, ns, hlen, rfl⟩

theorem distortEDs_len {sm : SysManager α} {orig work w : List (BinnedED α)} {n n' : Option (List α)}
    (h : sm.distortEDs orig work n = .ok (w, n')) : w.length = work.length ∧ n'.map List.length = n.map List.length := by
  unfold SysManager.distortEDs at h
  refine Res.forFold_inv (fun s : List (BinnedED α) × Option (List α) =>
    s.1.length = work.length ∧ s.2.map List.length = n.map List.length) ⟨rfl, rfl⟩ h ?_
  rintro ⟨w1, n1⟩ i ⟨w2, n2⟩ ⟨hs1, hs2⟩ _ hst
  obtain ⟨o, _, hst⟩ := Res.bind_eq_ok.1 hst
  cases hf : SMap.find sm.edGroups o.name with
  | none => rw [hf] at hst; cases hst; exact ⟨hs1, hs2⟩
  | some gs =>
    rw [hf] at hst
    simp only at hst
    obtain ⟨d, _, hst⟩ := Res.bind_eq_ok.1 hst
    obtain ⟨w3, hw3, hst⟩ := Res.bind_eq_ok.1 hst
    have := setIdx_len hw3
    simp only at hs1 hs2 this
    cases n1 with
    | none => simp only at hst; cases hst; exact ⟨by simp only; omega, hs2⟩
    | some l =>
      simp only at hst
      obtain ⟨l', hl', hst⟩ := Res.bind_eq_ok.1 hst
      cases hst
      have h2 := setIdx_len hl'
      refine ⟨by simp only; omega, ?_⟩
      rw [← hs2]
      simp [h2]

theorem Inv.of_core {log : List (BinnedED α × NormStatus)} {m m' : PdfManager α} (hi : Inv log m) (h : Core m' m) : Inv log m' :=
  ⟨h.orig.trans hi.orig, h.status.trans hi.status, h.wlen.trans hi.work, h.nlen.trans hi.norms,
    (congrArg List.length h.fit).trans hi.fit, h.alld.trans hi.alld, by rw [h.alld]; exact h.params.trans hi.params⟩

theorem inv_of_built {log : List (BinnedED α × NormStatus)} {m : PdfManager α} (h : Built log m) : Inv log m := by
  induction h with
  | new => exact ⟨rfl, rfl, rfl, rfl, rfl, rfl, rfl⟩
  | @addPdf log m m' pdf st hb ha hi =>
    unfold PdfManager.addPdf at ha
    generalize hM : ({ m with
      orig := m.orig ++ [pdf]
      work := m.work ++ [pdf]
      norms := resize m.norms (m.orig.length + 1) 0
      status := m.status ++ [st]
      fitNorms := if st.fittable then m.fitNorms ++ [0] else m.fitNorms
      allDirect := if st ≠ .direct then false else m.allDirect } : PdfManager α) = M at ha
    have e1 : M.orig = (log ++ [(pdf, st)]).map (·.1) := by rw [← hM]; simp [hi.orig]
    have e2 : M.status = (log ++ [(pdf, st)]).map (·.2) := by rw [← hM]; simp [hi.status]
    have e3 : M.norms.length = (log ++ [(pdf, st)]).length := by rw [← hM]; simp [hi.orig]
    have e4 : M.fitNorms.length = (PdfLog.fitted (log ++ [(pdf, st)])).length := by
      rw [← hM]
      have := hi.fit
      unfold PdfLog.fitted at this ⊢
      by_cases hst : st.fittable = true
      · simp [hst, this]
      · simp [hst, this]
    have e5 : M.allDirect = (log ++ [(pdf, st)]).all (fun p => p.2 = .direct) := by
      rw [← hM]
      have := hi.alld
      by_cases hst : st = .direct
      · simp [hst, this]
      · simp [hst]
    rw [register_ok e1 e2 e3 e4 e5] at ha
    have := Res.ok.inj ha
    subst this
    refine ⟨e1, e2, ?_, e3, e4, e5, rfl⟩
    show M.work.length = _
    rw [← hM]; simp [hi.work]
  | @setParameters log m d hb hi =>
    refine inv_withStore hi (fun c => ?_)
    exact setLoop_len _ _ _ _ _
  | @setParameter log m m' n v hb ha hi =>
    unfold PdfManager.setParameter at ha
    obtain ⟨s, hs, ha⟩ := Res.bind_eq_ok.1 ha
    cases ha
    refine inv_withStore hi (fun c => ?_)
    unfold ParamManager.setParameter at hs
    rw [Res.mapExc_eq_ok] at hs
    split at hs
    · exact set_len hs c
    · cases hs
  | @setNormalisations log m m' ns hb ha hi =>
    unfold PdfManager.setNormalisations at ha
    split at ha
    · cases ha
    · rename_i hl
      cases ha
      refine ⟨hi.orig, hi.status, hi.work, ?_, hi.fit, hi.alld, hi.params⟩
      push Not at hl
      simp only [hl, hi.orig, List.length_map]
  | @reassertNorms log m m' b hb ha hi => exact (reassert_inv hi ha).1
  | @binProbability log m m' v b hb ha hi =>
    unfold PdfManager.binProbability at ha
    obtain ⟨m1, h1, ha⟩ := Res.bind_eq_ok.1 ha
    obtain ⟨⟨v, j⟩, _, ha⟩ := Res.bind_eq_ok.1 ha
    cases ha
    exact (reassert_inv hi h1).1
  | @probability log m m' v b hb ha hi =>
    unfold PdfManager.probability at ha
    obtain ⟨m1, h1, ha⟩ := Res.bind_eq_ok.1 ha
    obtain ⟨⟨v, j⟩, _, ha⟩ := Res.bind_eq_ok.1 ha
    cases ha
    exact (reassert_inv hi h1).1
  | @applySystematics log m m' sm hb ha hi =>
    unfold PdfManager.applySystematics at ha
    split at ha
    · cases ha; exact hi
    · split at ha
      · obtain ⟨⟨w, n⟩, h1, ha⟩ := Res.bind_eq_ok.1 ha
        cases ha
        refine ⟨hi.orig, hi.status, ?_, hi.norms, hi.fit, hi.alld, hi.params⟩
        rw [← hi.work]; exact (distortEDs_len h1).1
      · obtain ⟨⟨w, n⟩, h1, ha⟩ := Res.bind_eq_ok.1 ha
        obtain ⟨ns, h2, ha⟩ := Res.bind_eq_ok.1 ha
        cases ha
        have hl : ns.length = m.norms.length := by
          refine Res.forFold_inv (fun s : List α => s.length = m.norms.length) rfl h2 ?_
          intro s i s' hs _ hst
          unfold sysNormStep at hst
          obtain ⟨st, _, hst⟩ := Res.bind_eq_ok.1 hst
          cases st with
          | direct => cases hst; exact hs
          | off =>
            simp only at hst
            obtain ⟨x, _, hst⟩ := Res.bind_eq_ok.1 hst
            rw [setIdx_len hst, hs]
          | indirect =>
            simp only at hst
            obtain ⟨x, _, hst⟩ := Res.bind_eq_ok.1 hst
            obtain ⟨y, _, hst⟩ := Res.bind_eq_ok.1 hst
            rw [setIdx_len hst, hs]
        refine ⟨hi.orig, hi.status, ?_, ?_, hi.fit, hi.alld, hi.params⟩
        · rw [← hi.work]; exact (distortEDs_len h1).1
        · rw [← hi.norms]; exact hl
  | reassertNormsLeft b hb hi => exact hi.of_core (reassertLeft_core _ b)
  | applySystematicsLeft sm hb hi => exact hi.of_core (applyLeft_core _ sm)
  | applyShrinkLeft s hb hi => exact hi.of_core (shrinkLeft_core _ s)
  | assertDimensionsLeft obs hb hi => exact hi.of_core (assertLeft_core _ obs)
  | @applyShrink log m m' s hb ha hi =>
    unfold PdfManager.applyShrink at ha
    split at ha
    · cases ha; exact hi
    · obtain ⟨w0, _, ha⟩ := Res.bind_eq_ok.1 ha
      obtain ⟨o0, _, ha⟩ := Res.bind_eq_ok.1 ha
      split at ha
      · cases ha; exact hi
      · split at ha
        · cases ha
        · refine Res.forFold_inv (fun m : PdfManager α => Inv log m) hi ha ?_
          clear ha hi hb
          intro m i m' hi _ hst
          unfold shrinkStep at hst
          obtain ⟨w, _, hst⟩ := Res.bind_eq_ok.1 hst
          obtain ⟨w', _, hst⟩ := Res.bind_eq_ok.1 hst
          obtain ⟨st, _, hst⟩ := Res.bind_eq_ok.1 hst
          cases st with
          | direct =>
            simp only at hst
            obtain ⟨ws, hw, hst⟩ := Res.bind_eq_ok.1 hst
            cases hst
            exact ⟨hi.orig, hi.status, by rw [← hi.work]; exact setIdx_len hw, hi.norms, hi.fit, hi.alld, hi.params⟩
          | off =>
            simp only at hst
            obtain ⟨ws, hw, hst⟩ := Res.bind_eq_ok.1 hst
            obtain ⟨ns, hn, hst⟩ := Res.bind_eq_ok.1 hst
            cases hst
            exact ⟨hi.orig, hi.status, by rw [← hi.work]; exact setIdx_len hw, by rw [← hi.norms]; exact setIdx_len hn,
              hi.fit, hi.alld, hi.params⟩
          | indirect =>
            simp only at hst
            obtain ⟨ws, hw, hst⟩ := Res.bind_eq_ok.1 hst
            obtain ⟨o, _, hst⟩ := Res.bind_eq_ok.1 hst
            obtain ⟨ns, hn, hst⟩ := Res.bind_eq_ok.1 hst
            cases hst
            exact ⟨hi.orig, hi.status, by rw [← hi.work]; exact setIdx_len hw, by rw [← hi.norms]; exact setIdx_len hn,
              hi.fit, hi.alld, hi.params⟩
  | @assertDimensions log m m' obs hb ha hi =>
    unfold PdfManager.assertDimensions at ha
    obtain ⟨w, hw, ha⟩ := Res.bind_eq_ok.1 ha
    cases ha
    exact ⟨hi.orig, hi.status, by rw [← hi.work]; exact Res.traverse_length hw, hi.norms, hi.fit, hi.alld, hi.params⟩

theorem countP_fitted (log : List (BinnedED α × NormStatus)) :
    (PdfLog.fitted log).length = log.countP (fun p => p.2.fittable) := by
  unfold PdfLog.fitted
  rw [List.length_map, List.countP_eq_length_filter]

/-- The value of the parameter of a fitted distribution. -/
theorem value_at {log : List (BinnedED α × NormStatus)} {m : PdfManager α} (hi : Inv log m)
    (hd : PdfLog.DistinctNames log) {i : Nat} {p : BinnedED α × NormStatus} (hp : log[i]? = some p)
    (hf : p.2.fittable = true) : ∃ v : α, m.getParameter p.1.name = .ok v ∧
      (m.allDirect = true → m.norms[i]? = some v) ∧
      (m.allDirect = false → m.fitNorms[rank (fun p => p.2.fittable) log i]? = some v) := by
  have hr := filter_rank (p := fun p : BinnedED α × NormStatus => p.2.fittable) hp hf
  have hr' : (PdfLog.fitted log)[rank (fun p => p.2.fittable) log i]? = some p.1.name := by
    unfold PdfLog.fitted
    rw [List.getElem?_map, hr]; rfl
  have hlt := rank_lt (p := fun p : BinnedED α × NormStatus => p.2.fittable) hp hf
  have hfind := regOf_find (c := if m.allDirect then 0 else 1) hd hr'
  rw [← hi.params] at hfind
  by_cases ha : m.allDirect = true
  · have hall : ∀ q ∈ log, q.2.fittable = true := by
      intro q hq
      have := List.all_eq_true.1 (hi.alld ▸ ha) q hq
      simp only [decide_eq_true_eq] at this
      rw [this]; rfl
    have hil : i < log.length := (List.getElem?_eq_some_iff.1 hp).1
    rw [rank_all hall (le_of_lt hil)] at hfind
    have hin : i < m.norms.length := by rw [hi.norms]; exact hil
    refine ⟨m.norms[i], ?_, fun _ => by simp [hin], fun h => by rw [ha] at h; cases h⟩
    refine ParamManager.getParameter_of_find hfind ?_
    rw [if_pos ha]
    show at_ m.norms i = _
    exact at_of_lt hin
  · have hin : rank (fun p => p.2.fittable) log i < m.fitNorms.length := by
      rw [hi.fit, countP_fitted]; exact hlt
    refine ⟨m.fitNorms[rank (fun p => p.2.fittable) log i], ?_, fun h => absurd h ha, fun _ => by simp [hin]⟩
    refine ParamManager.getParameter_of_find hfind ?_
    rw [if_neg ha]
    show at_ m.fitNorms _ = _
    exact at_of_lt hin

/-- What `ReassertNorms` does: each distribution of the target status gets the fitted value at its rank among the target
status. -/
theorem reassert_ok {log : List (BinnedED α × NormStatus)} {m : PdfManager α} (hi : Inv log m) (b : Bool)
    (ha : m.allDirect = false) (t : NormStatus) (ht : t = if b then NormStatus.direct else NormStatus.indirect) :
    ∃ ns : List α, m.reassertNorms b = .ok { m with norms := ns } ∧ ns.length = m.norms.length ∧
      ∀ i < log.length, ns[i]? = if (log.map (·.2))[i]? = some t then m.fitNorms[rank (fun p => p.2 = t) log i]?
        else m.norms[i]? := by
  have htf : t.fittable = true := by rw [ht]; cases b <;> rfl
  obtain ⟨⟨ns, j⟩, h1, hlen, hj, h2⟩ := Res.forFold_range (f := m.reassertStep b) (n := m.norms.length)
    (s := (m.norms, 0))
    (fun k (s : List α × Nat) => s.1.length = m.norms.length ∧ s.2 = rank (fun p => p.2 = t) log k ∧
      ∀ i < log.length, s.1[i]? = if i < k ∧ (log.map (·.2))[i]? = some t
        then m.fitNorms[rank (fun p => p.2 = t) log i]? else m.norms[i]?)
    ⟨rfl, by simp [rank], by intro i _; simp⟩ (by
      rintro k ⟨s, j⟩ hk ⟨hs1, hs2, hs3⟩
      simp only at hs1 hs2 hs3
      have hkl : k < log.length := by rw [← hi.norms]; exact hk
      have hstk : m.status[k]? = some log[k].2 := by rw [hi.status]; simp [hkl]
      have hlk : log[k]? = some log[k] := by simp [hkl]
      have hsucc := rank_succ (p := fun p : BinnedED α × NormStatus => decide (p.2 = t)) hlk
      unfold reassertStep
      rw [show at_ m.status k = .ok log[k].2 from at_ok.2 hstk]
      simp only [Res.ok_bind, ← ht]
      by_cases hst : log[k].2 = t
      · rw [if_pos hst]
        have hjl : j < m.fitNorms.length := by
          rw [hs2, hi.fit, countP_fitted]
          refine lt_of_lt_of_le (rank_lt (p := fun p : BinnedED α × NormStatus => decide (p.2 = t)) hlk (by simp [hst])) ?_
          refine List.countP_mono_left ?_
          intro p _ hp
          simp only [decide_eq_true_eq] at hp
          rw [hp, htf]
        rw [at_of_lt hjl]
        simp only [Res.ok_bind]
        rw [setIdx_of_lt (by rw [hs1]; exact hk)]
        refine ⟨_, rfl, by simpa using hs1, ?_, ?_⟩
        · simp only [hsucc, hst, decide_true, if_true, hs2]
        · intro i hil
          simp only [List.getElem?_set]
          by_cases hik : k = i
          · subst hik
            rw [if_pos rfl, if_pos (by rw [hs1]; exact hk)]
            have : k < k + 1 ∧ (log.map (·.2))[k]? = some t := ⟨by omega, by simp [hkl, hst]⟩
            rw [if_pos this, ← hs2]
            simp [hjl]
          · rw [if_neg hik, hs3 i hil]
            have : (i < k ∧ (log.map (·.2))[i]? = some t) ↔ (i < k + 1 ∧ (log.map (·.2))[i]? = some t) := by
              constructor
              · rintro ⟨a, b⟩; exact ⟨by omega, b⟩
              · rintro ⟨a, b⟩; exact ⟨by omega, b⟩
            simp only [this]
      · rw [if_neg hst]
        refine ⟨_, rfl, hs1, ?_, ?_⟩
        · simp only [hsucc, hst, decide_false]; simpa using hs2
        · intro i hil
          rw [hs3 i hil]
          have : (i < k ∧ (log.map (·.2))[i]? = some t) ↔ (i < k + 1 ∧ (log.map (·.2))[i]? = some t) := by
            constructor
            · rintro ⟨a, b⟩; exact ⟨by omega, b⟩
            · rintro ⟨a, b⟩
              refine ⟨?_, b⟩
              rcases Nat.lt_succ_iff_lt_or_eq.1 a with h | h
              · exact h
              · subst h
                simp [hkl] at b
                exact absurd b hst
          simp only [this])
  refine ⟨ns, ?_, hlen, ?_⟩
  · unfold reassertNorms
    rw [if_neg (by simp [ha]), h1]
    rfl
  · intro i hil
    rw [h2 i hil]
    have : i < m.norms.length := by rw [hi.norms]; exact hil
    simp only [this, true_and]

end PdfManager
end Oxsx
