import Verif.Model.Refused
import Verif.Lemmas.Basic
import Verif.Lemmas.PdfManager
/- Loops that stop at the first exception, and calls that register parameters. -/
set_option linter.unusedSectionVars false
set_option linter.unusedSimpArgs false
set_option linter.unusedVariables false
namespace Oxsx

namespace Res
variable {S ι : Type}

/-- A call that went through, seen both ways. -/
theorem keep_ok {s s' : S} {r : Res S} : keep s r = (s', .ok ()) ↔ r = .ok s' := by
  cases r <;> simp [keep]

theorem keep_throw {s s' : S} {r : Res S} {e : Exc} : keep s r = (s', .throw e) ↔ r = .throw e ∧ s' = s := by
  cases r <;> simp [keep, eq_comm, and_comm]

theorem keep_ub {s s' : S} {r : Res S} : keep s r = (s', .ub) ↔ r = .ub ∧ s' = s := by
  cases r <;> simp [keep, eq_comm]

theorem forLeft_cons_ok {f : S → ι → S × Res Unit} {s s' : S} {i : ι} {is : List ι} (h : f s i = (s', .ok ())) :
    forLeft f s (i :: is) = forLeft f s' is := by
  simp [forLeft, h]

theorem forLeft_cons_throw {f : S → ι → S × Res Unit} {s s' : S} {i : ι} {is : List ι} {e : Exc} (h : f s i = (s', .throw e)) :
    forLeft f s (i :: is) = (s', .throw e) := by
  simp [forLeft, h]

theorem forLeft_keep_cons {f : S → ι → Res S} {s s' : S} {i : ι} {is : List ι} (h : f s i = .ok s') :
    forLeft (fun s i => keep s (f s i)) s (i :: is) = forLeft (fun s i => keep s (f s i)) s' is := by
  simp [forLeft, h, keep]

theorem forLeft_keep_cons_throw {f : S → ι → Res S} {s : S} {i : ι} {is : List ι} {e : Exc} (h : f s i = .throw e) :
    forLeft (fun s i => keep s (f s i)) s (i :: is) = (s, .throw e) := by
  simp [forLeft, h, keep]

/-- Where a loop stopped. -/
theorem forLeft_stop {f : S → ι → S × Res Unit} {l : List ι} : ∀ {s s' : S} {e : Exc}, forLeft f s l = (s', .throw e) →
    ∃ pre x post s1, l = pre ++ x :: post ∧ forLeft f s pre = (s1, .ok ()) ∧ f s1 x = (s', .throw e) := by
  induction l with
  | nil => intro s s' e h; simp [forLeft] at h
  | cons i is ih =>
    intro s s' e h
    match hf : f s i with
    | (s1, .ok ()) =>
      rw [forLeft_cons_ok hf] at h
      obtain ⟨pre, x, post, s2, hl, h1, h2⟩ := ih h
      exact ⟨i :: pre, x, post, s2, by rw [hl]; rfl, by rw [forLeft_cons_ok hf]; exact h1, h2⟩
    | (s1, .throw e') =>
      rw [forLeft_cons_throw hf] at h
      exact ⟨[], i, is, s, rfl, rfl, by rw [hf]; exact h⟩
    | (s1, .ub) => simp [forLeft, hf] at h

theorem forLeft_append {f : S → ι → S × Res Unit} {l l' : List ι} : ∀ {s s' : S}, forLeft f s l = (s', .ok ()) →
    forLeft f s (l ++ l') = forLeft f s' l' := by
  induction l with
  | nil => intro s s' h; simp [forLeft] at h; rw [h]; rfl
  | cons i is ih =>
    intro s s' h
    match hf : f s i with
    | (s1, .ok ()) =>
      rw [forLeft_cons_ok hf] at h
      rw [List.cons_append, forLeft_cons_ok hf]
      exact ih h
    | (s1, .throw e') => rw [forLeft_cons_throw hf] at h; simp at h
    | (s1, .ub) => simp [forLeft, hf] at h

/-- If a loop goes through, so does every beginning of it. -/
theorem forLeft_prefix_ok {f : S → ι → S × Res Unit} {l l' : List ι} : ∀ {s s' : S} {q : S × Res Unit},
    forLeft f s (l ++ l') = (s', .ok ()) → forLeft f s l = q → forLeft f s l = (q.1, .ok ()) := by
  induction l with
  | nil => intro s s' q h hq; simp [forLeft] at hq; rw [← hq]; rfl
  | cons i is ih =>
    intro s s' q h hq
    match hf : f s i with
    | (s1, .ok ()) =>
      rw [List.cons_append, forLeft_cons_ok hf] at h
      rw [forLeft_cons_ok hf] at hq ⊢
      exact ih h hq
    | (s1, .throw e') => rw [List.cons_append, forLeft_cons_throw hf] at h; simp at h
    | (s1, .ub) => simp [forLeft, hf] at h

/-- A loop of calls that write last: it goes through exactly as the loop that forgets the object. -/
theorem forLeft_keep_ok {f : S → ι → Res S} {l : List ι} : ∀ {s s' : S},
    forLeft (fun s i => keep s (f s i)) s l = (s', .ok ()) ↔ forFold f s l = .ok s' := by
  induction l with
  | nil => intro s s'; simp [forLeft, forFold]
  | cons i is ih =>
    intro s s'
    match hf : f s i with
    | .ok s1 =>
      rw [forLeft_cons_ok (f := fun s i => keep s (f s i)) (keep_ok.2 hf), forFold_cons_ok hf]
      exact ih
    | .throw e =>
      rw [forLeft_cons_throw (f := fun s i => keep s (f s i)) (s' := s) (e := e) (keep_throw.2 ⟨hf, rfl⟩)]
      simp [forFold, hf]
    | .ub => simp [forLeft, keep, hf, forFold]

/-- A loop of calls, given what each of them does. -/
theorem forLeft_congr {f g : S → ι → S × Res Unit} {l : List ι} (h : ∀ s, ∀ i ∈ l, f s i = g s i) (s : S) :
    forLeft f s l = forLeft g s l := by
  induction l generalizing s with
  | nil => rfl
  | cons i is ih =>
    unfold forLeft
    rw [h s i (by simp)]
    have ih' := ih (fun s i hi => h s i (by simp [hi]))
    cases hg : g s i with
    | mk a b => cases b <;> simp [ih']

theorem forLeft_map {κ : Type} {f : S → ι → S × Res Unit} (k : κ → ι) (l : List κ) (s : S) :
    forLeft f s (l.map k) = forLeft (fun s i => f s (k i)) s l := by
  induction l generalizing s with
  | nil => rfl
  | cons i is ih =>
    simp only [List.map_cons, forLeft]
    cases hg : f s (k i) with
    | mk a b => cases b <;> simp [ih]

end Res

variable {σ α : Type} [Field α] [LinearOrder α]

/-- Registering goes through exactly as the call that forgets the object. -/
theorem PdfManager.registerLeft_ok {m m' : PdfManager α} (h : m.registerParameters = .ok m') :
    m.registerParametersLeft = (m', .ok ()) := by
  unfold registerParameters at h
  obtain ⟨names, hn, h⟩ := Res.bind_eq_ok.1 h
  obtain ⟨p, hp, h⟩ := Res.bind_eq_ok.1 h
  cases h
  unfold registerParametersLeft
  simp only [hn, hp]

theorem PdfManager.addPdfLeft_ok {m m' : PdfManager α} {pdf : BinnedED α} {st : NormStatus} (h : m.addPdf pdf st = .ok m') :
    m.addPdfLeft pdf st = (m', .ok ()) := registerLeft_ok h

/-- A manager made by public calls always accepts another distribution. -/
theorem PdfManager.addPdf_succeeds {log : List (BinnedED α × NormStatus)} {m : PdfManager α} (hi : Inv log m) (pdf : BinnedED α)
    (st : NormStatus) : ∃ m', m.addPdf pdf st = .ok m' ∧ Inv (log ++ [(pdf, st)]) m' := by
  have hfit : PdfLog.fitted (log ++ [(pdf, st)]) = PdfLog.fitted log ++ (if st.fittable then [pdf.name] else []) := by
    unfold PdfLog.fitted
    rw [List.filter_append, List.map_append]
    by_cases hs : st.fittable = true <;> simp [hs]
  have h1 : m.orig ++ [pdf] = (log ++ [(pdf, st)]).map (·.1) := by rw [hi.orig]; simp
  have h2 : m.status ++ [st] = (log ++ [(pdf, st)]).map (·.2) := by rw [hi.status]; simp
  have h3 : (resize m.norms (m.orig.length + 1) 0).length = (log ++ [(pdf, st)]).length := by
    rw [hi.orig]; simp [resize, hi.norms]
  have h4 : (if st.fittable then m.fitNorms ++ [0] else m.fitNorms).length = (PdfLog.fitted (log ++ [(pdf, st)])).length := by
    rw [hfit]; by_cases hs : st.fittable = true <;> simp [hs, hi.fit]
  have h5 : (if st ≠ .direct then false else m.allDirect) = (log ++ [(pdf, st)]).all (fun p => p.2 = .direct) := by
    rw [List.all_append, ← hi.alld]
    by_cases hs : st = .direct <;> simp [hs]
  have := register_ok (log := log ++ [(pdf, st)]) (m :=
    { m with
      orig := m.orig ++ [pdf]
      work := m.work ++ [pdf]
      norms := resize m.norms (m.orig.length + 1) 0
      status := m.status ++ [st]
      fitNorms := if st.fittable then m.fitNorms ++ [0] else m.fitNorms
      allDirect := if st ≠ .direct then false else m.allDirect }) h1 h2 h3 h4 h5
  refine ⟨_, this, ⟨h1, h2, ?_, h3, h4, h5, rfl⟩⟩
  simp [hi.work]

end Oxsx
