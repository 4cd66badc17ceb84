import Verif.Props.StatisticSum
import Verif.Props.Axis
set_option linter.unusedSectionVars false
set_option linter.unusedSimpArgs false
set_option linter.unusedVariables false
/-
C34: a sum inside a sum. C03: an axis under another name.
-/
namespace Oxsx
variable {W α : Type} [Field α] [LinearOrder α]

theorem StatSum.setLoop_append (d : ParamDict α) (w : W) (xs ys : List (Statistic W α)) :
    StatSum.setLoop d w (xs ++ ys) = match StatSum.setLoop d w xs with
      | (w, .ok ()) => StatSum.setLoop d w ys
      | (w, .throw e) => (w, .throw e)
      | (w, .ub) => (w, .ub) := by
  induction xs generalizing w with
  | nil => rfl
  | cons t ts ih =>
    simp only [List.cons_append, StatSum.setLoop]
    rcases ht : t.setParameters w d with ⟨w', r⟩
    cases r with
    | ok u => exact ih w'
    | throw e => rfl
    | ub => rfl

/-- C34, sums of sums: setting parameters in a sum with another sum among its parts does to every part, in the same order, what setting them in
the sum of all the parts does, also when one of them refuses. -/
theorem C34_nested_set {s inner : StatSum W α} {xs ys : List (Statistic W α)} (h : s.stats = xs ++ inner.toStatistic :: ys) (w : W) (d : ParamDict α) :
    s.setParameters w d = StatSum.setParameters (StatSum.sum (xs ++ inner.stats ++ ys)) w d := by
  unfold StatSum.setParameters
  rw [(C34_sum_parts _).1, h, List.append_assoc, StatSum.setLoop_append, StatSum.setLoop_append d w xs]
  rcases StatSum.setLoop d w xs with ⟨w', r⟩
  cases r with
  | throw e => rfl
  | ub => rfl
  | ok u =>
    simp only
    rw [StatSum.setLoop_append]
    rfl

/-- … and the names it reports are those of all the parts. -/
theorem C34_nested_names {s inner : StatSum W α} {xs ys : List (Statistic W α)} (h : s.stats = xs ++ inner.toStatistic :: ys) (w : W)
    {g₁ g₂ g₃ : List (ParamDict α)} (h₁ : List.Forall₂ (fun (t : Statistic W α) g => t.getParameters w = .ok g) xs g₁)
    (h₂ : List.Forall₂ (fun (t : Statistic W α) g => t.getParameters w = .ok g) inner.stats g₂)
    (h₃ : List.Forall₂ (fun (t : Statistic W α) g => t.getParameters w = .ok g) ys g₃) :
    s.getParameterNames w = (StatSum.sum (xs ++ inner.stats ++ ys)).getParameterNames w := by
  obtain ⟨gi, e1, e2⟩ := inner.getParameters_ok w h₂
  have hs : List.Forall₂ (fun (t : Statistic W α) g => t.getParameters w = .ok g) s.stats (g₁ ++ gi :: g₃) := by
    rw [h]; exact List.rel_append h₁ (List.Forall₂.cons e1 h₃)
  have hf : List.Forall₂ (fun (t : Statistic W α) g => t.getParameters w = .ok g) (StatSum.sum (xs ++ inner.stats ++ ys)).stats (g₁ ++ g₂ ++ g₃) := by
    rw [(C34_sum_parts _).1]; exact List.rel_append (List.rel_append h₁ h₂) h₃
  obtain ⟨ns, a1, a2, a3, _⟩ := C34_names s w hs
  obtain ⟨ns', b1, b2, b3, _⟩ := C34_names _ w hf
  rw [a1, b1]
  congr 1
  refine List.Perm.eq_of_pairwise (le := (· < ·)) (fun a b _ _ h1 h2 => absurd h1 (lt_asymm h2)) a2 b2
    ((List.perm_ext_iff_of_nodup (a2.imp (fun h => ne_of_lt h)) (b2.imp (fun h => ne_of_lt h))).2 fun n => ?_)
  rw [a3, b3]
  have hgi : n ∈ SMap.keys gi ↔ ∃ g ∈ g₂, n ∈ SMap.keys g := by
    rw [← SMap.find_isSome_iff, e2.2 n]
    simp only [← SMap.find_isSome_iff]
    constructor
    · intro hh
      rcases hl : g₂.filterMap (fun d => SMap.find d n) with _ | ⟨v, l⟩
      · rw [hl] at hh; simp at hh
      · have : v ∈ g₂.filterMap (fun d => SMap.find d n) := by rw [hl]; simp
        obtain ⟨g, hg, hv⟩ := List.mem_filterMap.1 this
        exact ⟨g, hg, by rw [hv]; rfl⟩
    · rintro ⟨g, hg, hv⟩
      obtain ⟨v, hv⟩ := Option.isSome_iff_exists.1 hv
      have : v ∈ g₂.filterMap (fun d => SMap.find d n) := List.mem_filterMap.2 ⟨g, hg, hv⟩
      rcases hl : g₂.filterMap (fun d => SMap.find d n) with _ | ⟨v, l⟩
      · rw [hl] at this; simp at this
      · rfl
  constructor
  · rintro ⟨g, hg, hn⟩
    rcases List.mem_append.1 hg with hg | hg
    · exact ⟨g, by simp [hg], hn⟩
    · rcases List.mem_cons.1 hg with rfl | hg
      · obtain ⟨g', hg', hn'⟩ := hgi.1 hn
        exact ⟨g', by simp [hg'], hn'⟩
      · exact ⟨g, by simp [hg], hn⟩
  · rintro ⟨g, hg, hn⟩
    simp only [List.append_assoc, List.mem_append] at hg
    rcases hg with hg | hg | hg
    · exact ⟨g, by simp [hg], hn⟩
    · exact ⟨gi, by simp, hgi.2 ⟨g, hg, hn⟩⟩
    · exact ⟨g, by simp [hg], hn⟩

/-- C03: an axis given another name has it, and the same title, bins and edges: values are found in the same bins. -/
theorem C03_renamed (a : BinAxis α) (n : String) : (a.setName n).name = n ∧ (a.setName n).latexName = a.latexName ∧ (a.setName n).eq a = true ∧
    (∀ v, (a.setName n).findBin v = a.findBin v) ∧ ∀ i, (a.setName n).getBinLowEdge i = a.getBinLowEdge i ∧
      (a.setName n).getBinHighEdge i = a.getBinHighEdge i ∧ (a.setName n).getBinCentre i = a.getBinCentre i ∧ (a.setName n).getBinWidth i = a.getBinWidth i := by
  refine ⟨rfl, rfl, ?_, fun _ => rfl, fun _ => ⟨rfl, rfl, rfl, rfl⟩⟩
  unfold BinAxis.eq
  simp [BinAxis.setName]

/-! ### Concrete cases -/

/-- A statistic with one parameter, kept in the world under its name. -/
def exOneStat (k : String) : Statistic (ParamDict ℚ) ℚ :=
  ⟨fun w => .ok (some 0, w), fun w d => match SMap.find d k with
    | some v => (SMap.insert k v w, .ok ())
    | none => (w, .throw .notFound), fun w => .ok ((SMap.find w k).elim [] fun v => [(k, v)])⟩

-- a + (b + c): all three are set
example : (StatSum.plus (exOneStat "a") (StatSum.plus (exOneStat "b") (exOneStat "c")).toStatistic).setParameters [] [("a", 1), ("b", 2), ("c", 3)] =
    ([("a", 1), ("b", 2), ("c", 3)], .ok ()) := by decide +kernel

end Oxsx
