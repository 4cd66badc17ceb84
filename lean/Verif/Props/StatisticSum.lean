import Verif.Spec.StatisticSum
import Verif.Props.Likelihood
/-
C34: sums of test statistics.
-/
set_option linter.unusedSectionVars false
set_option linter.unusedSimpArgs false
set_option linter.unusedVariables false
namespace Oxsx
variable {W σ α : Type} [Field α] [LinearOrder α]
open scoped List

theorem Fl.add_none_right (x : Fl α) : Fl.add x none = none := by cases x <;> rfl

theorem flSum_nil : flSum ([] : List (Fl α)) = some 0 := by simp [flSum]

theorem flSum_append (l : List (Fl α)) (x : Fl α) : flSum (l ++ [x]) = Fl.add (flSum l) x := by
  unfold flSum
  by_cases h : ∀ y ∈ l, y.isSome
  · rw [if_pos h]
    cases x with
    | none => rw [if_neg (fun h' => by have := h' none (by simp); cases this)]; rfl
    | some a =>
      rw [if_pos (by
        intro y hy
        rcases List.mem_append.1 hy with h1 | h1
        · exact h y h1
        · rw [List.mem_singleton] at h1; subst h1; rfl)]
      simp [Fl.add]
  · rw [if_neg h, if_neg (fun h' => h (fun y hy => h' y (by simp [hy])))]
    rfl

theorem flSum_perm {l m : List (Fl α)} (h : l ~ m) : flSum l = flSum m := by
  unfold flSum
  have : (∀ x ∈ l, x.isSome) ↔ ∀ x ∈ m, x.isSome := by simp only [h.mem_iff]
  by_cases hl : ∀ x ∈ l, x.isSome
  · rw [if_pos hl, if_pos (this.1 hl), (h.map _).sum_eq]
  · rw [if_neg hl, if_neg (fun hm => hl (this.2 hm))]

/-- The union of dictionaries the sum reports. -/
theorem StatSum.getParameters_ok (s : StatSum W α) (w : W) {gs : List (ParamDict α)}
    (h : List.Forall₂ (fun (t : Statistic W α) g => t.getParameters w = .ok g) s.stats gs) :
    ∃ g, s.getParameters w = .ok g ∧ FirstUnion gs g := by
  have gen : ∀ (ts : List (Statistic W α)) (gs : List (ParamDict α)) (pd : ParamDict α),
      List.Forall₂ (fun (t : Statistic W α) g => t.getParameters w = .ok g) ts gs → SMap.Sorted pd →
      ∃ g, Res.forFold (fun (pd : ParamDict α) (t : Statistic W α) => (do
        let d ← t.getParameters w
        pure (pd.insertAll d) : Res (ParamDict α))) pd ts = .ok g ∧ SMap.Sorted g ∧
        ∀ k, SMap.find g k = (SMap.find pd k).or (gs.filterMap (fun d => SMap.find d k)).head? := by
    intro ts gs pd h
    induction h generalizing pd with
    | nil => intro hpd; exact ⟨pd, rfl, hpd, fun k => by simp⟩
    | cons h1 _ ih =>
      rename_i t g ts gs _
      intro hpd
      obtain ⟨r, e1, e2, e3⟩ := ih (pd.insertAll g) (SMap.sorted_insertAll hpd g)
      refine ⟨r, Res.forFold_cons_eq_ok.2 ⟨_, by rw [h1]; rfl, e1⟩, e2, ?_⟩
      intro k
      rw [e3, SMap.find_insertAll]
      cases hg : SMap.find g k <;> cases hp : SMap.find pd k <;> simp [hg]
  obtain ⟨g, h1, h2, h3⟩ := gen s.stats gs [] h SMap.sorted_nil
  exact ⟨g, h1, h2, fun k => by rw [h3]; rfl⟩

theorem FirstUnion.unique {gs : List (ParamDict α)} {g g' : ParamDict α} (h : FirstUnion gs g) (h' : FirstUnion gs g') : g = g' :=
  SMap.ext h.1 h'.1 (fun k => by rw [h.2, h'.2])

/-- C34, value: the sum of the values of the parts, plus its own constraints at the union of the parts' parameters. A part may occur
several times. -/
theorem C34_value {I : W → Prop} {s : StatSum W α} {vs : List (Fl α × ParamDict α)}
    (hp : List.Forall₂ (fun (t : Statistic W α) vg => t.Settled I vg.1 vg.2) s.stats vs) {g : ParamDict α}
    (hg : FirstUnion (vs.map (·.2)) g) {c : Fl α} (hc : s.constraints.evaluate g = .ok c) (w : W) (hw : I w) :
    ∃ w', s.evaluate w = .ok (Fl.add (flSum (vs.map (·.1))) c, w') ∧ I w' := by
  have gen : ∀ (ts : List (Statistic W α)) (vs : List (Fl α × ParamDict α)) (pre : List (Fl α)) (w : W),
      List.Forall₂ (fun (t : Statistic W α) vg => t.Settled I vg.1 vg.2) ts vs → I w →
      ∃ w', Res.forFold (fun (a : Fl α × W) (t : Statistic W α) => (do
        let (v, w) ← t.evaluate a.2
        pure (Fl.add a.1 v, w) : Res (Fl α × W))) (flSum pre, w) ts = .ok (flSum (pre ++ vs.map (·.1)), w') ∧ I w' := by
    intro ts vs pre w h
    induction h generalizing pre w with
    | nil => intro hw; exact ⟨w, by simp [Res.forFold], hw⟩
    | cons h1 _ ih =>
      rename_i t vg ts vs _
      intro hw
      obtain ⟨_, w1, e1, hw1⟩ := h1 w hw
      obtain ⟨w', e2, hw'⟩ := ih (pre ++ [vg.1]) w1 hw1
      refine ⟨w', Res.forFold_cons_eq_ok.2 ⟨(flSum (pre ++ [vg.1]), w1), ?_, ?_⟩, hw'⟩
      · rw [e1, flSum_append]; rfl
      · rw [e2]; simp
  obtain ⟨w', h1, hw'⟩ := gen s.stats vs [] w hp hw
  obtain ⟨g', h2, h3⟩ := s.getParameters_ok w' (gs := vs.map (·.2)) (by
    rw [List.forall₂_map_right_iff]
    exact hp.imp (fun t vg h => (h w' hw').1))
  rw [hg.unique h3] at hc
  refine ⟨w', ?_, hw'⟩
  unfold StatSum.evaluate StatSum.evaluateParts
  rw [show (some 0 : Fl α) = flSum [] from flSum_nil.symm, h1]
  simp only [Res.ok_bind]
  rw [h2]
  simp only [Res.ok_bind]
  rw [hc]
  rfl

/-- C34, names: the parameter names of the sum are those of the parts, each counted once. -/
theorem C34_names (s : StatSum W α) (w : W) {gs : List (ParamDict α)}
    (h : List.Forall₂ (fun (t : Statistic W α) g => t.getParameters w = .ok g) s.stats gs) :
    ∃ ns, s.getParameterNames w = .ok ns ∧ ns.Pairwise (· < ·) ∧ (∀ n, n ∈ ns ↔ ∃ g ∈ gs, n ∈ SMap.keys g) ∧
      s.getParameterCount w = .ok ns.length := by
  obtain ⟨g, h1, h2, h3⟩ := s.getParameters_ok w h
  refine ⟨g.keys, by unfold StatSum.getParameterNames; rw [h1]; rfl, SMap.sorted_keys h2, ?_, ?_⟩
  · intro n
    rw [← SMap.find_isSome_iff, h3 n]
    simp only [← SMap.find_isSome_iff]
    rw [List.isSome_head?, show ∀ l : List α, l ≠ [] ↔ ∃ x, x ∈ l from fun l => ⟨List.exists_mem_of_ne_nil l, fun ⟨x, hx⟩ => List.ne_nil_of_mem hx⟩]
    constructor
    · rintro ⟨v, hv⟩
      obtain ⟨d, hd, hn⟩ := List.mem_filterMap.1 hv
      exact ⟨d, hd, by rw [hn]; rfl⟩
    · rintro ⟨d, hd, hn⟩
      obtain ⟨v, hv⟩ := Option.isSome_iff_exists.1 hn
      exact ⟨v, List.mem_filterMap.2 ⟨d, hd, hv⟩⟩
  · unfold StatSum.getParameterCount
    rw [h1]
    simp [SMap.keys]

/-- C34, `Sum` and `operator+` are sums of what they are given. -/
theorem C34_sum_parts (ts : List (Statistic W α)) : (StatSum.sum ts).stats = ts ∧ (StatSum.sum ts).constraints = .empty := by
  have : ∀ (ts : List (Statistic W α)) (s : StatSum W α), (ts.foldl StatSum.addStat s).stats = s.stats ++ ts ∧
      (ts.foldl StatSum.addStat s).constraints = s.constraints := by
    intro ts
    induction ts with
    | nil => intro s; simp
    | cons t ts ih => intro s; exact ⟨by rw [List.foldl_cons, (ih _).1]; simp [StatSum.addStat], by rw [List.foldl_cons, (ih _).2]; rfl⟩
  exact ⟨by rw [StatSum.sum, (this ts .new).1]; rfl, by rw [StatSum.sum, (this ts .new).2]; rfl⟩

theorem Res.traverse_mono {β γ : Type} {f f' : β → Res γ} (h : ∀ a x, f a = .ok x → f' a = .ok x) {l : List β} {r : List γ}
    (hr : Res.traverse f l = .ok r) : Res.traverse f' l = .ok r := by
  induction l generalizing r with
  | nil => exact hr
  | cons a l ih =>
    unfold Res.traverse at hr ⊢
    cases ha : f a with
    | ok x =>
      rw [ha] at hr
      rw [h a x ha]
      simp only at hr ⊢
      cases hl : Res.traverse f l with
      | ok t => rw [hl] at hr; rw [ih hl]; exact hr
      | throw e => rw [hl] at hr; cases hr
      | ub => rw [hl] at hr; cases hr
    | throw e => rw [ha] at hr; cases hr
    | ub => rw [ha] at hr; cases hr

/-- The constraints depend on the values of the constrained parameters only (constraints given as a function of the whole dictionary
aside). -/
theorem ConstraintManager.evaluate_mono {m : ConstraintManager α} (hs : m.shape = []) {g g' : ParamDict α}
    (h : ∀ k v, SMap.find g k = some v → SMap.find g' k = some v) {c : Fl α} (he : m.evaluate g = .ok c) : m.evaluate g' = .ok c := by
  have at' : ∀ n x, ConstraintManager.dictAt g n = .ok x → ConstraintManager.dictAt g' n = .ok x := by
    intro n x hx
    unfold ConstraintManager.dictAt at hx ⊢
    cases hf : SMap.find g n with
    | none => rw [hf] at hx; cases hx
    | some v => rw [hf] at hx; rw [h n v hf]; exact hx
  have sumOver' : ∀ {κ β : Type} (e e' : κ → β → Res (Fl α)) (_ : ∀ k b x, e k b = .ok x → e' k b = .ok x) (l : List (κ × β))
      (t r : Fl α), ConstraintManager.sumOver e l t = .ok r → ConstraintManager.sumOver e' l t = .ok r := by
    intro κ β e e' hee l
    induction l with
    | nil => intro t r h; exact h
    | cons p l ih =>
      intro t r h
      unfold ConstraintManager.sumOver at h ih ⊢
      obtain ⟨t', h1, h2⟩ := Res.forFold_cons_eq_ok.1 h
      obtain ⟨x, hx, h3⟩ := Res.bind_eq_ok.1 h1
      refine Res.forFold_cons_eq_ok.2 ⟨t', ?_, ih _ _ h2⟩
      rw [hee _ _ _ hx]
      exact h3
  have pair' : ∀ {β : Type} (f : β → α → α → Fl α) (k : String × String) (b : β) (x : Fl α),
      ConstraintManager.evalPair f g k b = .ok x → ConstraintManager.evalPair f g' k b = .ok x := by
    intro β f k b x hx
    unfold ConstraintManager.evalPair at hx ⊢
    obtain ⟨a1, h1, hx⟩ := Res.bind_eq_ok.1 hx
    obtain ⟨a2, h2, hx⟩ := Res.bind_eq_ok.1 hx
    rw [at' _ _ h1, at' _ _ h2]
    exact hx
  unfold ConstraintManager.evaluate at he ⊢
  obtain ⟨t1, h1, he⟩ := Res.bind_eq_ok.1 he
  obtain ⟨t2, h2, he⟩ := Res.bind_eq_ok.1 he
  obtain ⟨t3, h3, he⟩ := Res.bind_eq_ok.1 he
  obtain ⟨t4, h4, he⟩ := Res.bind_eq_ok.1 he
  obtain ⟨t5, h5, he⟩ := Res.bind_eq_ok.1 he
  rw [sumOver' _ _ (fun k b x hx => by
    obtain ⟨a, ha, hx⟩ := Res.bind_eq_ok.1 hx
    rw [at' _ _ ha]; exact hx) _ _ _ h1]
  simp only [Res.ok_bind]
  rw [sumOver' _ _ (pair' _) _ _ _ h2]
  simp only [Res.ok_bind]
  rw [sumOver' _ _ (pair' _) _ _ _ h3]
  simp only [Res.ok_bind]
  rw [sumOver' _ _ (pair' _) _ _ _ h4]
  simp only [Res.ok_bind]
  rw [sumOver' _ (fun _ h => ShapeInterp.evaluate h g') (fun k b x hx => by
    unfold ShapeInterp.evaluate at hx ⊢
    obtain ⟨con, hcon, hx⟩ := Res.bind_eq_ok.1 hx
    have : ShapeInterp.extractParams b g' = .ok con := by
      unfold ShapeInterp.extractParams at hcon ⊢
      refine Res.traverse_mono (fun n x hx => ?_) hcon
      cases hf : SMap.find g n with
      | none => rw [hf] at hx; cases hx
      | some v => rw [hf] at hx; rw [h n v hf]; exact hx
    rw [this]; exact hx) _ _ _ h5]
  simp only [Res.ok_bind]
  rw [hs] at he ⊢
  exact he

/-- C34, setting: if every part accepts the dictionary, it is set in every part. `Has t w` says that part `t` holds the dictionary's
values in world `w`; setting another part does not undo that. -/
theorem C34_set {s : StatSum W α} {d : ParamDict α} {I : W → Prop} {Has : Statistic W α → W → Prop}
    (h : ∀ t ∈ s.stats, ∀ w, I w → (t.setParameters w d).2 = .ok () ∧ I (t.setParameters w d).1 ∧ Has t (t.setParameters w d).1 ∧
      ∀ u ∈ s.stats, Has u w → Has u (t.setParameters w d).1) (w : W) (hw : I w) :
    ∃ w', s.setParameters w d = (w', .ok ()) ∧ I w' ∧ ∀ t ∈ s.stats, Has t w' := by
  have gen : ∀ (l : List (Statistic W α)) (w : W), (∀ t ∈ l, t ∈ s.stats) → I w → ∃ w', StatSum.setLoop d w l = (w', .ok ()) ∧ I w' ∧
      (∀ t ∈ l, Has t w') ∧ ∀ u ∈ s.stats, Has u w → Has u w' := by
    intro l
    induction l with
    | nil => intro w _ hw; exact ⟨w, rfl, hw, by simp, fun _ _ h => h⟩
    | cons t l ih =>
      intro w hl hw
      obtain ⟨h1, h2, h3, h4⟩ := h t (hl t (by simp)) w hw
      obtain ⟨w', e1, e2, e3, e4⟩ := ih (t.setParameters w d).1 (fun u hu => hl u (by simp [hu])) h2
      refine ⟨w', ?_, e2, ?_, fun u hu hh => e4 u hu (h4 u hu hh)⟩
      · unfold StatSum.setLoop
        rw [show t.setParameters w d = ((t.setParameters w d).1, .ok ()) from Prod.ext rfl h1]
        exact e1
      · intro u hu
        rcases List.mem_cons.1 hu with rfl | hu
        · exact e4 u (hl u (by simp)) h3
        · exact e3 u hu
  obtain ⟨w', e1, e2, e3, _⟩ := gen s.stats w (fun _ h => h) hw
  exact ⟨w', e1, e2, e3⟩

/-- C34, setting, the other case: the first part which refuses ends the call with its exception, and the parts after it are not
touched. -/
theorem C34_set_throws {s : StatSum W α} {d : ParamDict α} {pre post : List (Statistic W α)} {t : Statistic W α}
    (hs : s.stats = pre ++ t :: post) {w w₁ w₂ : W} {e : Exc} (h₁ : (StatSum.mk pre .empty).setParameters w d = (w₁, .ok ()))
    (h₂ : t.setParameters w₁ d = (w₂, .throw e)) : s.setParameters w d = (w₂, .throw e) := by
  unfold StatSum.setParameters at h₁ ⊢
  rw [hs]
  simp only at h₁
  clear hs
  induction pre generalizing w with
  | nil =>
    unfold StatSum.setLoop at h₁
    cases h₁
    rw [List.nil_append]
    unfold StatSum.setLoop
    rw [h₂]
  | cons u pre ih =>
    rw [List.cons_append]
    unfold StatSum.setLoop at h₁ ⊢
    cases hu : u.setParameters w d with
    | mk w' r =>
      rw [hu] at h₁
      cases r with
      | ok _ => exact ih h₁
      | throw _ => simp only [Prod.mk.injEq, reduceCtorEq, and_false] at h₁
      | ub => simp only [Prod.mk.injEq, reduceCtorEq, and_false] at h₁

/-- C34, a sum of sums: a sum whose parts are settled is a settled statistic itself, so that it can be a part of another sum
(src/teststat/StatisticSum.h:33, the only `operator+` declared with a sum on the right). -/
theorem C34_nested {I : W → Prop} {s : StatSum W α} {vs : List (Fl α × ParamDict α)}
    (hp : List.Forall₂ (fun (t : Statistic W α) vg => t.Settled I vg.1 vg.2) s.stats vs) {g : ParamDict α}
    (hg : FirstUnion (vs.map (·.2)) g) {c : Fl α} (hc : s.constraints.evaluate g = .ok c) :
    s.toStatistic.Settled I (Fl.add (flSum (vs.map (·.1))) c) g := by
  intro w hw
  refine ⟨?_, C34_value hp hg hc w hw⟩
  obtain ⟨g', h2, h3⟩ := s.getParameters_ok w (gs := vs.map (·.2)) (by
    rw [List.forall₂_map_right_iff]
    exact hp.imp (fun t vg h => (h w hw).1))
  rw [hg.unique h3]
  exact h2

theorem FirstUnion.exists (gs : List (ParamDict α)) : ∃ g, FirstUnion gs g := by
  let s : StatSum Unit α := ⟨gs.map (fun g => ⟨fun _ => .ub, fun w _ => (w, .ub), fun _ => .ok g⟩), .empty⟩
  obtain ⟨g, _, h⟩ := s.getParameters_ok () (gs := gs) (by
    rw [show s.stats = gs.map (fun g => ⟨fun _ => .ub, fun w _ => (w, .ub), fun _ => .ok g⟩) from rfl, List.forall₂_map_left_iff]
    exact List.forall₂_same.2 (fun _ _ => rfl))
  exact ⟨g, h⟩

theorem Fl.add_right_comm (a b c : Fl α) : Fl.add (Fl.add a b) c = Fl.add (Fl.add a c) b := by
  cases a <;> cases b <;> cases c <;> simp [Fl.add, _root_.add_right_comm]

/-- C34, `operator+`: adding a statistic to a sum adds its value, whatever constraints the sum has; either order. The constraints
given as functions of the whole dictionary are left out. -/
theorem C34_plus {I : W → Prop} {s : StatSum W α} {t : Statistic W α} {vs : List (Fl α × ParamDict α)} {v : Fl α} {gt : ParamDict α}
    (hp : List.Forall₂ (fun (t : Statistic W α) vg => t.Settled I vg.1 vg.2) s.stats vs) (ht : t.Settled I v gt)
    {g : ParamDict α} (hg : FirstUnion (vs.map (·.2)) g) {c : Fl α} (hc : s.constraints.evaluate g = .ok c)
    (hsh : s.constraints.shape = []) (w : W) (hw : I w) :
    ∃ x w₁ w₂ w₃, s.evaluate w = .ok (x, w₁) ∧ (s.plusStat t).evaluate w = .ok (Fl.add x v, w₂) ∧
      (StatSum.plus t s.toStatistic).evaluate w = .ok (Fl.add x v, w₃) := by
  obtain ⟨w₁, h1, _⟩ := C34_value hp hg hc w hw
  obtain ⟨g', hg'⟩ := FirstUnion.exists ((vs ++ [(v, gt)]).map (·.2))
  obtain ⟨w₂, h2, _⟩ := C34_value (s := s.plusStat t) (vs := vs ++ [(v, gt)])
    (by
      show List.Forall₂ _ (s.stats ++ [t]) _
      exact List.rel_append hp (.cons ht .nil)) hg' (c := c) (by
      refine ConstraintManager.evaluate_mono hsh (fun k v' hk => ?_) hc
      rw [hg.2] at hk
      rw [hg'.2, List.map_append, List.filterMap_append, List.head?_append, hk]
      rfl) w hw
  obtain ⟨g'', hg''⟩ := FirstUnion.exists [gt, g]
  obtain ⟨w₃, h3, _⟩ := C34_value (s := StatSum.plus t s.toStatistic)
    (vs := [(v, gt), (Fl.add (flSum (vs.map (·.1))) c, g)]) (.cons ht (.cons (C34_nested hp hg hc) .nil)) hg'' (c := some 0) rfl w hw
  refine ⟨_, w₁, w₂, w₃, h1, ?_, ?_⟩
  · rw [h2, List.map_append, List.map_singleton, flSum_append, Fl.add_right_comm]
  · rw [h3]
    congr 2
    cases v <;> cases hx : Fl.add (flSum (vs.map (·.1))) c <;> simp [flSum, Fl.add, add_comm]

theorem SMap.find_filter_key {β : Type} (m : SMap β) (P : String → Bool) (k : String) :
    SMap.find (m.filter (fun p => P p.1)) k = if P k then SMap.find m k else none := by
  induction m with
  | nil => simp [SMap.find]
  | cons p r ih =>
    obtain ⟨k', v⟩ := p
    rw [List.filter_cons]
    by_cases hp : P k' = true
    · rw [if_pos (by simpa using hp), SMap.find_cons, SMap.find_cons, ih]
      by_cases hk : k' = k
      · subst hk; simp [hp]
      · simp [hk]
    · rw [if_neg (by simpa using hp), SMap.find_cons, ih]
      by_cases hk : k' = k
      · subst hk; simp [hp]
      · simp [hk]

/-- One step of a joint fit: the parameters are set and the sum evaluated; the likelihoods are ready for the next. -/
theorem joint_step {ι : Type} [DecidableEq ι] {C : FitSys σ ℝ}
    {log : ι → List (BinnedED ℝ × NormStatus)} {cons : ι → ConstraintManager ℝ} {d : ι → BinnedED ℝ}
    {h : ι → NLLH σ ℝ} {ps : List ι} {K : ConstraintManager ℝ} {D : ParamDict ℝ} {c : ι → Fl ℝ} {k : Fl ℝ}
    (hsimple : ∀ p ∈ ps, (h p).Simple (log p) (cons p) (d p))
    (hd : ∀ p ∈ ps, PdfLog.DistinctNames (log p)) (ho : ∀ p ∈ ps, PdfLog.Before .direct .indirect (log p))
    (hne : D ≠ []) (hs : SMap.Sorted D) (hall : ∀ p ∈ ps, ∀ n ∈ PdfLog.fitted (log p), (SMap.find D n).isSome)
    (hobs : ∀ p ∈ ps, ∀ q ∈ log p, q.1.obs.names = (d p).obs.names ∧ q.1.hist.nBins = (d p).hist.nBins ∧
      q.1.hist.contents.length = (d p).hist.nBins)
    (hdl : ∀ p ∈ ps, (d p).hist.contents.length = (d p).hist.nBins)
    (hpos : ∀ p ∈ ps, ∀ b, b < (d p).hist.nBins → 0 < expectedRate (fun n => (SMap.find D n).getD 0) (log p) ((log p).map (·.1)) b)
    (hc : ∀ p ∈ ps, (cons p).evaluate (D.filter (fun q => q.1 ∈ PdfLog.fitted (log p))) = .ok (c p))
    (hk : K.evaluate (D.filter (fun q => ∃ p ∈ ps, q.1 ∈ PdfLog.fitted (log p))) = .ok k) :
    ∃ h' h'', (⟨ps.map (NLLH.statistic C CMath.real), K⟩ : StatSum (ι → NLLH σ ℝ) ℝ).setParameters h D = (h', .ok ()) ∧
      (∀ p ∈ ps, (h' p).getParameters C = .ok (D.filter (fun q => q.1 ∈ PdfLog.fitted (log p)))) ∧
      (∀ p, p ∉ ps → h' p = h p) ∧
      (⟨ps.map (NLLH.statistic C CMath.real), K⟩ : StatSum (ι → NLLH σ ℝ) ℝ).evaluate h' =
        .ok (Fl.add (flSum (ps.map (fun p => Fl.add (some (binnedNLL (fun n => (SMap.find D n).getD 0) (log p) (d p))) (c p)))) k, h'') ∧
      ∀ p ∈ ps, (h'' p).Simple (log p) (cons p) (d p) := by
  -- setting
  have set : ∀ (l : List ι) (w : ι → NLLH σ ℝ), (∀ p ∈ l, p ∈ ps) → (∀ p ∈ ps, (w p).Simple (log p) (cons p) (d p)) →
      ∃ w', StatSum.setLoop D w (l.map (NLLH.statistic C CMath.real)) = (w', .ok ()) ∧
        (∀ p ∈ ps, (w' p).Simple (log p) (cons p) (d p)) ∧ (∀ p, p ∉ l → w' p = w p) ∧
        ∀ p ∈ l, ∀ n ∈ PdfLog.fitted (log p), ∃ v, SMap.find D n = some v ∧ (w' p).pdfs.getParameter n = .ok v := by
    intro l
    induction l with
    | nil => intro w _ hw; exact ⟨w, rfl, hw, fun _ _ => rfl, by simp⟩
    | cons p l ih =>
      intro w hl hw
      have hp := hl p (by simp)
      obtain ⟨s1, s2, s3⟩ := (hw p hp).setParameters C (hd p hp) hne (hall p hp)
      obtain ⟨w', e1, e2, e3, e4⟩ := ih (Function.update w p ((w p).setParameters C D).1) (fun q hq => hl q (by simp [hq])) (by
        intro q hq
        by_cases hqp : q = p
        · subst hqp; rw [Function.update_self]; exact s2
        · rw [Function.update_of_ne hqp]; exact hw q hq)
      refine ⟨w', ?_, e2, ?_, ?_⟩
      · rw [List.map_cons]
        unfold StatSum.setLoop
        have : (NLLH.statistic C CMath.real p).setParameters w D = (Function.update w p ((w p).setParameters C D).1, .ok ()) := by
          unfold NLLH.statistic
          simp only
          rw [s1]
        rw [this]
        exact e1
      · intro q hq
        rw [e3 q (by simp at hq; exact hq.2), Function.update_of_ne (by simp at hq; exact hq.1)]
      · intro q hq n hn
        by_cases hql : q ∈ l
        · exact e4 q hql n hn
        · have hqp : q = p := by simpa [hql] using hq
          subst hqp
          rw [e3 q hql, Function.update_self]
          exact s3 n hn
  obtain ⟨h', e1, e2, e3, e4⟩ := set ps h (fun _ hp => hp) hsimple
  let I : (ι → NLLH σ ℝ) → Prop := fun w => ∀ p ∈ ps, (w p).Simple (log p) (cons p) (d p) ∧
    ∀ n ∈ PdfLog.fitted (log p), ∃ v, SMap.find D n = some v ∧ (w p).pdfs.getParameter n = .ok v
  have hI : I h' := fun p hp => ⟨e2 p hp, e4 p hp⟩
  have hsettled : ∀ p ∈ ps, (NLLH.statistic C CMath.real p).Settled I
      (Fl.add (some (binnedNLL (fun n => (SMap.find D n).getD 0) (log p) (d p))) (c p))
      (D.filter (fun q => q.1 ∈ PdfLog.fitted (log p))) := by
    intro p hp w hw
    obtain ⟨hS, hv⟩ := hw p hp
    refine ⟨hS.getParameters C (hd p hp) hs hv, ?_⟩
    obtain ⟨L', g1, g2, g3⟩ := hS.evaluate C (hd p hp) (ho p hp) hs hv (hobs p hp) (hdl p hp) (hpos p hp) (hc p hp)
    refine ⟨Function.update w p L', ?_, ?_⟩
    · unfold NLLH.statistic
      simp only
      rw [g1]; rfl
    · intro q hq
      by_cases hqp : q = p
      · subst hqp; rw [Function.update_self]; exact ⟨g2, g3⟩
      · rw [Function.update_of_ne hqp]; exact hw q hq
  have hunion : FirstUnion (ps.map (fun p => D.filter (fun q => q.1 ∈ PdfLog.fitted (log p))))
      (D.filter (fun q => ∃ p ∈ ps, q.1 ∈ PdfLog.fitted (log p))) := by
    refine ⟨hs.filter _, fun n => ?_⟩
    rw [SMap.find_filter_key D (fun x => decide (∃ p ∈ ps, x ∈ PdfLog.fitted (log p))) n]
    clear hk hI hsettled e1 e2 e3 e4 set hsimple hc hpos hdl hobs hall hne ho hd
    induction ps with
    | nil => simp
    | cons p ps ih =>
      rw [List.map_cons, List.filterMap_cons, SMap.find_filter_key D (fun x => decide (x ∈ PdfLog.fitted (log p))) n]
      by_cases hn : n ∈ PdfLog.fitted (log p)
      · rw [if_pos (by simp [hn]), if_pos (by simpa using hn)]
        cases hf : SMap.find D n with
        | some v => rfl
        | none =>
          rw [← ih, hf]; simp
      · have hn' : decide (n ∈ PdfLog.fitted (log p)) = false := by simpa using hn
        simp only [hn', Bool.false_eq_true, if_false]
        rw [← ih]
        simp only [List.mem_cons, exists_eq_or_imp, hn, false_or]
  obtain ⟨h'', v1, v2⟩ := C34_value (s := ⟨ps.map (NLLH.statistic C CMath.real), K⟩)
    (vs := ps.map (fun p => (Fl.add (some (binnedNLL (fun n => (SMap.find D n).getD 0) (log p) (d p))) (c p),
      D.filter (fun q => q.1 ∈ PdfLog.fitted (log p))))) (by
      rw [List.forall₂_map_right_iff, List.forall₂_map_left_iff]
      exact List.forall₂_same.2 hsettled) (by rw [List.map_map]; exact hunion) hk h' hI
  refine ⟨h', h'', e1, ?_, e3, ?_, fun p hp => (v2 p hp).1⟩
  · intro p hp
    exact (e2 p hp).getParameters C (hd p hp) hs (e4 p hp)
  · rw [v1, List.map_map]; rfl

/-- C34 (partial), a joint fit: likelihoods configured as in `C31_configured_partial`, at addresses `ps` of a heap (an address may
occur twice), are added. Setting parameters which include every fitted one of every part sets them in every part and changes no other
object; the evaluation then gives the sum of the likelihoods at those parameters plus the sum's own constraint term. Missing: as in
`C31_configured_partial`. -/
theorem C34_joint_fit_partial {ι : Type} [DecidableEq ι] {name : Nat → String} {C : FitSys σ ℝ} {objs : ι → Nat → σ}
    {log : ι → List (BinnedED ℝ × NormStatus)} {cons : ι → ConstraintManager ℝ} {init : ι → ParamDict ℝ} {d : ι → BinnedED ℝ}
    {h : ι → NLLH σ ℝ} {ps : List ι} {K : ConstraintManager ℝ} {D : ParamDict ℝ} {c : ι → Fl ℝ} {k : Fl ℝ}
    (hcfg : ∀ p ∈ ps, NLLH.configured name C (objs p) (log p) (cons p) (init p) (d p) = .ok (h p))
    (hinit : ∀ p ∈ ps, init p ≠ [] ∧ ∀ n ∈ PdfLog.fitted (log p), (SMap.find (init p) n).isSome)
    (hd : ∀ p ∈ ps, PdfLog.DistinctNames (log p)) (ho : ∀ p ∈ ps, PdfLog.Before .direct .indirect (log p))
    (hne : D ≠ []) (hs : SMap.Sorted D) (hall : ∀ p ∈ ps, ∀ n ∈ PdfLog.fitted (log p), (SMap.find D n).isSome)
    (hobs : ∀ p ∈ ps, ∀ q ∈ log p, q.1.obs.names = (d p).obs.names ∧ q.1.hist.nBins = (d p).hist.nBins ∧
      q.1.hist.contents.length = (d p).hist.nBins)
    (hdl : ∀ p ∈ ps, (d p).hist.contents.length = (d p).hist.nBins)
    (hpos : ∀ p ∈ ps, ∀ b, b < (d p).hist.nBins → 0 < expectedRate (fun n => (SMap.find D n).getD 0) (log p) ((log p).map (·.1)) b)
    (hc : ∀ p ∈ ps, (cons p).evaluate (D.filter (fun q => q.1 ∈ PdfLog.fitted (log p))) = .ok (c p))
    (hk : K.evaluate (D.filter (fun q => ∃ p ∈ ps, q.1 ∈ PdfLog.fitted (log p))) = .ok k) :
    ∃ h' h'', (⟨ps.map (NLLH.statistic C CMath.real), K⟩ : StatSum (ι → NLLH σ ℝ) ℝ).setParameters h D = (h', .ok ()) ∧
      (∀ p ∈ ps, (h' p).getParameters C = .ok (D.filter (fun q => q.1 ∈ PdfLog.fitted (log p)))) ∧
      (∀ p, p ∉ ps → h' p = h p) ∧
      (⟨ps.map (NLLH.statistic C CMath.real), K⟩ : StatSum (ι → NLLH σ ℝ) ℝ).evaluate h' =
        .ok (Fl.add (flSum (ps.map (fun p => Fl.add (some (binnedNLL (fun n => (SMap.find D n).getD 0) (log p) (d p))) (c p)))) k, h'') := by
  have hsimple : ∀ p ∈ ps, (h p).Simple (log p) (cons p) (d p) := by
    intro p hp
    obtain ⟨L, h1, h2, _⟩ := NLLH.configured_simple (name := name) (C := C) (objs := objs p) (cons := cons p) (d := d p) (hd p hp)
      (hinit p hp).1 (hinit p hp).2
    rw [hcfg p hp] at h1
    rw [Res.ok.inj h1]; exact h2
  obtain ⟨h', h'', e1, e2, e3, e4, _⟩ := joint_step (C := C) hsimple hd ho hne hs hall hobs hdl hpos hc hk
  exact ⟨h', h'', e1, e2, e3, e4⟩

/-- Non-vacuity: a signal and background likelihood and a likelihood of the background alone, sharing the background normalisation,
with a constraint on it held by the sum. -/
example : ∃ (h h' h'' : Nat → NLLH (AnySys ℝ) ℝ) (K : ConstraintManager ℝ) (v : ℝ),
    (⟨[0, 1].map (NLLH.statistic AnySys.fit CMath.real), K⟩ : StatSum (Nat → NLLH (AnySys ℝ) ℝ) ℝ).setParameters h
      [("b", 3), ("s", 2)] = (h', .ok ()) ∧
    (⟨[0, 1].map (NLLH.statistic AnySys.fit CMath.real), K⟩ : StatSum (Nat → NLLH (AnySys ℝ) ℝ) ℝ).evaluate h' = .ok (some v, h'') := by
  let log : Nat → List (BinnedED ℝ × NormStatus) := fun p =>
    if p = 0 then [(exRealPdf "s" (1/2) (1/2), .direct), (exRealPdf "b" (1/4) (3/4), .indirect)] else [(exRealPdf "b" (1/4) (3/4), .indirect)]
  let K : ConstraintManager ℝ := { (.empty : ConstraintManager ℝ) with ind := [("b", .sym 2 1)] }
  have hfit : ∀ p, ∀ n ∈ PdfLog.fitted (log p), n = "s" ∨ n = "b" := by
    intro p n hn
    by_cases hp : p = 0
    · simp only [log, hp, if_true] at hn
      have : n ∈ (["s", "b"] : List String) := hn
      simpa using this
    · simp only [log, hp, if_false] at hn
      have : n ∈ (["b"] : List String) := hn
      simp at this
      exact .inr this
  have hfind : ∀ p, ∀ n ∈ PdfLog.fitted (log p), (SMap.find [("b", (3 : ℝ)), ("s", 2)] n).isSome := by
    intro p n hn
    rcases hfit p n hn with rfl | rfl <;> rfl
  have hdist : ∀ p, PdfLog.DistinctNames (log p) := by
    intro p
    by_cases hp : p = 0
    · simp only [log, hp, if_true]; show (["s", "b"] : List String).Nodup; decide
    · simp only [log, hp, if_false]; show (["b"] : List String).Nodup; decide
  have hconf : ∀ p, ∃ L, NLLH.configured exSysName AnySys.fit (fun _ => .renorm ⟨.new, none, []⟩) (log p) .empty
      [("b", (1 : ℝ)), ("s", 1)] (exRealPdf "d" 4 5) = .ok L := by
    intro p
    obtain ⟨L, h1, _⟩ := NLLH.configured_simple (name := exSysName) (C := AnySys.fit) (objs := fun _ => .renorm ⟨.new, none, []⟩)
      (cons := .empty) (ps := [("b", (1 : ℝ)), ("s", 1)]) (d := exRealPdf "d" 4 5) (hdist p) (by simp) (fun n hn => by
        rcases hfit p n hn with rfl | rfl <;> rfl)
    exact ⟨L, h1⟩
  choose h hh using hconf
  obtain ⟨h', h'', e1, _, _, e2⟩ := C34_joint_fit_partial (name := exSysName) (C := AnySys.fit) (h := h) (ps := [0, 1]) (K := K)
    (D := [("b", 3), ("s", 2)]) (c := fun _ => some 0) (k := some (1 / 2)) (log := log) (d := fun _ => exRealPdf "d" 4 5)
    (fun p _ => hh p) (fun p _ => ⟨by simp, fun n hn => by rcases hfit p n hn with rfl | rfl <;> rfl⟩) (fun p _ => hdist p)
    (by
      intro p _
      by_cases hp : p = 0
      · simp only [log, hp, if_true]; show ([NormStatus.direct, NormStatus.indirect]).Pairwise _; decide
      · simp only [log, hp, if_false]; show ([NormStatus.indirect]).Pairwise _; decide) (by simp)
    (by show List.Pairwise _ _; simp only [List.pairwise_cons, List.mem_singleton, forall_eq, List.not_mem_nil, false_implies, implies_true, List.Pairwise.nil, and_true]; decide +kernel)
    (fun p _ => hfind p)
    (by
      intro p _ q hq
      by_cases hp : p = 0
      · simp only [log, hp, if_true, List.mem_cons, List.not_mem_nil, or_false] at hq
        rcases hq with rfl | rfl <;> exact ⟨rfl, rfl, rfl⟩
      · simp only [log, hp, if_false, List.mem_cons, List.not_mem_nil, or_false] at hq
        rcases hq with rfl; exact ⟨rfl, rfl, rfl⟩)
    (fun _ _ => rfl)
    (by
      intro p _ b hb
      have : b < 2 := hb
      have hb' : b = 0 ∨ b = 1 := by omega
      by_cases hp : p = 0 <;> simp only [log, hp, if_true, if_false] <;> rcases hb' with rfl | rfl <;>
        norm_num [expectedRate, normOf, exRealPdf, NormStatus.fittable, SMap.find, show ("b" : String) ≠ "s" by decide])
    (fun _ _ => rfl)
    (by
      have : [("b", (3 : ℝ)), ("s", 2)].filter (fun (q : String × ℝ) => decide (∃ p ∈ ([0, 1] : List Nat), q.1 ∈ PdfLog.fitted (log p))) = [("b", 3), ("s", 2)] := by
        refine List.filter_eq_self.2 (fun q hq => ?_)
        simp only [List.mem_cons, List.not_mem_nil, or_false] at hq
        refine decide_eq_true ⟨0, by simp, ?_⟩
        show q.1 ∈ (["s", "b"] : List String)
        rcases hq with rfl | rfl <;> simp
      rw [this]
      show Res.ok (Fl.add (some 0) (Fl.div ((3 - 2) * (3 - 2)) (2 * 1 * 1))) = _
      unfold Fl.div
      rw [if_neg (by norm_num)]
      simp only [Fl.add]
      norm_num)
  have hfl : ∀ x y z : ℝ, Fl.add (flSum [Fl.add (some x) (some 0), Fl.add (some y) (some 0)]) (some z) = some (x + 0 + (y + 0) + z) := by
    intro x y z
    simp [flSum, Fl.add]
  exact ⟨h, h', h'', K, _, e1, e2.trans (congrArg (fun x => Res.ok (x, h'')) (hfl _ _ _))⟩

end Oxsx
