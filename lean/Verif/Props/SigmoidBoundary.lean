import Verif.Model.SigmoidBoundary
import Verif.Spec.SigmoidBoundary
import Verif.Lemmas.Basic
import Mathlib.Tactic.Linarith
import Mathlib.Tactic.NormNum
import Mathlib.Tactic.Positivity
import Mathlib.Tactic.Ring
set_option linter.unusedSectionVars false
set_option linter.unusedSimpArgs false
set_option linter.unusedVariables false
/-
C81: soft boundaries around a statistic.
-/
namespace Oxsx
open Spec
variable {W : Type}

/-- What a user can do with a wrapped statistic. -/
inductive WallCall where
  | set (d : ParamDict ℝ)
  | eval

/-- The wrapped statistic after some calls, whether they succeed or throw. (What an evaluation that throws does to the world is not
modelled: it is taken to leave it alone.) -/
noncomputable def wrappedAfter (s : SigmoidBoundary W × W) : List WallCall → SigmoidBoundary W × W
  | [] => s
  | .set d :: l => wrappedAfter (s.1.setParameters s.2 d).1 l
  | .eval :: l => match s.1.evaluate s.2 with
    | .ok x => wrappedAfter x.2 l
    | _ => wrappedAfter s l

/-- The same calls made directly on the statistic, and the last dictionary it has accepted. -/
def bareAfter (t : Statistic W ℝ) (s : ParamDict ℝ × W) : List WallCall → ParamDict ℝ × W
  | [] => s
  | .set d :: l => match t.setParameters s.2 d with
    | (w, .ok _) => bareAfter t (d, w) l
    | (w, _) => bareAfter t (s.1, w) l
  | .eval :: l => match t.evaluate s.2 with
    | .ok x => bareAfter t (s.1, x.2) l
    | _ => bareAfter t s l

namespace SigmoidBoundary

theorem access_val (p : ParamDict ℝ) (n : String) : (access p n).1 = (p.find n).getD 0 := by
  unfold access; cases p.find n <;> rfl

theorem access_find (p : ParamDict ℝ) (n k : String) : (((access p n).2).find k).getD 0 = (p.find k).getD 0 := by
  unfold access
  cases h : p.find n with
  | some v => rfl
  | none =>
    simp only [SMap.find_insert]
    split
    · rename_i e; subst e; simp [h]
    · rfl

theorem minima_fold (mu : ℝ) (l : List (String × ℝ)) (s : Fl ℝ × ParamDict ℝ) :
    ((l.foldl (addMinima mu) s).1 = s.1.map (fun e => e + (l.map (fun q => softWall mu ((s.2.find q.1).getD 0 - q.2))).sum)) ∧
    (∀ k, ((l.foldl (addMinima mu) s).2.find k).getD 0 = (s.2.find k).getD 0) := by
  induction l generalizing s with
  | nil => constructor <;> simp
  | cons q r ih =>
    obtain ⟨h1, h2⟩ := ih (addMinima mu s q)
    have hf : ∀ k, ((addMinima mu s q).2.find k).getD 0 = (s.2.find k).getD 0 := fun k => access_find _ _ _
    refine ⟨?_, fun k => by rw [List.foldl_cons, h2, hf]⟩
    rw [List.foldl_cons, h1]
    simp only [hf, List.map_cons, List.sum_cons]
    have : (addMinima mu s q).1 = s.1.map (fun e => e + softWall mu ((s.2.find q.1).getD 0 - q.2)) := by
      simp only [addMinima, access_val, softWall, neg_mul]
      cases s.1 <;> rfl
    rw [this]
    cases s.1 with
    | none => rfl
    | some e => simp; ring

theorem maxima_fold (mu : ℝ) (l : List (String × ℝ)) (s : Fl ℝ × ParamDict ℝ) :
    ((l.foldl (addMaxima mu) s).1 = s.1.map (fun e => e + (l.map (fun q => softWall mu (q.2 - (s.2.find q.1).getD 0))).sum)) ∧
    (∀ k, ((l.foldl (addMaxima mu) s).2.find k).getD 0 = (s.2.find k).getD 0) := by
  induction l generalizing s with
  | nil => constructor <;> simp
  | cons q r ih =>
    obtain ⟨h1, h2⟩ := ih (addMaxima mu s q)
    have hf : ∀ k, ((addMaxima mu s q).2.find k).getD 0 = (s.2.find k).getD 0 := fun k => access_find _ _ _
    refine ⟨?_, fun k => by rw [List.foldl_cons, h2, hf]⟩
    rw [List.foldl_cons, h1]
    simp only [hf, List.map_cons, List.sum_cons]
    have : (addMaxima mu s q).1 = s.1.map (fun e => e + softWall mu (q.2 - (s.2.find q.1).getD 0)) := by
      simp only [addMaxima, access_val, softWall]
      rw [show -(mu * (q.2 - (s.2.find q.1).getD 0)) = mu * ((s.2.find q.1).getD 0 - q.2) by ring]
      cases s.1 <;> rfl
    rw [this]
    cases s.1 with
    | none => rfl
    | some e => simp; ring

/-- One evaluation: the value, and what is left. -/
theorem evaluate_spec (b : SigmoidBoundary W) (w : W) {e : Fl ℝ} {w' : W} (h : b.stat.evaluate w = .ok (e, w')) :
    ∃ p, b.evaluate w = .ok (e.map (fun v => v + walls b.mu b.minima b.maxima (fun n => (b.params.find n).getD 0)), { b with params := p }, w') ∧
      ∀ k, (p.find k).getD 0 = (b.params.find k).getD 0 := by
  unfold evaluate
  rw [h]
  have h1 := minima_fold b.mu b.minima (e, b.params)
  have h2 := maxima_fold b.mu b.maxima (b.minima.foldl (addMinima b.mu) (e, b.params))
  refine ⟨(b.maxima.foldl (addMaxima b.mu) (b.minima.foldl (addMinima b.mu) (e, b.params))).2, ?_, fun k => by rw [h2.2, h1.2]⟩
  show Res.ok _ = Res.ok _
  congr 2
  show (b.maxima.foldl (addMaxima b.mu) (b.minima.foldl (addMinima b.mu) (e, b.params))).1 = _
  rw [h2.1, h1.1]
  simp only [h1.2, walls]
  cases e with
  | none => rfl
  | some v => simp; ring

/-- A thrown or undefined evaluation of the statistic is one of the wrapper. -/
theorem evaluate_fail (b : SigmoidBoundary W) (w : W) (h : ∀ x, b.stat.evaluate w ≠ .ok x) :
    (∀ x, b.evaluate w ≠ .ok x) ∧ (∀ e, b.stat.evaluate w = .throw e → b.evaluate w = .throw e) := by
  unfold evaluate
  cases hs : b.stat.evaluate w with
  | ok x => exact absurd hs (h x)
  | throw e => exact ⟨fun x hx => (nomatch hx), fun e' he => by cases he; rfl⟩
  | ub => exact ⟨fun x hx => (nomatch hx), fun e' he => (nomatch he)⟩

/-- After any calls the wrapper has the bounds it was made with, the world is the one the statistic alone would have left, and the
parameters are those last accepted. -/
theorem after_inv (t : Statistic W ℝ) (lo hi : ParamDict ℝ) (mu : ℝ) (l : List WallCall) (b : SigmoidBoundary W) (d : ParamDict ℝ) (w : W)
    (hb : b.stat = t ∧ b.mu = mu ∧ b.minima = lo ∧ b.maxima = hi) (hd : ∀ k, (b.params.find k).getD 0 = (d.find k).getD 0) :
    let r := wrappedAfter (b, w) l
    let c := bareAfter t (d, w) l
    (r.1.stat = t ∧ r.1.mu = mu ∧ r.1.minima = lo ∧ r.1.maxima = hi) ∧ r.2 = c.2 ∧ ∀ k, (r.1.params.find k).getD 0 = (c.1.find k).getD 0 := by
  induction l generalizing b d w with
  | nil => exact ⟨hb, rfl, hd⟩
  | cons c l ih =>
    cases c with
    | set d' =>
      simp only [wrappedAfter, bareAfter, setParameters, hb.1]
      generalize t.setParameters w d' = r
      obtain ⟨w', r⟩ := r
      cases r with
      | ok u => exact ih _ _ _ ⟨rfl, hb.2.1, hb.2.2.1, hb.2.2.2⟩ (fun k => rfl)
      | throw e => exact ih _ _ _ hb hd
      | ub => exact ih _ _ _ hb hd
    | eval =>
      simp only [wrappedAfter, bareAfter]
      cases ht : t.evaluate w with
      | ok x =>
        obtain ⟨p, hp, hk⟩ := evaluate_spec b w (e := x.1) (w' := x.2) (by rw [hb.1]; exact ht)
        rw [hp]
        exact ih _ _ _ hb (fun k => by show (p.find k).getD 0 = _; rw [hk, hd])
      | throw e =>
        have := evaluate_fail b w (by rw [hb.1, ht]; intro x hx; cases hx)
        cases he : b.evaluate w with
        | ok x => exact absurd he (this.1 x)
        | throw e => exact ih _ _ _ hb hd
        | ub => exact ih _ _ _ hb hd
      | ub =>
        have := evaluate_fail b w (by rw [hb.1, ht]; intro x hx; cases hx)
        cases he : b.evaluate w with
        | ok x => exact absurd he (this.1 x)
        | throw e => exact ih _ _ _ hb hd
        | ub => exact ih _ _ _ hb hd

end SigmoidBoundary
open SigmoidBoundary

/-- After any calls on a statistic wrapped with the bounds `lo` and `hi`, if `d` is the last dictionary the statistic has accepted and
every bounded name is in it, evaluating gives what the statistic alone would give after the same calls, plus the heights of the walls at
`d`; the world is left as the statistic alone would leave it. If the statistic throws, so does the wrapper. -/
theorem C81_value (t : Statistic W ℝ) (lo hi : ParamDict ℝ) (mu : ℝ) (w₀ : W) (l : List WallCall) (x : String → ℝ)
    (hx : ∀ n, n ∈ lo.keys ∨ n ∈ hi.keys → (bareAfter t ([], w₀) l).1.find n = some (x n)) :
    let r := wrappedAfter (SigmoidBoundary.new t lo hi mu, w₀) l
    let w := (bareAfter t ([], w₀) l).2
    r.2 = w ∧
    (∀ e w', t.evaluate w = .ok (e, w') → ∃ b', r.1.evaluate r.2 = .ok (e.map (fun v => v + walls mu lo hi x), b', w')) ∧
    (∀ ex, t.evaluate w = .throw ex → r.1.evaluate r.2 = .throw ex) := by
  obtain ⟨hb, hw, hp⟩ := after_inv t lo hi mu l (SigmoidBoundary.new t lo hi mu) [] w₀ ⟨rfl, rfl, rfl, rfl⟩ (fun k => rfl)
  intro r w
  have hrw : r.2 = w := hw
  refine ⟨hrw, ?_, ?_⟩
  · intro e w' he
    obtain ⟨p, hp1, _⟩ := evaluate_spec r.1 r.2 (e := e) (w' := w') (by rw [hrw]; show r.1.stat.evaluate w = _; rw [show r.1.stat = t from hb.1]; exact he)
    have hv : walls r.1.mu r.1.minima r.1.maxima (fun n => (r.1.params.find n).getD 0) = walls mu lo hi x := by
      rw [show r.1.mu = mu from hb.2.1, show r.1.minima = lo from hb.2.2.1, show r.1.maxima = hi from hb.2.2.2]
      have hval : ∀ n, n ∈ lo.keys ∨ n ∈ hi.keys → (r.1.params.find n).getD 0 = x n := by
        intro n hn
        rw [show (r.1.params.find n).getD 0 = ((bareAfter t ([], w₀) l).1.find n).getD 0 from hp n, hx n hn]; rfl
      unfold walls
      congr 2
      · apply List.map_congr_left
        intro q hq
        show softWall mu _ = softWall mu _
        simp only [hval q.1 (Or.inl (List.mem_map_of_mem hq))]
      · apply List.map_congr_left
        intro q hq
        show softWall mu _ = softWall mu _
        simp only [hval q.1 (Or.inr (List.mem_map_of_mem hq))]
    rw [hv] at hp1
    exact ⟨_, hp1⟩
  · intro ex he
    have h1 : r.1.stat.evaluate r.2 = .throw ex := by rw [hrw, show r.1.stat = t from hb.1]; exact he
    exact (evaluate_fail r.1 r.2 (by rw [h1]; intro x hx; cases hx)).2 ex h1

theorem softWall_pos (mu d : ℝ) : 0 < softWall mu d :=
  Real.log_pos (by have := Real.exp_pos (-(mu * d)); linarith)

theorem softWall_anti {mu : ℝ} (hmu : 0 < mu) {d d' : ℝ} (h : d < d') : softWall mu d' < softWall mu d := by
  unfold softWall
  have := Real.exp_pos (-(mu * d'))
  apply Real.log_lt_log (by linarith)
  have : Real.exp (-(mu * d')) < Real.exp (-(mu * d)) := Real.exp_lt_exp.2 (by nlinarith)
  linarith

theorem softWall_outside (mu d : ℝ) : -(mu * d) < softWall mu d := by
  unfold softWall
  have := Real.exp_pos (-(mu * d))
  rw [Real.lt_log_iff_exp_lt (by linarith)]
  linarith

theorem softWall_inside (mu d : ℝ) : softWall mu d ≤ Real.exp (-(mu * d)) := by
  unfold softWall
  have := Real.exp_pos (-(mu * d))
  have h := Real.log_le_sub_one_of_pos (x := 1 + Real.exp (-(mu * d))) (by linarith)
  linarith

theorem softWall_edge (mu : ℝ) : softWall mu 0 = Real.log 2 := by simp [softWall]; norm_num

theorem wallSum_nonneg {β : Type} (l : List β) (f : β → ℝ) (h : ∀ x ∈ l, 0 ≤ f x) : 0 ≤ (l.map f).sum :=
  List.sum_nonneg (by intro y hy; obtain ⟨x, hx, rfl⟩ := List.mem_map.1 hy; exact h x hx)

theorem le_wallSum {β : Type} (l : List β) (f : β → ℝ) (h : ∀ x ∈ l, 0 ≤ f x) {a : β} (ha : a ∈ l) : f a ≤ (l.map f).sum :=
  List.single_le_sum (by intro y hy; obtain ⟨x, hx, rfl⟩ := List.mem_map.1 hy; exact h x hx) _ (List.mem_map_of_mem ha)

theorem wallSum_le {β : Type} (l : List β) (f : β → ℝ) (c : ℝ) (h : ∀ x ∈ l, f x ≤ c) : (l.map f).sum ≤ l.length * c := by
  induction l with
  | nil => simp
  | cons a r ih =>
    have h1 := h a (by simp)
    have h2 := ih (fun x hx => h x (by simp [hx]))
    simp only [List.map_cons, List.sum_cons, List.length_cons, Nat.cast_add, Nat.cast_one]
    linarith

/-- The walls never lower the value. -/
theorem C81_never_lower (mu : ℝ) (lo hi : SMap ℝ) (x : String → ℝ) : 0 ≤ walls mu lo hi x :=
  add_nonneg (wallSum_nonneg _ _ (fun _ _ => (softWall_pos _ _).le)) (wallSum_nonneg _ _ (fun _ _ => (softWall_pos _ _).le))

/-- A point a distance `d` below a minimum or above a maximum costs more than `mu d`. -/
theorem C81_outside (mu : ℝ) (lo hi : SMap ℝ) (x : String → ℝ) (d : ℝ) (n : String) (b : ℝ)
    (h : ((n, b) ∈ lo ∧ x n = b - d) ∨ ((n, b) ∈ hi ∧ x n = b + d)) : mu * d < walls mu lo hi x := by
  have n1 := wallSum_nonneg lo (fun q => softWall mu (x q.1 - q.2)) (fun _ _ => (softWall_pos _ _).le)
  have n2 := wallSum_nonneg hi (fun q => softWall mu (q.2 - x q.1)) (fun _ _ => (softWall_pos _ _).le)
  unfold walls
  rcases h with ⟨hm, hv⟩ | ⟨hm, hv⟩
  · have h1 := le_wallSum lo (fun q => softWall mu (x q.1 - q.2)) (fun _ _ => (softWall_pos _ _).le) hm
    have h2 := softWall_outside mu (x n - b)
    simp only at h1
    have : -(mu * (x n - b)) = mu * d := by rw [hv]; ring
    linarith
  · have h1 := le_wallSum hi (fun q => softWall mu (q.2 - x q.1)) (fun _ _ => (softWall_pos _ _).le) hm
    have h2 := softWall_outside mu (b - x n)
    simp only at h1
    have : -(mu * (b - x n)) = mu * d := by rw [hv]; ring
    linarith

/-- A point at least `d` inside every bound costs at most `e^(-mu d)` for each bound. -/
theorem C81_inside {mu : ℝ} (hmu : 0 ≤ mu) (lo hi : SMap ℝ) (x : String → ℝ) (d : ℝ)
    (hlo : ∀ q ∈ lo, q.2 + d ≤ x q.1) (hhi : ∀ q ∈ hi, x q.1 ≤ q.2 - d) :
    walls mu lo hi x ≤ (lo.length + hi.length : ℕ) * Real.exp (-(mu * d)) := by
  have step : ∀ y, d ≤ y → softWall mu y ≤ Real.exp (-(mu * d)) := by
    intro y hy
    refine le_trans (softWall_inside mu y) (Real.exp_le_exp.2 ?_)
    have := mul_le_mul_of_nonneg_left hy hmu
    linarith
  have h1 := wallSum_le lo (fun q => softWall mu (x q.1 - q.2)) _ (fun q hq => step _ (by have := hlo q hq; linarith))
  have h2 := wallSum_le hi (fun q => softWall mu (q.2 - x q.1)) _ (fun q hq => step _ (by have := hhi q hq; linarith))
  unfold walls
  push_cast
  linarith [h1, h2]

/-- Moving one lower-bounded (upper-bounded) parameter up (down) strictly lowers the cost, and a single bound costs `log 2` when the
parameter sits on it. -/
theorem C81_monotone {mu : ℝ} (hmu : 0 < mu) (n : String) (b : ℝ) (x y : String → ℝ) (h : x n < y n) :
    walls mu [(n, b)] [] y < walls mu [(n, b)] [] x ∧ walls mu [] [(n, b)] x < walls mu [] [(n, b)] y ∧
    (x n = b → walls mu [(n, b)] [] x = Real.log 2 ∧ walls mu [] [(n, b)] x = Real.log 2) := by
  have h1 := softWall_anti hmu (d := x n - b) (d' := y n - b) (by linarith)
  have h2 := softWall_anti hmu (d := b - y n) (d' := b - x n) (by linarith)
  refine ⟨by simpa [walls] using h1, by simpa [walls] using h2, fun e => ?_⟩
  subst e
  constructor <;> simp [walls, softWall_edge]

/-- A bound on a name that is not among the parameters is not refused and not ignored: it acts on the value zero, whatever the
parameters are. -/
theorem C81_unknown_name_wrong (t : Statistic W ℝ) (w₀ : W) (d : ParamDict ℝ) (w₁ w₂ : W) (v : ℝ) (mu : ℝ) (hn : d.find "typo" = none)
    (hset : t.setParameters w₀ d = (w₁, .ok ())) (hev : t.evaluate w₁ = .ok (some v, w₂)) :
    ∃ b' u, (wrappedAfter (SigmoidBoundary.new t [("typo", 1)] [] mu, w₀) [.set d]).1.evaluate w₁ = .ok (some u, b', w₂) ∧ v + mu < u := by
  have hs : (wrappedAfter (SigmoidBoundary.new t [("typo", 1)] [] mu, w₀) [.set d]) = (⟨t, mu, d, [("typo", 1)], []⟩, w₁) := by
    simp [wrappedAfter, setParameters, SigmoidBoundary.new, hset]
  rw [hs]
  obtain ⟨p, hp, _⟩ := evaluate_spec (⟨t, mu, d, [("typo", 1)], []⟩ : SigmoidBoundary W) w₁ hev
  refine ⟨_, _, hp, ?_⟩
  have := C81_outside mu [("typo", 1)] [] (fun n => (d.find n).getD 0) 1 "typo" 1 (Or.inl ⟨by simp, by simp [hn]⟩)
  show v + mu < v + _
  simp only at this ⊢
  linarith

/-- A statistic that is the value of one parameter, and refuses dictionaries without it. -/
def exStat : Statistic ℝ ℝ where
  evaluate w := .ok (some w, w)
  setParameters w d := match d.find "a" with
    | some v => (v, .ok ())
    | none => (w, .throw .notFound)
  getParameters w := .ok [("a", w)]

-- a refused dictionary in the history leaves the last accepted one in force: at a = 3, with bounds 1 and 2, outside by 1
example : ∃ b' u, (wrappedAfter (SigmoidBoundary.new exStat [("a", 1)] [("a", 2)] 10, 0) [.set [("a", 3)], .eval, .set [("b", 7)], .eval]).1.evaluate 3
    = .ok (some u, b', 3) ∧ (13 : ℝ) < u := by
  have hb : bareAfter exStat ([], 0) [.set [("a", 3)], .eval, .set [("b", 7)], .eval] = ([("a", 3)], 3) := by
    simp [bareAfter, exStat, SMap.find]
  obtain ⟨h1, h2, _⟩ := C81_value exStat [("a", 1)] [("a", 2)] 10 0 [.set [("a", 3)], .eval, .set [("b", 7)], .eval] (fun _ => 3) (by
    intro n hn; rw [hb]; have : n = "a" := by simpa [SMap.keys] using hn
    subst this; rfl)
  rw [hb] at h1 h2
  obtain ⟨b', hb'⟩ := h2 (some 3) 3 rfl
  rw [h1] at hb'
  refine ⟨b', _, hb', ?_⟩
  have := C81_outside 10 [("a", 1)] [("a", 2)] (fun _ => 3) 1 "a" 2 (Or.inr ⟨by simp, by norm_num⟩)
  show 13 < 3 + walls _ _ _ _
  linarith
example : walls 10 [("a", 1)] [("a", 3)] (fun _ => 2) ≤ (1 + 1 : ℕ) * Real.exp (-(10 * 1)) :=
  C81_inside (by norm_num) _ _ _ 1 (by simp; norm_num) (by simp; norm_num)

end Oxsx
