import Verif.Props.Gaussian
import Verif.Props.GaussianPdf
set_option linter.unusedSectionVars false
set_option linter.unusedSimpArgs false
set_option linter.unusedVariables false
/-
C78: conditional kernels (JumpPDF, VaryingCDF).
-/
namespace Oxsx
variable {α : Type} [Field α] [LinearOrder α] [IsStrictOrderedRing α]

/-- Componentwise shift. -/
def shiftBy (x s : List α) : List α := List.zipWith (· + ·) x s

theorem diff_shift {x y s : List α} (h1 : x.length ≤ s.length) (h2 : y.length = s.length) (h3 : x.length ≤ y.length) :
    JumpPDF.diff (shiftBy x s) (shiftBy y s) = JumpPDF.diff x y := by
  unfold JumpPDF.diff shiftBy
  rw [if_neg (by simp; omega), if_neg (by omega)]
  congr 1
  induction x generalizing y s with
  | nil => simp
  | cons a r ih =>
    cases s with
    | nil => simp at h1
    | cons c t =>
      cases y with
      | nil => simp at h3
      | cons b u =>
        simp only [List.zipWith_cons_cons, List.cons.injEq]
        exact ⟨by ring, ih (by simpa using h1) (by simpa using h2) (by simpa using h3)⟩

/-- C78, jumps: the chance of going from `y` to `x`, and that of going from `y` into a box, depend only on the differences: moving everything
by the same amount changes nothing. -/
theorem C78_jump_shift (ex : α → α) (rt : α) (phi : α → α → α) {j : JumpPDF α} {x mins maxs y s : List α} (hy : y.length = s.length)
    (hx : x.length ≤ y.length) (h1 : mins.length ≤ y.length) (h2 : maxs.length ≤ y.length) :
    j.probability ex rt (shiftBy x s) (shiftBy y s) = j.probability ex rt x y ∧
    j.integral phi (shiftBy mins s) (shiftBy maxs s) (shiftBy y s) = j.integral phi mins maxs y := by
  unfold JumpPDF.probability JumpPDF.integral
  cases j.pdf with
  | none => exact ⟨rfl, rfl⟩
  | some g => simp only; rw [diff_shift (by omega) hy hx, diff_shift (by omega) hy h1, diff_shift (by omega) hy h2]; exact ⟨rfl, rfl⟩

/-- C78: a jump from the origin is the function itself; without a function every use is refused. -/
theorem C78_jump_origin (ex : α → α) (rt : α) (phi : α → α → α) {name : String} {g : Gaussian α} (h : g.Ok) :
    ∃ j, JumpPDF.make name (some g) = .ok j ∧
      (∀ x, j.probability ex rt x (List.replicate x.length 0) = g.eval ex rt x) ∧
      (∀ mins maxs n, mins.length ≤ n → maxs.length ≤ n → j.integral phi mins maxs (List.replicate n 0) = g.integral phi mins maxs) := by
  have hz : ∀ (x : List α) n, x.length ≤ n → JumpPDF.diff x (List.replicate n 0) = .ok x := by
    intro x n hn
    unfold JumpPDF.diff
    rw [if_neg (by simpa using hn)]
    congr 1
    induction x generalizing n with
    | nil => simp
    | cons a r ih =>
      cases n with
      | zero => simp at hn
      | succ n => simp only [List.replicate_succ, List.zipWith_cons_cons, sub_zero]; rw [ih n (by simpa using hn)]
  obtain ⟨c, hc, _⟩ := C61_copy h
  have hcc : c = { g with name := g.name ++ "_copy" } := by
    unfold Gaussian.copy at hc
    rw [if_neg (by rw [h.meanNames, h.sdNames]; simp)] at hc
    exact (Res.ok.inj hc).symm
  refine ⟨⟨name, some c⟩, by unfold JumpPDF.make; simp only; rw [hc]; rfl, ?_, ?_⟩
  · intro x
    unfold JumpPDF.probability
    simp only
    rw [hz x _ (le_refl _), hcc]; rfl
  · intro mins maxs n h1 h2
    unfold JumpPDF.integral
    simp only
    rw [hz mins _ h1, hz maxs _ h2, hcc]; rfl

/-- C78, no function set. -/
theorem C78_jump_null (ex : α → α) (rt : α) (phi : α → α → α) (name : String) (x y z : List α) :
    (⟨name, none⟩ : JumpPDF α).probability ex rt x y = .throw .nullPtr ∧ (⟨name, none⟩ : JumpPDF α).integral phi x y z = .throw .nullPtr := ⟨rfl, rfl⟩

/-- The values the governing functions give at a point. -/
def VaryingCDF.governed (rt : α → α) (v : VaryingCDF α) (y : α) : ParamDict α := v.functions.map (fun p => (p.1, p.2.gradient * rt |y|))

theorem VaryingCDF.setup_eq (rt : α → α) (v : VaryingCDF α) (y : α) (ys : List α) : v.setupParameters rt (y :: ys) = .ok (v.governed rt y) := by
  unfold setupParameters governed SquareRootScale.eval
  simp only [at_, List.getElem?_cons_zero, Res.ok_bind]
  induction v.functions with
  | nil => rfl
  | cons p r ih => unfold Res.traverse; rw [ih]; rfl

theorem VaryingCDF.governed_find (rt : α → α) (v : VaryingCDF α) (y : α) (k : String) :
    SMap.find (v.governed rt y) k = (SMap.find v.functions k).map (fun f => f.gradient * rt |y|) := by
  unfold governed
  induction v.functions with
  | nil => rfl
  | cons p r ih =>
    obtain ⟨k', f⟩ := p
    rw [List.map_cons, SMap.find_cons, SMap.find_cons, ih]
    split <;> rfl

theorem VaryingCDF.governed_sorted (rt : α → α) {v : VaryingCDF α} (hv : v.functions.Sorted) (y : α) : (v.governed rt y).Sorted := by
  unfold governed SMap.Sorted
  rw [List.pairwise_map]
  exact hv

/-- C78, kernels with varying parameters: an integral from the point `y` is that of the kernel with each governed parameter it knows set to
what its function gives at `y` and the others as they were; what an earlier point has left behind in the kernel's governed parameters
plays no part. -/
theorem C78_varying (rt : α → α) (phi : α → α → α) {v : VaryingCDF α} {j : JumpPDF α} {g : Gaussian α} (hk : v.kernel = some j) (hj : j.pdf = some g)
    (h : g.Ok) (hv : v.functions.Sorted) (y : α) (ys mins maxs : List α) :
    ∃ g' d d', g'.Ok ∧ g.getParameters = .ok d ∧ g'.getParameters = .ok d' ∧ g'.meanNames = g.meanNames ∧ g'.sdNames = g.sdNames ∧ d'.keys = d.keys ∧
      (∀ m ∈ d.keys, d'.find m = match SMap.find v.functions m with | some f => some (f.gradient * rt |y|) | none => d.find m) ∧
      v.integral rt phi mins maxs (y :: ys) =
        (({ j with pdf := some g' } : JumpPDF α).integral phi mins maxs (y :: ys) >>= fun r => Res.ok (r, { v with kernel := some { j with pdf := some g' } })) := by
  obtain ⟨g', d, d', e1, e2, e3, e4, e5, e6, e7, e8⟩ := C61_setParameters h (VaryingCDF.governed_sorted rt hv y)
  refine ⟨g', d, d', e2, e3, e4, e5, e6, e7, ?_, ?_⟩
  · intro m hm
    rw [e8 m hm, VaryingCDF.governed_find]
    cases SMap.find v.functions m <;> rfl
  · unfold VaryingCDF.integral
    rw [hk]
    simp only
    rw [VaryingCDF.setup_eq]
    simp only [Res.ok_bind, JumpPDF.setParameters, hj]
    rw [e1]
    rfl

/-- Setting entry by entry, the last writer of a position wins: two dictionaries with the same names overwrite each other. -/
theorem setNamed_setNamed_same (n : String) (v w : α) (names : List String) (vals : List α) :
    setNamed n w names (setNamed n v names vals) = setNamed n w names vals := by
  induction names generalizing vals with
  | nil => rfl
  | cons a r ih =>
    cases vals with
    | nil => rfl
    | cons x s =>
      have := ih s
      unfold setNamed at this ⊢
      simp only [List.zipWith_cons_cons]
      rw [this]
      congr 1
      by_cases ha : a = n
      · rw [if_pos ha, if_pos ha]
      · rw [if_neg ha, if_neg ha, if_neg ha]

theorem setNamed_comm {n m : String} (hne : n ≠ m) (v w : α) (names : List String) (vals : List α) :
    setNamed n v names (setNamed m w names vals) = setNamed m w names (setNamed n v names vals) := by
  induction names generalizing vals with
  | nil => rfl
  | cons a r ih =>
    cases vals with
    | nil => rfl
    | cons x s =>
      have := ih s
      unfold setNamed at this ⊢
      simp only [List.zipWith_cons_cons]
      rw [this]
      congr 1
      by_cases ha : a = n
      · subst ha; rw [if_pos rfl, if_pos rfl, if_neg hne]
      · rw [if_neg ha, if_neg ha]

/-- The Gaussian with the entries of one name set. -/
def Gaussian.put (g : Gaussian α) (n : String) (v : α) : Gaussian α :=
  { g with means := setNamed n v g.meanNames g.means, stdDevs := setNamed n v g.sdNames g.stdDevs }

theorem Gaussian.put_names (g : Gaussian α) (n : String) (v : α) : (g.put n v).meanNames = g.meanNames ∧ (g.put n v).sdNames = g.sdNames := ⟨rfl, rfl⟩

theorem Gaussian.put_put (g : Gaussian α) (n : String) (v w : α) : (g.put n v).put n w = g.put n w := by
  unfold put; simp only [setNamed_setNamed_same]

theorem Gaussian.put_comm (g : Gaussian α) {n m : String} (hne : n ≠ m) (v w : α) : (g.put n v).put m w = (g.put m w).put n v := by
  unfold put; simp only; rw [setNamed_comm (Ne.symm hne), setNamed_comm (Ne.symm hne)]

theorem Gaussian.put_ok {g : Gaussian α} (h : g.Ok) (n : String) (v : α) : (g.put n v).Ok := h.set n v

theorem Gaussian.setParameters_puts {g : Gaussian α} (h : g.Ok) (p : ParamDict α) :
    g.setParameters p = .ok (p.foldl (fun g q => g.put q.1 q.2) g) ∧ (p.foldl (fun g q => g.put q.1 q.2) g).Ok := by
  unfold setParameters
  induction p generalizing g with
  | nil => exact ⟨rfl, h⟩
  | cons q r ih =>
    unfold Res.forFold
    rw [Gaussian.setParameter_eq h]
    exact ih (put_ok h q.1 q.2)

/-- Setting a dictionary, then another one with the same names, is setting the second. -/
theorem Gaussian.puts_puts (ks : List String) (f f' : String → α) (hn : ks.Nodup) (g : Gaussian α) :
    (ks.map (fun k => (k, f' k))).foldl (fun (g : Gaussian α) q => g.put q.1 q.2) ((ks.map (fun k => (k, f k))).foldl (fun (g : Gaussian α) q => g.put q.1 q.2) g) =
      (ks.map (fun k => (k, f' k))).foldl (fun (g : Gaussian α) q => g.put q.1 q.2) g := by
  induction ks generalizing g with
  | nil => rfl
  | cons k r ih =>
    have hn' := List.nodup_cons.1 hn
    simp only [List.map_cons, List.foldl_cons]
    have hmove : ∀ (r : List String) (g : Gaussian α), k ∉ r → ∀ w,
        ((r.map (fun k => (k, f k))).foldl (fun (g : Gaussian α) q => g.put q.1 q.2) g).put k w =
          (r.map (fun k => (k, f k))).foldl (fun (g : Gaussian α) q => g.put q.1 q.2) (g.put k w) := by
      intro r
      induction r with
      | nil => intro g _ w; rfl
      | cons m s ihs =>
        intro g hk w
        simp only [List.mem_cons, not_or] at hk
        simp only [List.map_cons, List.foldl_cons]
        rw [ihs _ hk.2, Gaussian.put_comm _ (Ne.symm hk.1)]
    rw [hmove r _ hn'.1, Gaussian.put_put]
    exact ih hn'.2 _

/-- C78, history: with the functions unchanged, what a varying kernel gives from a point does not depend on the points it was used at
before. -/
theorem C78_varying_history (rt : α → α) (phi : α → α → α) {v : VaryingCDF α} {j : JumpPDF α} {g : Gaussian α} (hk : v.kernel = some j)
    (hj : j.pdf = some g) (h : g.Ok) (hv : v.functions.Sorted) {y : α} {ys mins maxs : List α} {r : α} {v' : VaryingCDF α}
    (hu : v.integral rt phi mins maxs (y :: ys) = .ok (r, v')) (y2 : α) (ys2 mins2 maxs2 : List α) :
    v'.integral rt phi mins2 maxs2 (y2 :: ys2) = v.integral rt phi mins2 maxs2 (y2 :: ys2) := by
  have key : ∀ (v : VaryingCDF α) (j : JumpPDF α) (g : Gaussian α), v.kernel = some j → j.pdf = some g → g.Ok → ∀ y ys mins maxs,
      v.integral rt phi mins maxs (y :: ys) =
        (({ j with pdf := some ((v.governed rt y).foldl (fun (g : Gaussian α) q => g.put q.1 q.2) g) } : JumpPDF α).integral phi mins maxs (y :: ys) >>=
          fun r => Res.ok (r, { v with kernel := some { j with pdf := some ((v.governed rt y).foldl (fun (g : Gaussian α) q => g.put q.1 q.2) g) } })) := by
    intro v j g hk hj h y ys mins maxs
    unfold VaryingCDF.integral
    rw [hk]
    simp only
    rw [VaryingCDF.setup_eq]
    simp only [Res.ok_bind, JumpPDF.setParameters, hj]
    rw [(Gaussian.setParameters_puts h _).1]
    rfl
  rw [key v j g hk hj h] at hu
  obtain ⟨r', hr', hu⟩ := Res.bind_eq_ok.1 hu
  cases Res.ok.inj hu
  rw [key v j g hk hj h, key _ _ _ rfl rfl (Gaussian.setParameters_puts h _).2]
  have e : ∀ y, v.governed rt y = v.functions.keys.map (fun k => (k, ((SMap.find v.functions k).map (fun f => f.gradient * rt |y|)).getD 0)) := by
    intro y
    unfold VaryingCDF.governed SMap.keys
    rw [List.map_map]
    apply List.map_congr_left
    intro p hp
    have : SMap.find v.functions p.1 = some p.2 := SMap.find_of_mem hv hp
    simp only [Function.comp]
    rw [this]
    rfl
  have e' : VaryingCDF.governed rt { v with kernel := some { j with pdf := some ((v.governed rt y).foldl (fun (g : Gaussian α) q => g.put q.1 q.2) g) } } y2 = v.governed rt y2 := rfl
  rw [e']
  have hp : (v.governed rt y2).foldl (fun (g : Gaussian α) q => g.put q.1 q.2) ((v.governed rt y).foldl (fun (g : Gaussian α) q => g.put q.1 q.2) g) =
      (v.governed rt y2).foldl (fun (g : Gaussian α) q => g.put q.1 q.2) g := by
    rw [e y, e y2]
    exact Gaussian.puts_puts _ _ _ (SMap.sorted_nodup hv) g
  rw [hp]

/-- C78 fails for a governed name the kernel does not know: nothing is varied and nothing is reported. -/
theorem C78_unknown_wrong (rt : α → α) (phi : α → α → α) {v : VaryingCDF α} {j : JumpPDF α} {g : Gaussian α} (hk : v.kernel = some j) (hj : j.pdf = some g)
    (h : g.Ok) (hu : ∀ n ∈ v.functions.keys, n ∉ g.meanNames ++ g.sdNames) (y : α) (ys mins maxs : List α) :
    v.integral rt phi mins maxs (y :: ys) = (j.integral phi mins maxs (y :: ys) >>= fun r => Res.ok (r, v)) := by
  have hset : g.setParameters (v.governed rt y) = .ok g := by
    have : ∀ (p : ParamDict α), (∀ q ∈ p, q.1 ∉ g.meanNames ++ g.sdNames) → g.setParameters p = .ok g := by
      intro p
      unfold Gaussian.setParameters
      induction p with
      | nil => intro _; rfl
      | cons q r ih =>
        intro hq
        unfold Res.forFold
        rw [C61_set_unknown h (hq q (by simp))]
        exact ih (fun q hq' => hq q (by simp [hq']))
    apply this
    intro q hq
    unfold VaryingCDF.governed at hq
    obtain ⟨p, hp, rfl⟩ := List.mem_map.1 hq
    exact hu _ (List.mem_map_of_mem hp)
  unfold VaryingCDF.integral
  rw [hk]
  simp only
  rw [VaryingCDF.setup_eq]
  simp only [Res.ok_bind, JumpPDF.setParameters, hj]
  rw [hset]
  simp only [Res.ok_bind]
  have hj' : ({ j with pdf := some g } : JumpPDF α) = j := by cases j; simp only at hj; rw [hj]
  rw [hj']
  have hv' : ({ v with kernel := some j } : VaryingCDF α) = v := by cases v; simp only at hk; rw [hk]
  rw [hv']

/-- C78, the parameters of the functions: with every function's parameter called the same, setting it sets them all and it can be read back. -/
theorem C78_parameter_partial {v : VaryingCDF α} {n : String} (hne : v.functions ≠ []) (hn : ∀ p ∈ v.functions, p.2.paramName = n) (x : α) :
    ∃ v', v.setParameter n x = .ok v' ∧ v'.getParameter n = .ok x ∧ v'.functions.keys = v.functions.keys ∧ v'.kernel = v.kernel ∧
      ∀ p ∈ v'.functions, p.2.gradient = x ∧ p.2.paramName = n := by
  have hset : ∀ (l : SMap (SquareRootScale α)), (∀ p ∈ l, p.2.paramName = n) →
      Res.traverse (fun (p : String × SquareRootScale α) => p.2.setParameter n x >>= fun f => Res.ok (p.1, f)) l =
        .ok (l.map (fun p => (p.1, { p.2 with gradient := x }))) := by
    intro l
    induction l with
    | nil => intro _; rfl
    | cons p r ih =>
      intro hl
      unfold Res.traverse
      rw [ih (fun p hp => hl p (by simp [hp]))]
      unfold SquareRootScale.setParameter
      rw [if_neg (by simp [hl p (by simp)])]
      rfl
  refine ⟨{ v with functions := v.functions.map (fun p => (p.1, { p.2 with gradient := x })) }, ?_, ?_, ?_, rfl, ?_⟩
  · unfold VaryingCDF.setParameter; rw [hset _ hn]; rfl
  · unfold VaryingCDF.getParameter
    cases hf : v.functions with
    | nil => exact absurd hf hne
    | cons p r =>
      simp only [List.map_cons, VaryingCDF.getParameterLoop, SquareRootScale.getParameter]
      rw [if_neg (by simp [hn p (by rw [hf]; simp)])]
  · simp [SMap.keys]
  · intro p hp
    obtain ⟨q, hq, rfl⟩ := List.mem_map.1 hp
    exact ⟨rfl, hn q hq⟩

/-- C78 fails for the parameters of two functions with different names: no parameter at all can be set, and only that of the first
function can be read. -/
theorem C78_parameter_wrong {v : VaryingCDF α} {p q : String × SquareRootScale α} (hp : p ∈ v.functions) (hq : q ∈ v.functions)
    (hne : p.2.paramName ≠ q.2.paramName) (n : String) (x : α) : v.setParameter n x = .throw .parameter ∧
      (∀ f r, v.functions = f :: r → n ≠ f.2.paramName → v.getParameter n = .throw .parameter) := by
  constructor
  · have : ∀ (l : SMap (SquareRootScale α)), (∃ p ∈ l, p.2.paramName ≠ n) →
        Res.traverse (fun (p : String × SquareRootScale α) => p.2.setParameter n x >>= fun f => Res.ok (p.1, f)) l = .throw .parameter := by
      intro l
      induction l with
      | nil => rintro ⟨p, hp, _⟩; cases hp
      | cons a r ih =>
        rintro ⟨p, hp, hpn⟩
        unfold Res.traverse SquareRootScale.setParameter
        by_cases ha : n ≠ a.2.paramName
        · rw [if_pos ha]; rfl
        · rw [if_neg ha]
          simp only [List.mem_cons] at hp
          rcases hp with rfl | hp
          · push Not at ha; exact absurd ha.symm hpn
          · have := ih ⟨p, hp, hpn⟩
            unfold SquareRootScale.setParameter at this
            simp only [Res.ok_bind]
            rw [this]
    unfold VaryingCDF.setParameter
    rw [this]
    · rfl
    · by_cases hpn : p.2.paramName = n
      · exact ⟨q, hq, fun h => hne (by rw [hpn, h])⟩
      · exact ⟨p, hp, hpn⟩
  · intro f r hf hn
    unfold VaryingCDF.getParameter
    rw [hf]
    unfold VaryingCDF.getParameterLoop SquareRootScale.getParameter
    rw [if_pos hn]

/-- C78 fails for a kernel never set: the pointer is uninitialised, so the check for NULL does not protect. -/
theorem C78_unset_wrong (rt : α → α) (phi : α → α → α) (name : String) (x y z : List α) : (VaryingCDF.new name : VaryingCDF α).integral rt phi x y z = .ub := rfl

/-- A varying kernel for the examples: the width of the Gaussian grows with the root of the position. -/
def varying1 : VaryingCDF ℚ := ⟨"v", [("stddevs_0", ⟨"f", "grad", 2⟩)], some ⟨"kernel", some ⟨[0], [1], 6, 1, "g", ["means_0"], ["stddevs_0"]⟩⟩⟩

example : varying1.integral (fun x => x) (fun x s => x / s) [3] [5] [4] =
    .ok (1 / 4, { varying1 with kernel := some ⟨"kernel", some ⟨[0], [8], 6, 1, "g", ["means_0"], ["stddevs_0"]⟩⟩ }) := by decide +kernel
example : ∃ (g' : Gaussian ℚ) (d d' : ParamDict ℚ), Gaussian.Ok g' ∧ Gaussian.getParameters (⟨[0], [1], 6, 1, "g", ["means_0"], ["stddevs_0"]⟩ : Gaussian ℚ) = .ok d ∧
    g'.getParameters = .ok d' ∧ d'.find "stddevs_0" = some (2 * 4) := by
  obtain ⟨g', d, d', h1, h2, h3, h4, h5, h6, h7, h8⟩ := C78_varying (fun x => x) (fun x s => x / s) (v := varying1) rfl rfl ⟨rfl, rfl, rfl, rfl⟩ (by decide) 4 [] [3] [5]
  refine ⟨g', d, d', h1, h2, h3, ?_⟩
  have hd : d = [("means_0", 0), ("stddevs_0", 1)] := by
    have : Gaussian.getParameters (⟨[0], [1], 6, 1, "g", ["means_0"], ["stddevs_0"]⟩ : Gaussian ℚ) = .ok [("means_0", 0), ("stddevs_0", 1)] := by decide +kernel
    exact Res.ok.inj (h2.symm.trans this)
  rw [h7 "stddevs_0" (by rw [hd]; decide)]
  rfl
example : varying1.setParameter "grad" 5 = .ok { varying1 with functions := [("stddevs_0", ⟨"f", "grad", 5⟩)] } := by decide +kernel
example : ∀ n x, VaryingCDF.setParameter (⟨"v", [("means_0", ⟨"f", "a", 2⟩), ("stddevs_0", ⟨"g", "b", 2⟩)], none⟩ : VaryingCDF ℚ) n x = .throw .parameter :=
  fun n x => (C78_parameter_wrong (p := ("means_0", ⟨"f", "a", 2⟩)) (q := ("stddevs_0", ⟨"g", "b", 2⟩)) (by simp) (by simp) (by decide) n x).1

/-- C78, the square-root function itself: new, it is the square root of the absolute value, with the one parameter "grad" equal to 1; in any state, its value is the
gradient reported times that root; setting the gradient under its name, alone or in a dictionary, replaces it, any other name is a ParameterError; renaming
makes the new name the one that works and keeps the value. -/
theorem C78_scale (rt : α → α) (name : String) (f : SquareRootScale α) :
    (∀ x xs, (SquareRootScale.new name : SquareRootScale α).eval rt (x :: xs) = .ok (rt |x|)) ∧
    (SquareRootScale.new name : SquareRootScale α).getParameters = [("grad", 1)] ∧
    (∀ x xs g, f.getParameter f.paramName = .ok g → f.eval rt (x :: xs) = .ok (g * rt |x|)) ∧ (f.eval rt [] = .throw .outOfRange) ∧
    (∃ g, f.getParameter f.paramName = .ok g ∧ f.getParameters = [(f.paramName, g)]) ∧
    (∀ n v, n = f.paramName → ∃ f', f.setParameter n v = .ok f' ∧ f'.getParameter n = .ok v) ∧
    (∀ d : ParamDict α, ∀ v, d.find f.paramName = some v → ∃ f', f.setParameters d = .ok f' ∧ f'.getParameters = [(f.paramName, v)]) ∧
    (∀ d : ParamDict α, d.find f.paramName = none → f.setParameters d = .throw .parameter) ∧
    (∀ n v, n ≠ f.paramName → f.setParameter n v = .throw .parameter ∧ f.getParameter n = .throw .parameter ∧ ∀ m, f.renameParameter n m = .throw .parameter) ∧
    (∀ m, ∃ f', f.renameParameter f.paramName m = .ok f' ∧ f'.getParameter m = f.getParameter f.paramName ∧
      (m ≠ f.paramName → f'.getParameter f.paramName = .throw .parameter)) := by
  refine ⟨fun x xs => ?_, rfl, fun x xs g hg => ?_, rfl, ⟨f.gradient, by simp [SquareRootScale.getParameter], rfl⟩, fun n v hn => ?_, fun d v hd => ?_, fun d hd => ?_,
    fun n v hn => ?_, fun m => ?_⟩
  · simp [SquareRootScale.eval, SquareRootScale.new, at_]
  · simp only [SquareRootScale.getParameter, ne_eq, not_true_eq_false, if_false, Res.ok.injEq] at hg
    simp [SquareRootScale.eval, at_, hg]
  · subst hn; exact ⟨{ f with gradient := v }, by simp [SquareRootScale.setParameter], by simp [SquareRootScale.getParameter]⟩
  · exact ⟨{ f with gradient := v }, by simp [SquareRootScale.setParameters, hd], rfl⟩
  · simp [SquareRootScale.setParameters, hd]
  · simp [SquareRootScale.setParameter, SquareRootScale.getParameter, SquareRootScale.renameParameter, hn]
  · refine ⟨{ f with paramName := m }, by simp [SquareRootScale.renameParameter], by simp [SquareRootScale.getParameter], fun h => ?_⟩
    simp [SquareRootScale.getParameter, Ne.symm h]

end Oxsx
