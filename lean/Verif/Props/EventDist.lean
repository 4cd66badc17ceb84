import Verif.Spec.EventDist
import Verif.Lemmas.PdfManager
import Verif.Props.Parameters
import Verif.Props.Histogram
/-
C59 (products of distributions) and C69 (density of an event under several distributions).
-/
set_option linter.unusedSectionVars false
set_option linter.unusedSimpArgs false
set_option linter.unusedVariables false
namespace Oxsx
variable {α : Type} [Field α] [LinearOrder α]

/-- The product of the results of calls made in order. -/
def Res.prod {β : Type} (f : β → Res α) (a : α) (l : List β) : Res α :=
  Res.forFold (fun (a : α) b => do
    let x ← f b
    pure (a * x)) a l

theorem Res.prod_append {β : Type} (f : β → Res α) (a : α) (l m : List β) :
    Res.prod f a (l ++ m) = (Res.prod f a l >>= fun b => Res.prod f b m) := by
  unfold Res.prod
  rw [Res.forFold_append]
  rfl

theorem Res.prod_mul {β : Type} (f : β → Res α) (a b : α) (l : List β) :
    Res.prod f (a * b) l = (Res.prod f b l >>= fun x => pure (a * x)) := by
  induction l generalizing b with
  | nil => rfl
  | cons c l ih =>
    unfold Res.prod at ih ⊢
    simp only [Res.forFold]
    cases f c with
    | ok x => simp only [Res.ok_bind]; show Res.forFold _ (a * b * x) l = _; rw [mul_assoc, ih]; rfl
    | throw e => rfl
    | ub => rfl

mutual
theorem EDist.probability_prod (e : Event α) : ∀ t : EDist α, t.probability e = Res.prod (EDist.probability e) 1 t.leaves
  | .binned d => by
    unfold EDist.leaves Res.prod
    simp only [Res.forFold]
    cases h : EDist.probability e (.binned d) <;> simp [h] <;> rfl
  | .analytic n o f k v => by
    unfold EDist.leaves Res.prod
    simp only [Res.forFold]
    cases h : EDist.probability e (.analytic n o f k v) <;> simp [h] <;> rfl
  | .composite n ps => by
    unfold EDist.leaves EDist.probability
    exact EDist.probabilityProd_prod e 1 ps
theorem EDist.probabilityProd_prod (e : Event α) : ∀ (a : α) (ps : List (EDist α)),
    EDist.probabilityProd e a ps = Res.prod (EDist.probability e) a (EDist.leavesAll ps)
  | a, [] => by unfold EDist.probabilityProd EDist.leavesAll; rfl
  | a, p :: ps => by
    unfold EDist.probabilityProd EDist.leavesAll
    rw [Res.prod_append, EDist.probability_prod e p]
    have := Res.prod_mul (EDist.probability e) a 1 p.leaves
    rw [mul_one] at this
    rw [this]
    cases h : Res.prod (EDist.probability e) 1 p.leaves with
    | ok x => simp only [Res.ok_bind, pure_bind]; exact EDist.probabilityProd_prod e (a * x) ps
    | throw e => rfl
    | ub => rfl
end

mutual
theorem EDist.nDims_sum : ∀ t : EDist α, t.nDims = (t.leaves.map EDist.nDims).sum
  | .binned d => by simp [EDist.leaves]
  | .analytic n o f k v => by simp [EDist.leaves]
  | .composite n ps => by
    unfold EDist.leaves EDist.nDims
    rw [EDist.nDimsSum_sum]; simp
theorem EDist.nDimsSum_sum : ∀ (a : Nat) (ps : List (EDist α)), EDist.nDimsSum a ps = a + ((EDist.leavesAll ps).map EDist.nDims).sum
  | a, [] => by simp [EDist.nDimsSum, EDist.leavesAll]
  | a, p :: ps => by
    unfold EDist.nDimsSum EDist.leavesAll
    rw [EDist.nDimsSum_sum, EDist.nDims_sum p, List.map_append, List.sum_append]
    omega
end

mutual
theorem EDist.integral_prod : ∀ t : EDist α, t.integral = (t.leaves.map EDist.integral).prod
  | .binned d => by simp [EDist.leaves]
  | .analytic n o f k v => by simp [EDist.leaves]
  | .composite n ps => by
    unfold EDist.leaves EDist.integral
    rw [EDist.integralProd_prod]; simp
theorem EDist.integralProd_prod : ∀ (a : α) (ps : List (EDist α)),
    EDist.integralProd a ps = a * ((EDist.leavesAll ps).map EDist.integral).prod
  | a, [] => by simp [EDist.integralProd, EDist.leavesAll]
  | a, p :: ps => by
    unfold EDist.integralProd EDist.leavesAll
    rw [EDist.integralProd_prod, EDist.integral_prod p, List.map_append, List.prod_append, mul_assoc]
end

mutual
theorem EDist.leaves_normalise : ∀ t : EDist α, t.normalise.leaves = t.leaves.map EDist.normalise
  | .binned d => by simp [EDist.leaves, EDist.normalise]
  | .analytic n o f k v => by simp [EDist.leaves, EDist.normalise]
  | .composite n ps => by
    simp only [EDist.leaves, EDist.normalise]
    exact EDist.leavesAll_normalise ps
theorem EDist.leavesAll_normalise : ∀ ps : List (EDist α),
    EDist.leavesAll (EDist.normaliseAll ps) = (EDist.leavesAll ps).map EDist.normalise
  | [] => by simp [EDist.leavesAll, EDist.normaliseAll]
  | p :: ps => by
    simp only [EDist.leavesAll, EDist.normaliseAll, List.map_append]
    rw [EDist.leaves_normalise p, EDist.leavesAll_normalise ps]
end

/-- C59, dimensions and integral: the dimension of a product is the sum, the integral the product, over the factors at any depth. -/
theorem C59_dims_integral (t : EDist α) :
    t.nDims = (t.leaves.map EDist.nDims).sum ∧ t.integral = (t.leaves.map EDist.integral).prod :=
  ⟨t.nDims_sum, t.integral_prod⟩

/-- C59, probability: when every factor gives a probability for the event, the product gives the product of them. -/
theorem C59_probability (t : EDist α) (e : Event α) (p : EDist α → α) (h : ∀ l ∈ t.leaves, l.probability e = .ok (p l)) :
    t.probability e = .ok ((t.leaves.map p).prod) := by
  rw [t.probability_prod e]
  have gen : ∀ (l : List (EDist α)) (a : α), (∀ x ∈ l, x.probability e = .ok (p x)) →
      Res.prod (EDist.probability e) a l = .ok (a * (l.map p).prod) := by
    intro l
    induction l with
    | nil => intro a _; simp [Res.prod, Res.forFold]
    | cons x l ih =>
      intro a hl
      unfold Res.prod at ih ⊢
      simp only [Res.forFold]
      rw [hl x (by simp)]
      simp only [Res.ok_bind]
      show Res.forFold _ (a * p x) l = _
      rw [ih _ (fun y hy => hl y (by simp [hy])), List.map_cons, List.prod_cons, mul_assoc]
  rw [gen _ _ h, one_mul]

/-- C59, probability: the first factor, in order, which refuses the event decides the exception. -/
theorem C59_throws (t : EDist α) (e : Event α) (p : EDist α → α) {pre post : List (EDist α)} {l : EDist α} {x : Exc}
    (hl : t.leaves = pre ++ l :: post) (h : ∀ l ∈ pre, l.probability e = .ok (p l)) (hx : l.probability e = .throw x) :
    t.probability e = .throw x := by
  rw [t.probability_prod e, hl, Res.prod_append]
  have gen : ∀ (l : List (EDist α)) (a : α), (∀ x ∈ l, x.probability e = .ok (p x)) →
      ∃ b, Res.prod (EDist.probability e) a l = .ok b := by
    intro l
    induction l with
    | nil => intro a _; exact ⟨a, rfl⟩
    | cons x l ih =>
      intro a hl
      unfold Res.prod at ih ⊢
      simp only [Res.forFold]
      rw [hl x (by simp)]
      exact ih (a * p x) (fun y hy => hl y (by simp [hy]))
  obtain ⟨b, hb⟩ := gen pre 1 h
  rw [hb]
  simp only [Res.ok_bind]
  unfold Res.prod
  simp only [Res.forFold]
  rw [hx]
  rfl

/-- C59, an analytic factor: the probability is the function at the values of its own observables, divided by its normalisation; a value
missing from the event, or an exception of the function, is passed on. -/
theorem C59_analytic (n : String) (o : ObsSet) (f : List α → Res α) (k : Nat) (v : α) (e : Event α) :
    (∀ xs y, Res.traverse e.getDatumByName o.names = .ok xs → f xs = .ok y →
      (EDist.analytic n o f k v).probability e = .ok (y / v)) ∧
    (∀ xs x, Res.traverse e.getDatumByName o.names = .ok xs → f xs = .throw x →
      (EDist.analytic n o f k v).probability e = .throw x) ∧
    (∀ x, Res.traverse e.getDatumByName o.names = .throw x → (EDist.analytic n o f k v).probability e = .throw x) := by
  unfold EDist.probability Event.toObsSet
  refine ⟨?_, ?_, ?_⟩
  · intro xs y h1 h2; rw [h1]; simp only [Res.ok_bind]; rw [h2]; rfl
  · intro xs y h1 h2; rw [h1]; simp only [Res.ok_bind]; rw [h2]; rfl
  · intro x h; rw [h]; rfl

example : (EDist.analytic "a" (ObsSet.ofNames ["y"]) (fun xs => .ok (xs.sum * 3)) 1 (2 : ℚ)).probability
    ⟨[5, 7], some ["x", "y"]⟩ = .ok (21 / 2) := by decide +kernel

/-- C59, associativity: products of the same factors in the same order, bracketed in any way, give every event the same outcome, and
have the same integral and dimension. -/
theorem C59_assoc (t u : EDist α) (h : t.leaves = u.leaves) :
    (∀ e, t.probability e = u.probability e) ∧ t.integral = u.integral ∧ t.nDims = u.nDims :=
  ⟨fun e => by rw [t.probability_prod e, u.probability_prod e, h], by rw [t.integral_prod, u.integral_prod, h],
    by rw [t.nDims_sum, u.nDims_sum, h]⟩

/-- C59, the product of two and of several: `*` and the list constructor. -/
theorem C59_mul (a b c : EDist α) :
    (a.mul b).leaves = a.leaves ++ b.leaves ∧ (a.mul b).name = a.name ++ "*" ++ b.name ∧
    (∀ e, ((a.mul b).mul c).probability e = (a.mul (b.mul c)).probability e) ∧
    (∀ e, (EDist.ofList [a, b, c]).probability e = (a.mul (b.mul c)).probability e) ∧
    (a.mul b).nDims = a.nDims + b.nDims ∧ (a.mul b).integral = a.integral * b.integral := by
  have hm : ∀ a b : EDist α, (a.mul b).leaves = a.leaves ++ b.leaves := by
    intro a b
    unfold EDist.mul
    simp [EDist.leaves, EDist.leavesAll]
  refine ⟨hm a b, rfl, ?_, ?_, ?_, ?_⟩
  · exact (C59_assoc _ _ (by rw [hm, hm, hm, hm, List.append_assoc])).1
  · refine (C59_assoc _ _ ?_).1
    rw [hm, hm]
    unfold EDist.ofList
    simp [EDist.leaves, EDist.leavesAll]
  · rw [EDist.nDims_sum, hm, List.map_append, List.sum_append, ← EDist.nDims_sum, ← EDist.nDims_sum]
  · rw [EDist.integral_prod, hm, List.map_append, List.prod_append, ← EDist.integral_prod, ← EDist.integral_prod]

/-- C59 (names): the name of a product is the names of its factors joined by a star; those of a binned and of an analytic factor are the names they were given. -/
theorem C59_names (d : BinnedED α) (n : String) (o : ObsSet) (f : List α → Res α) (k : Nat) (v : α) (c : EDist α) :
    ((EDist.binned d).mul (.analytic n o f k v)).name = d.name ++ "*" ++ n ∧
    (((EDist.binned d).mul (.analytic n o f k v)).mul c).name = d.name ++ "*" ++ n ++ "*" ++ c.name := ⟨rfl, rfl⟩

mutual
theorem EDist.leaf_leaves : ∀ t : EDist α, ∀ l ∈ t.leaves, (∃ d, l = .binned d) ∨ ∃ n o f k v, l = .analytic n o f k v
  | .binned d => by intro l hl; simp [EDist.leaves] at hl; exact .inl ⟨d, hl⟩
  | .analytic n o f k v => by intro l hl; simp [EDist.leaves] at hl; exact .inr ⟨n, o, f, k, v, hl⟩
  | .composite n ps => by unfold EDist.leaves; exact EDist.leaf_leavesAll ps
theorem EDist.leaf_leavesAll : ∀ ps : List (EDist α), ∀ l ∈ EDist.leavesAll ps, (∃ d, l = .binned d) ∨ ∃ n o f k v, l = .analytic n o f k v
  | [] => by intro l hl; simp [EDist.leavesAll] at hl
  | p :: ps => by
    intro l hl
    unfold EDist.leavesAll at hl
    rcases List.mem_append.1 hl with h | h
    · exact EDist.leaf_leaves p l h
    · exact EDist.leaf_leavesAll ps l h
end

/-- C59, own observables: only the values of the factors' own observables matter. -/
theorem C59_own_observables (t : EDist α) (e e' : Event α)
    (h : ∀ l ∈ t.leaves, ∀ n ∈ l.ownObs, e.getDatumByName n = e'.getDatumByName n) : t.probability e = t.probability e' := by
  rw [t.probability_prod e, t.probability_prod e']
  have htr : ∀ (ns : List String), (∀ n ∈ ns, e.getDatumByName n = e'.getDatumByName n) →
      Res.traverse e.getDatumByName ns = Res.traverse e'.getDatumByName ns := by
    intro ns
    induction ns with
    | nil => intro _; rfl
    | cons n ns ih => intro hn; simp only [Res.traverse]; rw [hn n (by simp), ih (fun m hm => hn m (by simp [hm]))]
  have hone : ∀ l ∈ t.leaves, l.probability e = l.probability e' := by
    intro l hl
    have h' := h l hl
    rcases EDist.leaf_leaves t l hl with ⟨d, rfl⟩ | ⟨n, o, f, k, v, rfl⟩
    · unfold EDist.probability BinnedED.probabilityEvent Event.toObsSet
      rw [htr d.obs.names h']
    · unfold EDist.probability Event.toObsSet
      rw [htr o.names h']
  generalize t.leaves = ls at hone
  generalize (1 : α) = a
  unfold Res.prod
  induction ls generalizing a with
  | nil => rfl
  | cons l ls ih =>
    simp only [Res.forFold]
    rw [hone l (by simp)]
    cases l.probability e' with
    | ok x => exact ih (fun y hy => hone y (by simp [hy])) _
    | throw _ => rfl
    | ub => rfl

/-- C59, normalisation: it makes the integral 1, and keeps every probability. -/
theorem C59_normalise (t : EDist α) (h : ∀ l ∈ t.leaves, l.Normalisable) (hv : ∀ n o f k v, EDist.analytic n o f k v ∈ t.leaves → v = 1) :
    t.normalise.integral = 1 ∧ ∀ e, t.normalise.probability e = t.probability e := by
  have leaf : ∀ l ∈ t.leaves, l.normalise.integral = 1 ∧ ∀ e, l.normalise.probability e = l.probability e := by
    intro l hl
    rcases EDist.leaf_leaves t l hl with ⟨d, rfl⟩ | ⟨n, o, f, k, v, rfl⟩
    · obtain ⟨h1, h2⟩ := h _ hl
      have hint : d.hist.normalise.integral = 1 := by
        have hdiv : ∀ (l : List α) (c : α), (l.map (· / c)).sum = l.sum / c := by
          intro l c
          induction l with
          | nil => simp
          | cons a l ih => simp [ih, add_div]
        have hsum : d.hist.integral = d.hist.contents.sum := by
          unfold Histogram.integral
          rw [List.take_of_length_le (by omega), ← List.sum_eq_foldl]
        unfold Histogram.integral Histogram.normalise
        simp only
        rw [List.take_of_length_le (by simp; omega), ← List.sum_eq_foldl, hdiv, ← hsum]
        exact div_self h2
      refine ⟨by simpa only [EDist.normalise, EDist.integral] using hint, ?_⟩
      intro e
      simp only [EDist.normalise, EDist.probability, BinnedED.probabilityEvent, BinnedED.probability]
      congr 1
      funext vs
      show (d.hist.findBin vs >>= _) = (d.hist.findBin vs >>= _)
      congr 1
      funext b
      rw [hint]
      unfold Histogram.getBinContent
      show (if b > d.hist.nBins then _ else idx (d.hist.contents.map (· / d.hist.integral)) b) >>= _ = _
      by_cases hb : b > d.hist.nBins
      · rw [if_pos hb, if_pos hb]; rfl
      · rw [if_neg hb, if_neg hb]
        unfold idx
        rw [List.getElem?_map]
        cases d.hist.contents[b]? with
        | none => rfl
        | some x => simp
    · refine ⟨by simp [EDist.normalise, EDist.integral], fun e => ?_⟩
      rw [hv n o f k v hl]
      simp [EDist.normalise]
  refine ⟨?_, ?_⟩
  · rw [EDist.integral_prod, EDist.leaves_normalise, List.map_map]
    exact List.prod_eq_one (fun x hx => by
      obtain ⟨l, hl, rfl⟩ := List.mem_map.1 hx
      exact (leaf l hl).1)
  · intro e
    rw [EDist.probability_prod, EDist.probability_prod e t, EDist.leaves_normalise]
    generalize t.leaves = ls at leaf
    generalize (1 : α) = a
    unfold Res.prod
    induction ls generalizing a with
    | nil => rfl
    | cons l ls ih =>
      simp only [Res.forFold, List.map_cons]
      rw [(leaf l (by simp)).2 e]
      cases l.probability e with
      | ok x => exact ih (fun y hy => leaf y (by simp [hy])) _
      | throw _ => rfl
      | ub => rfl

/-! ### C69 -/

/-- What holds of every manager built. -/
structure EDManager.Inv (ds : List (EDist α)) (m : EDManager α) : Prop where
  dists : m.dists = ds
  count : m.nDists = ds.length
  norms : m.norms.length = ds.length
  dims : ∀ d ∈ ds, d.nDims = m.nDims
  params : m.params = regOf 0 (ds.map (·.name))

theorem EDManager.register_ok {m : EDManager α} (h : m.norms.length = m.dists.length) :
    m.registerParameters = .ok { m with params := regOf 0 (m.dists.map (·.name)) } := by
  unfold registerParameters ParamManager.addContainer
  rw [if_neg (by simp [h])]
  rfl

theorem EDManager.addDist_inv {ds : List (EDist α)} {m m' : EDManager α} (hi : Inv ds m) (d : EDist α) (h : m.addDist d = .ok m') :
    Inv (ds ++ [d]) m' ∧ m'.norms = m.norms ++ [0] := by
  have hlen : (resize m.norms (m.nDists + 1) 0).length = (m.dists ++ [d]).length := by
    simp [resize, hi.norms, hi.count, hi.dists]
  have hres : resize m.norms (m.nDists + 1) 0 = m.norms ++ [0] := by
    unfold resize
    rw [List.take_of_length_le (by rw [hi.norms, hi.count]; omega), hi.norms, hi.count]
    simp
  unfold EDManager.addDist at h
  split at h
  · rename_i h0
    rw [EDManager.register_ok hlen] at h
    cases h
    have hds : ds = [] := by rw [hi.dists] at h0; exact List.length_eq_zero_iff.1 h0
    refine ⟨⟨by simp [hi.dists], by simp [hi.count], by simpa [hi.dists] using hlen, ?_, by simp [hi.dists]⟩, hres⟩
    intro x hx
    simp [hds] at hx
    rw [hx]
  · split at h
    · cases h
    · rename_i h0 h1
      rw [EDManager.register_ok hlen] at h
      cases h
      refine ⟨⟨by simp [hi.dists], by simp [hi.count], by simpa [hi.dists] using hlen, ?_, by simp [hi.dists]⟩, hres⟩
      intro x hx
      rcases List.mem_append.1 hx with hx | hx
      · exact hi.dims x hx
      · rw [List.mem_singleton] at hx; subst hx; simpa using h1

theorem Ref.set_len {r : Ref} {s s' : Store α} {v : α} (h : r.set s v = .ok s') (c : Nat) : (s'.cont c).length = (s.cont c).length := by
  cases r with
  | dbl i => cases h; rfl
  | elem c' i =>
    unfold Ref.set at h
    simp only at h
    split at h
    · cases h
    · cases h
      by_cases hc : c = c'
      · subst hc; simp
      · simp [Function.update_of_ne hc]

theorem ParamManager.setLoop_length (m : ParamManager) (d : ParamDict α) (l : List String) (s : Store α) (c : Nat) :
    ((m.setLoop d s l).1.cont c).length = (s.cont c).length := by
  induction l generalizing s with
  | nil => rfl
  | cons n l ih =>
    unfold ParamManager.setLoop
    cases h : m.setOne d s n with
    | ok s' =>
      rw [ih]
      unfold ParamManager.setOne at h
      cases hm : m.find n <;> cases hd : d.find n <;> simp only [hm, hd] at h
      · cases h
      · cases h
      · cases h
      · exact Ref.set_len h c
    | throw e => rfl
    | ub => rfl

theorem EDManager.inv_of_built {ds : List (EDist α)} {m : EDManager α} (h : Built ds m) : Inv ds m := by
  induction h with
  | new => exact ⟨rfl, rfl, rfl, by simp, rfl⟩
  | addDist d _ h ih => exact (addDist_inv ih d h).1
  | setNormalisations ns _ h ih =>
    unfold EDManager.setNormalisations at h
    split at h
    · cases h
    · rename_i hl
      cases h
      exact ⟨ih.dists, ih.count, by rw [← ih.count]; simpa using hl, ih.dims, ih.params⟩
  | setParameters d _ ih =>
    refine ⟨ih.dists, ih.count, ?_, ih.dims, ih.params⟩
    rw [← ih.norms]
    exact ParamManager.setLoop_length _ _ _ _ 0
  | setParameter n v _ h ih =>
    unfold EDManager.setParameter at h
    obtain ⟨s, hs, h⟩ := Res.bind_eq_ok.1 h
    cases h
    refine ⟨ih.dists, ih.count, ?_, ih.dims, ih.params⟩
    rw [← ih.norms]
    unfold ParamManager.setParameter at hs
    rename_i m _
    cases hf : m.params.find n with
    | none => rw [hf] at hs; cases hs
    | some r =>
      rw [hf] at hs
      simp only at hs
      cases hr : r.set m.store v with
      | ok s' => rw [hr] at hs; cases hs; exact Ref.set_len hr 0
      | throw _ => rw [hr] at hs; cases hs
      | ub => rw [hr] at hs; cases hs

/-- C69, the density: for a manager of the distributions `ds`, after any history, the sum over the distributions of normalisation times
probability. -/
theorem C69_probability {ds : List (EDist α)} {m : EDManager α} (h : EDManager.Built ds m) (e : Event α) (p : EDist α → α)
    (hp : ∀ d ∈ ds, d.probability e = .ok (p d)) :
    m.norms.length = ds.length ∧ m.probability e = .ok ((List.zipWith (fun n d => n * p d) m.norms ds).sum) := by
  have hi := EDManager.inv_of_built h
  refine ⟨hi.norms, ?_⟩
  unfold EDManager.probability
  rw [hi.dists]
  obtain ⟨s, h1, h2⟩ := Res.forFold_range (f := fun (s : α) i => (do
      let n ← at_ m.norms i
      let d ← at_ ds i
      let p ← d.probability e
      pure (s + n * p) : Res α)) (n := ds.length) (s := 0)
    (fun k s => s = (List.zipWith (fun n d => n * p d) (m.norms.take k) (ds.take k)).sum) (by simp) (by
      intro k s hk hs
      have hkn : k < m.norms.length := by rw [hi.norms]; exact hk
      refine ⟨s + m.norms[k] * p ds[k], ?_, ?_⟩
      · rw [at_of_lt hkn, at_of_lt hk]
        simp only [Res.ok_bind]
        rw [hp _ (List.getElem_mem hk)]
        rfl
      · rw [hs, List.take_succ_eq_append_getElem hkn, List.take_succ_eq_append_getElem hk,
          List.zipWith_append (by simp [hi.norms])]
        simp)
  rw [h1, h2]
  rw [List.take_of_length_le (by rw [hi.norms]), List.take_of_length_le le_rfl]

/-- C69, what is rejected: normalisations of the wrong length and distributions of another dimension; the manager's dimension is that
of all its distributions. -/
theorem C69_rejects {ds : List (EDist α)} {m : EDManager α} (h : EDManager.Built ds m) :
    (∀ ns : List α, ns.length ≠ ds.length → m.setNormalisations ns = .throw .dimension) ∧
    (∀ ns : List α, ns.length = ds.length → ∃ m', m.setNormalisations ns = .ok m' ∧ m'.norms = ns) ∧
    (∀ d, ds ≠ [] → d.nDims ≠ m.nDims → m.addDist d = .throw .dimension) ∧
    (∀ d, ds = [] ∨ d.nDims = m.nDims → ∃ m', m.addDist d = .ok m' ∧ m'.norms = m.norms ++ [0]) ∧ ∀ d ∈ ds, d.nDims = m.nDims := by
  have hi := EDManager.inv_of_built h
  refine ⟨?_, ?_, ?_, ?_, hi.dims⟩
  · intro ns hn
    unfold EDManager.setNormalisations
    rw [if_pos (by rw [hi.count]; exact hn)]
  · intro ns hn
    unfold EDManager.setNormalisations
    rw [if_neg (by rw [hi.count]; simp [hn])]
    exact ⟨_, rfl, rfl⟩
  · intro d hne hd
    unfold EDManager.addDist
    rw [if_neg (by rw [hi.dists]; exact fun h => hne (List.length_eq_zero_iff.1 h)), if_pos hd]
  · intro d hd
    have hlen : (resize m.norms (m.nDists + 1) 0).length = (m.dists ++ [d]).length := by
      simp [resize, hi.norms, hi.count, hi.dists]
    have : ∃ m', m.addDist d = .ok m' := by
      unfold EDManager.addDist
      by_cases h0 : m.dists.length = 0
      · rw [if_pos h0, EDManager.register_ok hlen]; exact ⟨_, rfl⟩
      · rw [if_neg h0, if_neg (by
          rcases hd with rfl | hd
          · exact absurd (by rw [hi.dists]; rfl) h0
          · simpa using hd), EDManager.register_ok hlen]
        exact ⟨_, rfl⟩
    obtain ⟨m', hm'⟩ := this
    exact ⟨m', hm', (EDManager.addDist_inv hi d hm').2⟩

/-- C69, fit parameters: with distinct names, setting the parameters gives each distribution the value under its own name as
normalisation, which the density then uses. For equal names see `C69_duplicate_wrong`. -/
theorem C69_set_parameters {ds : List (EDist α)} {m : EDManager α} (h : EDManager.Built ds m)
    (hn : (ds.map (·.name)).Nodup) (d : ParamDict α) (hall : ∀ x ∈ ds, (SMap.find d x.name).isSome) :
    (m.setParameters d).2 = .ok () ∧ (m.setParameters d).1.norms = ds.map (fun x => (SMap.find d x.name).getD 0) ∧
    (∀ x ∈ ds, (m.setParameters d).1.getParameter x.name = .ok ((SMap.find d x.name).getD 0)) := by
  have hi := EDManager.inv_of_built h
  have hkeys : ∀ n, n ∈ m.params.getParameterNames ↔ n ∈ ds.map (·.name) := by
    intro n; rw [hi.params]; exact regOf_keys n
  obtain ⟨s', h1, _, h3, _⟩ := C15_set_get m.params (by rw [hi.params]; exact regOf_sorted _ _)
    (by rw [hi.params]; exact regOf_distinct hn) m.store (by
      rw [hi.params]
      rintro ⟨n, r⟩ hp
      obtain ⟨i, hin, hr⟩ := regOf_find_iff hn (SMap.find_of_mem (regOf_sorted _ _) hp)
      simp only at hr ⊢
      subst hr
      have hil := (List.getElem?_eq_some_iff.1 hin).1
      refine ⟨m.norms[i]'(by rw [hi.norms]; simpa using hil), ?_⟩
      show at_ m.norms i = _
      exact at_of_lt _) d (by
      intro n hn'
      obtain ⟨x, hx, rfl⟩ := List.mem_map.1 ((hkeys n).1 hn')
      exact hall x hx)
  have hset : m.setParameters d = ({ m with norms := s'.cont 0 }, .ok ()) := by
    unfold EDManager.setParameters; rw [h1]
  have hlen : (s'.cont 0).length = ds.length := by
    have := ParamManager.setLoop_length m.params d m.params.keys m.store 0
    rw [← hi.norms]
    have h1' : (m.params.setLoop d m.store m.params.keys).1 = s' := by
      have := congrArg Prod.fst h1; exact this
    rw [← h1', this]; rfl
  have hval : ∀ (i : Nat) (x : EDist α), ds[i]? = some x → at_ (s'.cont 0) i = .ok ((SMap.find d x.name).getD 0) := by
    intro i x hx
    obtain ⟨v, hv⟩ := Option.isSome_iff_exists.1 (hall x (List.mem_of_getElem? hx))
    have hg := h3 x.name ((hkeys _).2 (List.mem_map.2 ⟨x, List.mem_of_getElem? hx, rfl⟩)) v hv
    unfold ParamManager.getParameter at hg
    have hf : m.params.find x.name = some (.elem 0 i) := by
      rw [hi.params]
      exact regOf_find hn (by rw [List.getElem?_map, hx]; rfl)
    rw [hf] at hg
    simp only [Ref.get] at hg
    rw [hv]
    cases ha : at_ (s'.cont 0) i with
    | ok y => rw [ha] at hg; exact hg
    | throw e => rw [ha] at hg; cases hg
    | ub => rw [ha] at hg; cases hg
  rw [hset]
  refine ⟨rfl, ?_, ?_⟩
  · refine List.ext_getElem? (fun i => ?_)
    show (s'.cont 0)[i]? = _
    by_cases hil : i < ds.length
    · have hx : ds[i]? = some ds[i] := by simp [hil]
      have := hval i _ hx
      rw [at_of_lt (by rw [hlen]; exact hil)] at this
      rw [List.getElem?_map, hx]
      simp only [Option.map_some]
      rw [List.getElem?_eq_getElem (by rw [hlen]; exact hil), Res.ok.inj this]
    · rw [List.getElem?_eq_none (by rw [hlen]; omega), List.getElem?_eq_none (by simp; omega)]
  · intro x hx
    obtain ⟨i, hil, he⟩ := List.mem_iff_getElem.1 hx
    have hx' : ds[i]? = some x := by simp [hil, he]
    unfold EDManager.getParameter ParamManager.getParameter
    have hf : m.params.find x.name = some (.elem 0 i) := by
      rw [hi.params]
      exact regOf_find hn (by rw [List.getElem?_map, hx']; rfl)
    show Res.mapExc toParameterError (match m.params.find x.name with
      | some r => r.get _
      | none => _) = _
    rw [hf]
    simp only [Ref.get]
    show Res.mapExc toParameterError (at_ (s'.cont 0) i) = _
    rw [hval i x hx']
    rfl

/-- A one dimensional analytic distribution on the observable `x`. -/
def exAnalytic (name : String) (f : ℚ → ℚ) : EDist ℚ :=
  .analytic name (ObsSet.ofNames ["x"]) (fun vs => match vs with
    | [x] => .ok (f x)
    | _ => .throw .dimension) 1 1

/-- **C69 is false for distributions with equal names**: both are added, one parameter exists, and setting it leaves the first
distribution without normalisation. -/
theorem C69_duplicate_wrong : ∃ m : EDManager ℚ, EDManager.Built [exAnalytic "a" id, exAnalytic "a" id] m ∧
    m.params.getParameterNames = ["a"] ∧ (m.setParameters [("a", 3)]).2 = .ok () ∧ (m.setParameters [("a", 3)]).1.norms = [0, 3] := by
  have hw : ((EDManager.new : EDManager ℚ).addDist (exAnalytic "a" id) >>= fun m => m.addDist (exAnalytic "a" id) >>= fun m' =>
      Res.ok (m'.params.getParameterNames, (m'.setParameters [("a", 3)]).2, (m'.setParameters [("a", 3)]).1.norms)) =
      .ok (["a"], .ok (), [0, 3]) := by decide +kernel
  obtain ⟨m, h1, hw⟩ := Res.bind_eq_ok.1 hw
  obtain ⟨m', h2, hw⟩ := Res.bind_eq_ok.1 hw
  have hw := Res.ok.inj hw
  simp only [Prod.mk.injEq] at hw
  exact ⟨m', .addDist _ (.addDist _ .new h1) h2, hw⟩

/-- Non-vacuity: a product of two analytic distributions and a binned one; a manager of two distributions with normalisations. -/
example : ((exAnalytic "a" id).mul ((exAnalytic "b" (· + 1)).mul (exAnalytic "c" (· * 2)))).probability
    (⟨[3], some ["x"]⟩ : Event ℚ) = .ok 72 := by decide +kernel

theorem exTwoDists : ∃ m : EDManager ℚ, EDManager.Built [exAnalytic "a" id, exAnalytic "b" (· + 1)] m ∧
    (m.setParameters [("a", 2), ("b", 5)]).1.probability (⟨[3], some ["x"]⟩ : Event ℚ) = .ok 26 := by
  have hw : ((EDManager.new : EDManager ℚ).addDist (exAnalytic "a" id) >>= fun m => m.addDist (exAnalytic "b" (· + 1)) >>= fun m' =>
      (m'.setParameters [("a", 2), ("b", 5)]).1.probability (⟨[3], some ["x"]⟩ : Event ℚ)) = .ok 26 := by decide +kernel
  obtain ⟨m, h1, hw⟩ := Res.bind_eq_ok.1 hw
  obtain ⟨m', h2, hw⟩ := Res.bind_eq_ok.1 hw
  exact ⟨m', .addDist _ (.addDist _ .new h1) h2, hw⟩

theorem EDist.listName_aux (n : Nat) : ∀ (xs : List (EDist α)) (x : EDist α) (k : Nat) (acc : String), k + xs.length + 1 = n →
    ((x :: xs).zipIdx k).foldl (fun (s : String) (p : EDist α × Nat) => if p.2 ≠ n - 1 then s ++ p.1.name ++ "*" else s ++ p.1.name) acc =
      acc ++ "*".intercalate ((x :: xs).map EDist.name) := by
  intro xs
  induction xs with
  | nil =>
    intro x k acc h
    simp only [List.zipIdx_cons, List.zipIdx_nil, List.foldl_cons, List.foldl_nil, List.map_cons, List.map_nil, String.intercalate_singleton]
    rw [if_neg (by simp at h; simp; omega)]
  | cons y ys ih =>
    intro x k acc h
    rw [List.zipIdx_cons, List.foldl_cons, ih y (k + 1) _ (by simp at h ⊢; omega), if_pos (by simp at h; simp; omega)]
    simp only [List.map_cons, String.intercalate_cons_cons, String.append_assoc]

/-- C59, the list constructor: the factors are those of the list in order, the name is made of their names joined by "*"; and a new analytic distribution has
the name and number of dimensions given, with integral 1. -/
theorem C59_list (ps : List (EDist α)) :
    (EDist.ofList ps).name = "*".intercalate (ps.map EDist.name) ∧ (EDist.ofList ps).leaves = ps.flatMap EDist.leaves ∧
    ∀ name f k, (EDist.ofFunction name f k : EDist α).name = name ∧ (EDist.ofFunction name f k : EDist α).nDims = k ∧
      (EDist.ofFunction name f k : EDist α).integral = 1 := by
  refine ⟨?_, ?_, fun name f k => ⟨rfl, by simp [EDist.ofFunction, EDist.nDims], by simp [EDist.ofFunction, EDist.integral]⟩⟩
  · cases ps with
    | nil => rfl
    | cons x xs =>
      show List.foldl _ "" _ = _
      rw [EDist.listName_aux _ xs x 0 "" (by simp)]; simp
  · unfold EDist.ofList
    rw [EDist.leaves]
    induction ps with
    | nil => rfl
    | cons x xs ih => rw [EDist.leavesAll, ih]; rfl

/-- C69, several at once: adding a list of distributions to a manager fails exactly if they do not all agree with each other (and with those already there) in
dimension, and otherwise gives a manager of the old and the new ones in order. A new manager has none, and probability 0 for every event. -/
theorem C69_add_dists {ds0 : List (EDist α)} {m : EDManager α} (h : EDManager.Built ds0 m) (ds : List (EDist α)) :
    ((∀ a ∈ ds0 ++ ds, ∀ b ∈ ds0 ++ ds, a.nDims = b.nDims) → ∃ m', m.addDists ds = .ok m' ∧ EDManager.Built (ds0 ++ ds) m' ∧
      m'.norms = m.norms ++ List.replicate ds.length 0) ∧
    (¬ (∀ a ∈ ds0 ++ ds, ∀ b ∈ ds0 ++ ds, a.nDims = b.nDims) → m.addDists ds = .throw .dimension) ∧
    ∀ e, (EDManager.new : EDManager α).probability e = .ok 0 := by
  have reg : ∀ {l : List (EDist α)} {m : EDManager α}, EDManager.Built l m → m.registerParameters = .ok m := by
    intro l m h
    have hi := EDManager.inv_of_built h
    rw [EDManager.register_ok (by rw [hi.norms, hi.dists])]
    congr 1
    obtain ⟨a, b, c, d, e⟩ := m
    obtain ⟨h1, h2, h3, h4, h5⟩ := hi
    simp only at h1 h5
    subst h1
    rw [h5]
  have key : ∀ (ds ds0 : List (EDist α)) (m : EDManager α), EDManager.Built ds0 m →
      ((∀ a ∈ ds0 ++ ds, ∀ b ∈ ds0 ++ ds, a.nDims = b.nDims) → ∃ m', Res.forFold EDManager.addDist m ds = .ok m' ∧ EDManager.Built (ds0 ++ ds) m' ∧
        m'.norms = m.norms ++ List.replicate ds.length 0) ∧
      (¬ (∀ a ∈ ds0 ++ ds, ∀ b ∈ ds0 ++ ds, a.nDims = b.nDims) → Res.forFold EDManager.addDist m ds = .throw .dimension) := by
    intro ds
    induction ds with
    | nil =>
      intro ds0 m h
      have hi := (C69_rejects h).2.2.2.2
      refine ⟨fun _ => ⟨m, rfl, by simpa using h, by simp⟩, fun hn => absurd ?_ hn⟩
      intro a ha b hb
      rw [hi a (by simpa using ha), hi b (by simpa using hb)]
    | cons d ds ih =>
      intro ds0 m h
      obtain ⟨_, _, h3, h4, h5⟩ := C69_rejects h
      by_cases hd : ds0 = [] ∨ d.nDims = m.nDims
      · obtain ⟨m1, e1, e2⟩ := h4 d hd
        obtain ⟨i1, i2⟩ := ih (ds0 ++ [d]) m1 (.addDist d h e1)
        rw [List.append_assoc, List.singleton_append] at i1 i2
        constructor
        · intro ha
          obtain ⟨m', a1, a2, a3⟩ := i1 ha
          refine ⟨m', by rw [Res.forFold_cons_ok e1]; exact a1, a2, ?_⟩
          rw [a3, e2, List.length_cons, List.replicate_succ]; simp
        · intro hn
          rw [Res.forFold_cons_ok e1]; exact i2 hn
      · simp only [not_or] at hd
        have ht := h3 d hd.1 hd.2
        refine ⟨fun ha => ?_, fun _ => ?_⟩
        · obtain ⟨x, hx⟩ := List.exists_mem_of_ne_nil _ hd.1
          exact absurd ((ha d (by simp) x (by simp [hx])).trans (h5 x hx)) hd.2
        · simp only [Res.forFold]; rw [ht]
  obtain ⟨k1, k2⟩ := key ds ds0 m h
  refine ⟨fun ha => ?_, fun hn => ?_, fun e => rfl⟩
  · obtain ⟨m', a1, a2, a3⟩ := k1 ha
    exact ⟨m', by unfold EDManager.addDists; rw [a1]; exact reg a2, a2, a3⟩
  · unfold EDManager.addDists; rw [k2 hn]; rfl

example : (EDist.ofList [EDist.ofFunction "a" (fun _ => .ok (1 : ℚ)) 1, .ofFunction "b" (fun _ => .ok 2) 2, .ofFunction "c" (fun _ => .ok 3) 1]).name = "a*b*c" ∧
    ((EDManager.new : EDManager ℚ).addDists [.ofFunction "a" (fun _ => .ok (1 : ℚ)) 1, .ofFunction "b" (fun _ => .ok 2) 1] >>= fun m =>
      Res.ok (m.norms, m.dists.map EDist.name)) = .ok ([0, 0], ["a", "b"]) ∧
    ((EDManager.new : EDManager ℚ).addDists [.ofFunction "a" (fun _ => .ok (1 : ℚ)) 1, .ofFunction "b" (fun _ => .ok 2) 2] >>= fun m =>
      Res.ok m.norms) = .throw .dimension := by
  refine ⟨by decide +kernel, by decide +kernel, by decide +kernel⟩

end Oxsx
