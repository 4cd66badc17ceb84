import Verif.Props.LeapFrog
set_option linter.unusedSectionVars false
set_option linter.unusedSimpArgs false
set_option linter.unusedVariables false
/-
C55: leapfrog integration with reflecting walls.
-/
namespace Oxsx
open LeapFrog
variable {α : Type} [Field α] [LinearOrder α] [IsStrictOrderedRing α]

/-- A parameter's entry. -/
def dval (d : ParamDict α) (k : String) : α := (d.find k).getD 0

/-- The velocity of a parameter. -/
def speed (m p : ParamDict α) (k : String) : α := dval p k / dval m k

/-- Positions, momenta, masses and walls of the same parameters, none of them called "", with room between the walls. -/
structure BoxSetup (m lo hi : ParamDict α) (q p : ParamDict α) : Prop where
  sorted : q.Sorted
  names : q.keys = p.keys
  masses : ∀ k ∈ q.keys, (m.find k).isSome
  low : ∀ k ∈ q.keys, (lo.find k).isSome
  high : ∀ k ∈ q.keys, (hi.find k).isSome
  room : ∀ k ∈ q.keys, dval lo k < dval hi k
  nonempty : "" ∉ q.keys

/-- Within the walls. -/
def Within (lo hi q : ParamDict α) : Prop := ∀ x ∈ q, dval lo x.1 ≤ x.2 ∧ x.2 ≤ dval hi x.1

/-- No parameter is on a wall and moving out through it. -/
def NotLeaving (m lo hi q p : ParamDict α) : Prop :=
  ∀ x ∈ q, (x.2 = dval lo x.1 → 0 ≤ speed m p x.1) ∧ (x.2 = dval hi x.1 → speed m p x.1 ≤ 0)

/-- The time at which the code sees a coordinate reach a wall before `e`. -/
def crossTime (q v lo hi e : α) : Option α :=
  if v < 0 ∧ lo < q ∧ (lo - q) / v < e then some ((lo - q) / v)
  else if 0 < v ∧ q < hi ∧ (hi - q) / v < e then some ((hi - q) / v)
  else none

theorem crossTime_pos {q v lo hi e t : α} (h : crossTime q v lo hi e = some t) : 0 < t ∧ t < e := by
  unfold crossTime at h
  split at h
  · rename_i hc; cases h; exact ⟨div_pos_of_neg_of_neg (by linarith [hc.2.1]) hc.1, hc.2.2⟩
  · split at h
    · rename_i hc; cases h; exact ⟨div_pos (by linarith [hc.2.1]) hc.1, hc.2.2⟩
    · cases h

theorem find_dval {d : ParamDict α} {k : String} (h : (d.find k).isSome) : MCMC.dictAt d k = .ok (dval d k) := by
  obtain ⟨v, hv⟩ := Option.isSome_iff_exists.1 h
  unfold MCMC.dictAt dval; rw [hv]; rfl

theorem LeapFrog.crossOne_eq {m lo hi p : ParamDict α} {e : α} {s : String × α} {x : String × α} (hp : (p.find x.1).isSome) (hm : (m.find x.1).isSome)
    (hl : (lo.find x.1).isSome) (hh : (hi.find x.1).isSome) :
    crossOne p m lo hi e s x = .ok (match crossTime x.2 (speed m p x.1) (dval lo x.1) (dval hi x.1) e with
      | none => s
      | some t => if s.2 = -1 ∨ t < s.2 then (x.1, t) else s) := by
  unfold crossOne
  rw [find_dval hp, find_dval hm, find_dval hl, find_dval hh]
  simp only [Res.ok_bind, intersectionTime]
  set v := dval p x.1 / dval m x.1 with hv
  have hs : speed m p x.1 = v := rfl
  rw [hs]
  have hmin : ((dval lo x.1 - x.2) / v > 0 ∧ (dval lo x.1 - x.2) / v < e ∧ x.2 > dval lo x.1) ↔
      (v < 0 ∧ dval lo x.1 < x.2 ∧ (dval lo x.1 - x.2) / v < e) := by
    constructor
    · rintro ⟨h1, h2, h3⟩
      refine ⟨?_, h3, h2⟩
      rcases div_pos_iff.1 h1 with h | h
      · linarith [h.1]
      · exact h.2
    · rintro ⟨h1, h2, h3⟩
      exact ⟨div_pos_of_neg_of_neg (by linarith) h1, h3, h2⟩
  have hmax : ((dval hi x.1 - x.2) / v > 0 ∧ (dval hi x.1 - x.2) / v < e ∧ x.2 < dval hi x.1) ↔
      (0 < v ∧ x.2 < dval hi x.1 ∧ (dval hi x.1 - x.2) / v < e) := by
    constructor
    · rintro ⟨h1, h2, h3⟩
      refine ⟨?_, h3, h2⟩
      rcases div_pos_iff.1 h1 with h | h
      · exact h.2
      · linarith [h.1]
    · rintro ⟨h1, h2, h3⟩
      exact ⟨div_pos (by linarith) h1, h3, h2⟩
  unfold crossTime
  by_cases c1 : v < 0 ∧ dval lo x.1 < x.2 ∧ (dval lo x.1 - x.2) / v < e
  · have d1 := hmin.2 c1
    simp only [d1, c1, and_self, decide_true, Bool.not_true, Bool.false_and, Bool.false_eq_true, if_false, if_true]
    split <;> rfl
  · have d1 : ¬ _ := fun h => c1 (hmin.1 h)
    by_cases c2 : 0 < v ∧ x.2 < dval hi x.1 ∧ (dval hi x.1 - x.2) / v < e
    · have d2 := hmax.2 c2
      rw [if_neg c1, if_pos c2]
      simp only [d1, d2, decide_false, decide_true, Bool.not_false, Bool.not_true, Bool.and_false, Bool.false_eq_true, if_false, and_self]
      split <;> rfl
    · have d2 : ¬ _ := fun h => c2 (hmax.1 h)
      rw [if_neg c1, if_neg c2]
      simp only [d1, d2, decide_false, Bool.not_false, Bool.and_self, if_true]

/-- The first crossing: none, or the earliest. -/
theorem LeapFrog.first_spec {m lo hi q p : ParamDict α} {e : α} (hb : BoxSetup m lo hi q p) :
    ∃ d t, firstIntersection q p m lo hi e = .ok (d, t) ∧
      ((d = "" ∧ ∀ x ∈ q, crossTime x.2 (speed m p x.1) (dval lo x.1) (dval hi x.1) e = none) ∨
       (d ≠ "" ∧ 0 < t ∧ t < e ∧ (∃ x ∈ q, x.1 = d ∧ crossTime x.2 (speed m p x.1) (dval lo x.1) (dval hi x.1) e = some t) ∧
         ∀ x ∈ q, ∀ t', crossTime x.2 (speed m p x.1) (dval lo x.1) (dval hi x.1) e = some t' → t ≤ t')) := by
  have gen : ∀ (l pre : ParamDict α) (s : String × α), (∀ x ∈ pre ++ l, x ∈ q) →
      ((s = ("", -1) ∧ ∀ x ∈ pre, crossTime x.2 (speed m p x.1) (dval lo x.1) (dval hi x.1) e = none) ∨
       (s.1 ≠ "" ∧ 0 < s.2 ∧ s.2 < e ∧ (∃ x ∈ pre, x.1 = s.1 ∧ crossTime x.2 (speed m p x.1) (dval lo x.1) (dval hi x.1) e = some s.2) ∧
         ∀ x ∈ pre, ∀ t', crossTime x.2 (speed m p x.1) (dval lo x.1) (dval hi x.1) e = some t' → s.2 ≤ t')) →
      ∃ d t, Res.forFold (crossOne p m lo hi e) s l = .ok (d, t) ∧
      ((d = "" ∧ ∀ x ∈ pre ++ l, crossTime x.2 (speed m p x.1) (dval lo x.1) (dval hi x.1) e = none) ∨
       (d ≠ "" ∧ 0 < t ∧ t < e ∧ (∃ x ∈ pre ++ l, x.1 = d ∧ crossTime x.2 (speed m p x.1) (dval lo x.1) (dval hi x.1) e = some t) ∧
         ∀ x ∈ pre ++ l, ∀ t', crossTime x.2 (speed m p x.1) (dval lo x.1) (dval hi x.1) e = some t' → t ≤ t')) := by
    intro l
    induction l with
    | nil =>
      intro pre s _ h
      refine ⟨s.1, s.2, rfl, ?_⟩
      simp only [List.append_nil]
      rcases h with ⟨h1, h2⟩ | h
      · exact .inl ⟨by rw [h1], h2⟩
      · exact .inr h
    | cons x l ih =>
      intro pre s hsub h
      have hxq : x ∈ q := hsub x (by simp)
      have hxk : x.1 ∈ q.keys := List.mem_map.2 ⟨x, hxq, rfl⟩
      have hx0 : x.1 ≠ "" := fun e0 => hb.nonempty (e0 ▸ hxk)
      have heq := crossOne_eq (m := m) (lo := lo) (hi := hi) (p := p) (e := e) (s := s) (x := x)
        ((SMap.find_isSome_iff p x.1).2 (hb.names ▸ hxk)) (hb.masses _ hxk) (hb.low _ hxk) (hb.high _ hxk)
      obtain ⟨d, t, h1, h2⟩ := ih (pre ++ [x]) (match crossTime x.2 (speed m p x.1) (dval lo x.1) (dval hi x.1) e with
        | none => s
        | some t => if s.2 = -1 ∨ t < s.2 then (x.1, t) else s) (by simpa using hsub) (by
          cases hc : crossTime x.2 (speed m p x.1) (dval lo x.1) (dval hi x.1) e with
          | none =>
            simp only
            rcases h with ⟨a, b⟩ | ⟨a, b, b', c, d⟩
            · refine .inl ⟨a, fun y hy => ?_⟩
              rcases List.mem_append.1 hy with hy | hy
              · exact b y hy
              · simp only [List.mem_singleton] at hy; rw [hy]; exact hc
            · obtain ⟨y, hy, hy'⟩ := c
              refine .inr ⟨a, b, b', ⟨y, List.mem_append_left _ hy, hy'⟩, fun y hy t' ht => ?_⟩
              rcases List.mem_append.1 hy with hy | hy
              · exact d y hy t' ht
              · simp only [List.mem_singleton] at hy; rw [hy, hc] at ht; cases ht
          | some t =>
            simp only
            obtain ⟨tp, te⟩ := crossTime_pos hc
            right
            rcases h with ⟨a, b⟩ | ⟨a, b, b', c, d⟩
            · rw [a]
              simp only [true_or, if_true]
              refine ⟨hx0, tp, te, ⟨x, by simp, rfl, hc⟩, fun y hy t' ht => ?_⟩
              rcases List.mem_append.1 hy with hy | hy
              · rw [b y hy] at ht; cases ht
              · simp only [List.mem_singleton] at hy; rw [hy, hc] at ht; cases ht; exact le_refl _
            · have hne : s.2 ≠ -1 := by intro e0; rw [e0] at b; linarith
              by_cases hlt : t < s.2
              · rw [if_pos (.inr hlt)]
                refine ⟨hx0, tp, te, ⟨x, by simp, rfl, hc⟩, fun y hy t' ht => ?_⟩
                rcases List.mem_append.1 hy with hy | hy
                · exact hlt.le.trans (d y hy t' ht)
                · simp only [List.mem_singleton] at hy; rw [hy, hc] at ht; cases ht; exact le_refl _
              · rw [if_neg (by simp [hne, hlt])]
                obtain ⟨y, hy, hy'⟩ := c
                refine ⟨a, b, b', ⟨y, List.mem_append_left _ hy, hy'⟩, fun y hy t' ht => ?_⟩
                rcases List.mem_append.1 hy with hy | hy
                · exact d y hy t' ht
                · simp only [List.mem_singleton] at hy; rw [hy, hc] at ht; cases ht; exact not_lt.1 hlt)
      refine ⟨d, t, Res.forFold_cons_eq_ok.2 ⟨_, heq, h1⟩, by simpa using h2⟩
  have := gen q [] ("", -1) (by simp) (.inl ⟨rfl, by simp⟩)
  simpa [firstIntersection] using this

/-- The state after the next reflection. -/
def bounce (m : ParamDict α) (q p : ParamDict α) (d : String) (t : α) : ParamDict α × ParamDict α :=
  (q.map (fun x => (x.1, x.2 + t * dval p x.1 / dval m x.1)), p.insert d (dval p d * -1))

theorem keys_insert_mem {β : Type} {p : SMap β} (hs : p.Sorted) {d : String} (hd : d ∈ p.keys) (v : β) : (p.insert d v).keys = p.keys := by
  refine SMap.sortedNames_ext (SMap.sorted_keys (SMap.sorted_insert hs _ _)) (SMap.sorted_keys hs) ?_
  intro k
  rw [SMap.mem_keys_insert]
  exact ⟨fun h => h.elim (fun e => e ▸ hd) id, .inr⟩

theorem sorted_of_keys {β γ : Type} {p : SMap β} {q : SMap γ} (hs : q.Sorted) (h : q.keys = p.keys) : p.Sorted := by
  have : p.keys.Pairwise (· < ·) := h ▸ SMap.sorted_keys hs
  unfold SMap.Sorted
  unfold SMap.keys at this
  exact List.pairwise_map.1 this

theorem BoxSetup.bounce {m lo hi q p : ParamDict α} (hb : BoxSetup m lo hi q p) {d : String} (hd : d ∈ q.keys) (t : α) :
    BoxSetup m lo hi (bounce m q p d t).1 (bounce m q p d t).2 := by
  have hk : (Oxsx.bounce m q p d t).1.keys = q.keys := by simp [Oxsx.bounce, SMap.keys]
  have hps : p.Sorted := sorted_of_keys hb.sorted hb.names
  refine ⟨sorted_of_keys hb.sorted hk.symm, ?_, ?_, ?_, ?_, ?_, ?_⟩
  · rw [hk]; unfold Oxsx.bounce; simp only; rw [keys_insert_mem hps (hb.names ▸ hd)]; exact hb.names
  · rw [hk]; exact hb.masses
  · rw [hk]; exact hb.low
  · rw [hk]; exact hb.high
  · rw [hk]; exact hb.room
  · rw [hk]; exact hb.nonempty

theorem speed_bounce {m q p : ParamDict α} {d : String} {t : α} (k : String) :
    speed m (bounce m q p d t).2 k = if k = d then - speed m p k else speed m p k := by
  unfold speed Oxsx.bounce
  simp only
  by_cases h : k = d
  · subst h
    rw [if_pos rfl]
    have : dval (p.insert k (dval p k * -1)) k = - dval p k := by unfold dval; rw [SMap.find_insert, if_pos rfl]; simp
    rw [this, neg_div]
  · rw [if_neg h]
    have : dval (p.insert d (dval p d * -1)) k = dval p k := by unfold dval; rw [SMap.find_insert, if_neg (fun e => h e.symm)]
    rw [this]

theorem LeapFrog.loop_succ {m lo hi q p : ParamDict α} {e t0 t : α} {d : String} (hb : BoxSetup m lo hi q p)
    (hf : firstIntersection q p m lo hi (e - t0) = .ok (d, t)) (hd0 : d ≠ "") (hd : d ∈ q.keys) (fuel : Nat) :
    reflectLoop m lo hi e (fuel + 1) (q, p, t0) = reflectLoop m lo hi e fuel ((bounce m q p d t).1, (bounce m q p d t).2, t0 + t) := by
  conv_lhs => unfold reflectLoop
  simp only [hf, Res.ok_bind]
  rw [if_neg hd0]
  have hdr := drift_ok (e := t) (m := m) (q := q) (p := p) (by intro x hx; rw [← hb.names]; exact List.mem_map.2 ⟨x, hx, rfl⟩)
    (by intro x hx; exact hb.masses _ (List.mem_map.2 ⟨x, hx, rfl⟩))
  rw [hdr]
  simp only [Res.ok_bind]
  rw [find_dval ((SMap.find_isSome_iff p d).2 (hb.names ▸ hd))]
  rfl

/-- At each reflection no other moving parameter is on a wall at that moment. -/
def NoTies (m lo hi : ParamDict α) (e : α) : Nat → ParamDict α × ParamDict α × α → Prop
  | fuel, s => ∀ d t, firstIntersection s.1 s.2.1 m lo hi (e - s.2.2) = .ok (d, t) → d ≠ "" →
      (∀ x ∈ s.1, x.1 ≠ d → speed m s.2.1 x.1 ≠ 0 → dval lo x.1 < x.2 + t * speed m s.2.1 x.1 ∧ x.2 + t * speed m s.2.1 x.1 < dval hi x.1) ∧
      match fuel with
      | 0 => True
      | fuel + 1 => NoTies m lo hi e fuel ((bounce m s.1 s.2.1 d t).1, (bounce m s.1 s.2.1 d t).2, s.2.2 + t)

/-- Moving for a time in which no wall is crossed. -/
theorem move_within {q v lo hi e t : α} (h1 : lo ≤ q) (h2 : q ≤ hi) (h3 : q = lo → 0 ≤ v) (h4 : q = hi → v ≤ 0) (ht : 0 ≤ t) (hte : t ≤ e)
    (hc : ∀ t', crossTime q v lo hi e = some t' → t ≤ t') : lo ≤ q + t * v ∧ q + t * v ≤ hi := by
  rcases lt_trichotomy v 0 with hv | hv | hv
  · have hlq : lo < q := lt_of_le_of_ne h1 (fun e => absurd (h3 e.symm) (not_le.2 hv))
    have key : t ≤ (lo - q) / v := by
      by_cases hlt : (lo - q) / v < e
      · exact hc _ (by unfold crossTime; rw [if_pos ⟨hv, hlq, hlt⟩])
      · exact hte.trans (not_lt.1 hlt)
    have : t * v ≥ lo - q := by
      have := mul_le_mul_of_nonpos_right key hv.le
      rwa [div_mul_cancel₀ _ hv.ne] at this
    have h0 : t * v ≤ 0 := mul_nonpos_of_nonneg_of_nonpos ht hv.le
    constructor <;> linarith
  · rw [hv, mul_zero, add_zero]; exact ⟨h1, h2⟩
  · have hlq : q < hi := lt_of_le_of_ne h2 (fun e => absurd (h4 e) (not_le.2 hv))
    have key : t ≤ (hi - q) / v := by
      by_cases hlt : (hi - q) / v < e
      · exact hc _ (by unfold crossTime; rw [if_neg (fun h => absurd h.1 (not_lt.2 hv.le)), if_pos ⟨hv, hlq, hlt⟩])
      · exact hte.trans (not_lt.1 hlt)
    have : t * v ≤ hi - q := by
      have := mul_le_mul_of_nonneg_right key hv.le
      rwa [div_mul_cancel₀ _ hv.ne'] at this
    have h0 : 0 ≤ t * v := mul_nonneg ht hv.le
    constructor <;> linarith

theorem mem_bounce {m q p : ParamDict α} {d : String} {t : α} {y : String × α} (hy : y ∈ (bounce m q p d t).1) :
    ∃ x ∈ q, y = (x.1, x.2 + t * speed m p x.1) := by
  obtain ⟨x, hx, rfl⟩ := List.mem_map.1 hy
  exact ⟨x, hx, by unfold speed; rw [mul_div_assoc]⟩

/-- One reflection keeps the state within the walls. -/
theorem bounce_within {m lo hi q p : ParamDict α} {e t : α} {d : String} (hb : BoxSetup m lo hi q p) (hw : Within lo hi q) (hn : NotLeaving m lo hi q p)
    (ht : 0 < t) (hte : t < e) (hd : ∃ x ∈ q, x.1 = d ∧ crossTime x.2 (speed m p x.1) (dval lo x.1) (dval hi x.1) e = some t)
    (hmin : ∀ x ∈ q, ∀ t', crossTime x.2 (speed m p x.1) (dval lo x.1) (dval hi x.1) e = some t' → t ≤ t')
    (htie : ∀ x ∈ q, x.1 ≠ d → speed m p x.1 ≠ 0 → dval lo x.1 < x.2 + t * speed m p x.1 ∧ x.2 + t * speed m p x.1 < dval hi x.1) :
    Within lo hi (bounce m q p d t).1 ∧ NotLeaving m lo hi (bounce m q p d t).1 (bounce m q p d t).2 := by
  constructor
  · intro y hy
    obtain ⟨x, hx, rfl⟩ := mem_bounce hy
    exact move_within (hw x hx).1 (hw x hx).2 (hn x hx).1 (hn x hx).2 ht.le hte.le (hmin x hx)
  · intro y hy
    obtain ⟨x, hx, rfl⟩ := mem_bounce hy
    simp only
    rw [speed_bounce]
    by_cases hxd : x.1 = d
    · rw [if_pos hxd]
      obtain ⟨z, hz, hzd, hc⟩ := hd
      have hzx : z = x := by
        have nd : (q.map (·.1)).Nodup := SMap.sorted_nodup hb.sorted
        exact List.inj_on_of_nodup_map nd hz hx (hzd.trans hxd.symm)
      rw [hzx] at hc
      have hroom := hb.room x.1 (List.mem_map.2 ⟨x, hx, rfl⟩)
      unfold crossTime at hc
      split at hc
      · rename_i h
        have e1 : (dval lo x.1 - x.2) / speed m p x.1 = t := by simpa using hc
        have e2 : x.2 + t * speed m p x.1 = dval lo x.1 := by rw [← e1, div_mul_cancel₀ _ h.1.ne]; ring
        rw [e2]
        exact ⟨fun _ => by linarith [h.1], fun e0 => absurd e0 hroom.ne⟩
      · split at hc
        · rename_i h
          have e1 : (dval hi x.1 - x.2) / speed m p x.1 = t := by simpa using hc
          have e2 : x.2 + t * speed m p x.1 = dval hi x.1 := by rw [← e1, div_mul_cancel₀ _ h.1.ne']; ring
          rw [e2]
          exact ⟨fun e0 => absurd e0.symm hroom.ne, fun _ => by linarith [h.1]⟩
        · cases hc
    · rw [if_neg hxd]
      by_cases hv : speed m p x.1 = 0
      · rw [hv]; exact ⟨fun _ => le_refl _, fun _ => le_refl _⟩
      · obtain ⟨h1, h2⟩ := htie x hx hxd hv
        exact ⟨fun e0 => absurd e0 h1.ne', fun e0 => absurd e0 h2.ne⟩

theorem LeapFrog.loop_within {m lo hi : ParamDict α} {e : α} {fuel : Nat} : ∀ {q p : ParamDict α} {t0 : α} {r : ParamDict α × ParamDict α × α},
    BoxSetup m lo hi q p → Within lo hi q → NotLeaving m lo hi q p → t0 ≤ e → NoTies m lo hi e fuel (q, p, t0) →
    reflectLoop m lo hi e fuel (q, p, t0) = .ok (some r) →
    BoxSetup m lo hi r.1 r.2.1 ∧ r.1.keys = q.keys ∧ Within lo hi r.1 ∧ NotLeaving m lo hi r.1 r.2.1 ∧ r.2.2 ≤ e ∧
      ∀ x ∈ r.1, crossTime x.2 (speed m r.2.1 x.1) (dval lo x.1) (dval hi x.1) (e - r.2.2) = none := by
  induction fuel with
  | zero =>
    intro q p t0 r hb hw hn ht hnt h
    obtain ⟨d, t, hf, hcase⟩ := first_spec (e := e - t0) hb
    unfold reflectLoop at h
    simp only [hf, Res.ok_bind] at h
    rcases hcase with ⟨hd, hc⟩ | ⟨hd, _⟩
    · rw [if_pos hd] at h; cases h
      exact ⟨hb, rfl, hw, hn, ht, hc⟩
    · rw [if_neg hd] at h; cases h
  | succ fuel ih =>
    intro q p t0 r hb hw hn ht hnt h
    obtain ⟨d, t, hf, hcase⟩ := first_spec (e := e - t0) hb
    rcases hcase with ⟨hd, hc⟩ | ⟨hd, tp, te, hex, hmin⟩
    · unfold reflectLoop at h
      simp only [hf, Res.ok_bind] at h
      rw [if_pos hd] at h; cases h
      exact ⟨hb, rfl, hw, hn, ht, hc⟩
    · have hdq : d ∈ q.keys := by obtain ⟨x, hx, e0, _⟩ := hex; exact e0 ▸ List.mem_map.2 ⟨x, hx, rfl⟩
      rw [loop_succ hb hf hd hdq] at h
      unfold NoTies at hnt
      obtain ⟨n1, n2⟩ := hnt d t hf hd
      obtain ⟨w1, w2⟩ := bounce_within hb hw hn tp te hex hmin n1
      obtain ⟨a1, a2, a3⟩ := ih (hb.bounce hdq t) w1 w2 (by linarith) n2 h
      exact ⟨a1, by rw [a2]; simp [Oxsx.bounce, SMap.keys], a3⟩

/-- C55, reflecting walls: if the drift of a reflective step starts within the walls, with no parameter on a wall and moving out, and no two
parameters reach walls at the same moment, then it ends within the walls. (False without these conditions: `C55_reflect_wrong`,
`C55_reflect_corner_wrong`.) -/
theorem C55_reflect_in_box_partial {m lo hi q p : ParamDict α} {e : α} {fuel : Nat} {r : ParamDict α × ParamDict α} (hb : BoxSetup m lo hi q p) (he : 0 ≤ e)
    (hw : Within lo hi q) (hn : NotLeaving m lo hi q p) (hnt : NoTies m lo hi e fuel (q, p, 0))
    (h : reflectDrift m lo hi e fuel (q, p) = .ok (some r)) : r.1.keys = q.keys ∧ Within lo hi r.1 := by
  unfold reflectDrift at h
  obtain ⟨x, hx, h⟩ := Res.bind_eq_ok.1 h
  cases x with
  | none => cases h
  | some x =>
    simp only at h
    obtain ⟨y, hy, h⟩ := Res.bind_eq_ok.1 h
    cases h
    obtain ⟨a1, a2, a3, a4, a5, a6⟩ := loop_within hb hw hn he hnt hx
    have hdr := drift_ok (e := e - x.2.2) (m := m) (q := x.1) (p := x.2.1) (by intro z hz; rw [← a1.names]; exact List.mem_map.2 ⟨z, hz, rfl⟩)
      (by intro z hz; exact a1.masses _ (List.mem_map.2 ⟨z, hz, rfl⟩))
    rw [hdr] at hy; cases hy
    refine ⟨by rw [← a2]; simp [SMap.keys], ?_⟩
    intro z hz
    obtain ⟨w, hw', rfl⟩ := List.mem_map.1 hz
    have := move_within (a3 w hw').1 (a3 w hw').2 (a4 w hw').1 (a4 w hw').2 (t := e - x.2.2) (e := e - x.2.2) (by linarith) (le_refl _)
      (by intro t' ht'; rw [a6 w hw'] at ht'; cases ht')
    simp only
    have e1 : w.2 + (e - x.2.2) * (x.2.1.find w.1).getD 0 / (m.find w.1).getD 0 = w.2 + (e - x.2.2) * speed m x.2.1 w.1 := by
      unfold speed dval; rw [mul_div_assoc]
    rw [e1]; exact this

/-- C55: with a single parameter no ties are possible. -/
theorem C55_reflect_one_parameter_partial {m lo hi p : ParamDict α} {k : String} {x e : α} {fuel : Nat} {r : ParamDict α × ParamDict α}
    (hb : BoxSetup m lo hi [(k, x)] p) (he : 0 ≤ e) (hw : Within lo hi [(k, x)]) (hn : NotLeaving m lo hi [(k, x)] p)
    (h : reflectDrift m lo hi e fuel ([(k, x)], p) = .ok (some r)) : r.1.keys = [k] ∧ Within lo hi r.1 := by
  refine C55_reflect_in_box_partial hb he hw hn ?_ h
  have gen : ∀ (fuel : Nat) (x : α) (p : ParamDict α) (t0 : α), BoxSetup m lo hi [(k, x)] p → NoTies m lo hi e fuel ([(k, x)], p, t0) := by
    intro fuel
    induction fuel with
    | zero =>
      intro x p t0 hb
      unfold NoTies
      intro d t hf hd
      refine ⟨?_, trivial⟩
      intro y hy hyd
      obtain ⟨d', t', hf', hcase⟩ := first_spec (e := e - t0) hb
      rw [hf] at hf'; cases hf'
      rcases hcase with ⟨h, _⟩ | ⟨_, _, _, ⟨z, hz, e0, _⟩, _⟩
      · exact absurd h hd
      · simp only [List.mem_singleton] at hz hy; rw [hz] at e0; rw [hy] at hyd; exact absurd e0 hyd
    | succ fuel ih =>
      intro x p t0 hb
      unfold NoTies
      intro d t hf hd
      obtain ⟨d', t', hf', hcase⟩ := first_spec (e := e - t0) hb
      rw [hf] at hf'; cases hf'
      have hdk : d = k := by
        rcases hcase with ⟨h, _⟩ | ⟨_, _, _, ⟨z, hz, e0, _⟩, _⟩
        · exact absurd h hd
        · simp only [List.mem_singleton] at hz; rw [hz] at e0; exact e0.symm
      refine ⟨?_, ?_⟩
      · intro y hy hyd
        simp only [List.mem_singleton] at hy; rw [hy] at hyd; exact absurd hdk.symm hyd
      · exact ih _ _ _ (hb.bounce (by rw [hdk]; simp [SMap.keys]) t)
  exact gen fuel x p 0 hb

/-! Termination -/

/-- A bound for the number of times a coordinate still has to be reflected. -/
def bounces [FloorRing α] (q v lo hi R : α) : Nat :=
  if v < 0 ∧ lo < q then ⌈(R - (lo - q) / v) / ((hi - lo) / |v|)⌉₊
  else if 0 < v ∧ q < hi then ⌈(R - (hi - q) / v) / ((hi - lo) / |v|)⌉₊
  else 0

theorem bounces_other [FloorRing α] (q v lo hi R t : α) (ht : 0 < t) : bounces (q + t * v) v lo hi (R - t) ≤ bounces q v lo hi R := by
  unfold bounces
  by_cases h1 : v < 0 ∧ lo < q + t * v
  · have h2 : v < 0 ∧ lo < q := ⟨h1.1, by have := mul_neg_of_pos_of_neg ht h1.1; linarith [h1.2]⟩
    rw [if_pos h1, if_pos h2]
    have : R - t - (lo - (q + t * v)) / v = R - (lo - q) / v := by have := h1.1.ne; field_simp; ring
    rw [this]
  · rw [if_neg h1]
    by_cases h3 : 0 < v ∧ q + t * v < hi
    · have h4 : 0 < v ∧ q < hi := ⟨h3.1, by have := mul_pos ht h3.1; linarith [h3.2]⟩
      rw [if_pos h3, if_neg (fun h => absurd h.1 (not_lt.2 h3.1.le)), if_pos h4]
      have : R - t - (hi - (q + t * v)) / v = R - (hi - q) / v := by have := h3.1.ne'; field_simp; ring
      rw [this]
    · rw [if_neg h3]; exact Nat.zero_le _

theorem bounces_hit [FloorRing α] {q v lo hi R t : α} (hroom : lo < hi) (hc : crossTime q v lo hi R = some t) :
    bounces (q + t * v) (-v) lo hi (R - t) < bounces q v lo hi R := by
  have drop : ∀ y : α, 0 < y → ⌈y - 1⌉₊ < ⌈y⌉₊ := by
    intro y hy
    have h1 : 1 ≤ ⌈y⌉₊ := Nat.one_le_iff_ne_zero.2 (by rw [Ne, Nat.ceil_eq_zero]; exact not_le.2 hy)
    have h2 : ⌈y - 1⌉₊ ≤ ⌈y⌉₊ - 1 := by
      rw [Nat.ceil_le, Nat.cast_sub h1, Nat.cast_one]
      linarith [Nat.le_ceil y]
    omega
  unfold crossTime at hc
  split at hc
  · rename_i h
    have e1 : (lo - q) / v = t := by simpa using hc
    have e2 : q + t * v = lo := by rw [← e1, div_mul_cancel₀ _ h.1.ne]; ring
    have hv : 0 < -v := by linarith [h.1]
    rw [e2]
    unfold bounces
    rw [if_neg (fun hh => absurd hh.1 (not_lt.2 hv.le)), if_pos ⟨hv, hroom⟩, if_pos ⟨h.1, h.2.1⟩, e1, abs_neg]
    have hW : 0 < (hi - lo) / |v| := div_pos (by linarith) (abs_pos.2 h.1.ne)
    have : (R - t - (hi - lo) / -v) / ((hi - lo) / |v|) = (R - t) / ((hi - lo) / |v|) - 1 := by
      rw [abs_of_neg h.1] at hW ⊢
      rw [sub_div, div_self hW.ne']
    rw [this]
    exact drop _ (div_pos (by linarith [h.2.2]) hW)
  · split at hc
    · rename_i h
      have e1 : (hi - q) / v = t := by simpa using hc
      have e2 : q + t * v = hi := by rw [← e1, div_mul_cancel₀ _ h.1.ne']; ring
      have hv : -v < 0 := by linarith [h.1]
      rw [e2]
      unfold bounces
      rw [if_pos ⟨hv, hroom⟩, if_neg (fun hh => absurd hh.1 (not_lt.2 h.1.le)), if_pos ⟨h.1, h.2.1⟩, e1, abs_neg]
      have hW : 0 < (hi - lo) / |v| := div_pos (by linarith) (abs_pos.2 h.1.ne')
      have : (R - t - (lo - hi) / -v) / ((hi - lo) / |v|) = (R - t) / ((hi - lo) / |v|) - 1 := by
        rw [abs_of_pos h.1] at hW ⊢
        rw [show (lo - hi) / -v = (hi - lo) / v by rw [← neg_sub hi lo, neg_div_neg_eq], sub_div, div_self hW.ne']
      rw [this]
      exact drop _ (div_pos (by linarith [h.2.2]) hW)
    · cases hc

/-- The bound for all coordinates. -/
def totalBounces [FloorRing α] (m lo hi q p : ParamDict α) (R : α) : Nat :=
  (q.map (fun x => bounces x.2 (speed m p x.1) (dval lo x.1) (dval hi x.1) R)).sum

theorem totalBounces_bounce [FloorRing α] {m lo hi q p : ParamDict α} {R t : α} {d : String} (hb : BoxSetup m lo hi q p) (ht : 0 < t)
    (hd : ∃ x ∈ q, x.1 = d ∧ crossTime x.2 (speed m p x.1) (dval lo x.1) (dval hi x.1) R = some t) :
    totalBounces m lo hi (bounce m q p d t).1 (bounce m q p d t).2 (R - t) < totalBounces m lo hi q p R := by
  unfold totalBounces
  have e1 : (bounce m q p d t).1 = q.map (fun x => (x.1, x.2 + t * speed m p x.1)) := by
    unfold Oxsx.bounce; simp only
    apply List.map_congr_left; intro x _; unfold speed; rw [mul_div_assoc]
  rw [e1, List.map_map]
  obtain ⟨x, hx, hxd, hc⟩ := hd
  have key : ∀ y ∈ q, ((fun x => bounces x.2 (speed m (bounce m q p d t).2 x.1) (dval lo x.1) (dval hi x.1) (R - t)) ∘ fun x => (x.1, x.2 + t * speed m p x.1)) y ≤
      bounces y.2 (speed m p y.1) (dval lo y.1) (dval hi y.1) R := by
    intro y hy
    simp only [Function.comp]
    rw [speed_bounce]
    by_cases hyd : y.1 = d
    · have hyx : y = x := List.inj_on_of_nodup_map (SMap.sorted_nodup hb.sorted) hy hx (hyd.trans hxd.symm)
      rw [if_pos hyd, hyx]
      exact (bounces_hit (hb.room x.1 (List.mem_map.2 ⟨x, hx, rfl⟩)) hc).le
    · rw [if_neg hyd]; exact bounces_other _ _ _ _ _ _ ht
  refine List.sum_lt_sum _ _ key ⟨x, hx, ?_⟩
  simp only [Function.comp]
  rw [speed_bounce, if_pos hxd]
  exact bounces_hit (hb.room x.1 (List.mem_map.2 ⟨x, hx, rfl⟩)) hc

theorem LeapFrog.loop_terminates [FloorRing α] {m lo hi : ParamDict α} {e : α} : ∀ (n : Nat) {q p : ParamDict α} {t0 : α},
    BoxSetup m lo hi q p → totalBounces m lo hi q p (e - t0) ≤ n → ∃ r, reflectLoop m lo hi e n (q, p, t0) = .ok (some r) ∧ BoxSetup m lo hi r.1 r.2.1 := by
  intro n
  induction n with
  | zero =>
    intro q p t0 hb hn
    obtain ⟨d, t, hf, hcase⟩ := first_spec (e := e - t0) hb
    rcases hcase with ⟨hd, hc⟩ | ⟨hd, tp, te, hex, hmin⟩
    · refine ⟨(q, p, t0), ?_, hb⟩
      unfold reflectLoop
      simp only [hf, Res.ok_bind]
      rw [if_pos hd]
    · exact absurd (totalBounces_bounce hb tp hex) (by omega)
  | succ n ih =>
    intro q p t0 hb hn
    obtain ⟨d, t, hf, hcase⟩ := first_spec (e := e - t0) hb
    rcases hcase with ⟨hd, hc⟩ | ⟨hd, tp, te, hex, hmin⟩
    · refine ⟨(q, p, t0), ?_, hb⟩
      unfold reflectLoop
      simp only [hf, Res.ok_bind]
      rw [if_pos hd]
    · have hdq : d ∈ q.keys := by obtain ⟨x, hx, e0, _⟩ := hex; exact e0 ▸ List.mem_map.2 ⟨x, hx, rfl⟩
      rw [loop_succ hb hf hd hdq]
      apply ih (hb.bounce hdq t)
      have := totalBounces_bounce hb tp hex
      rw [show e - (t0 + t) = e - t0 - t by ring]
      omega

/-- C55, reflections end: whatever the positions and momenta, the drift of a reflective step finishes after finitely many reflections. -/
theorem C55_reflect_terminates [FloorRing α] {m lo hi q p : ParamDict α} (hb : BoxSetup m lo hi q p) (e : α) :
    ∃ fuel r, reflectDrift m lo hi e fuel (q, p) = .ok (some r) := by
  obtain ⟨r, h1, h2⟩ := loop_terminates (e := e) (t0 := 0) (totalBounces m lo hi q p (e - 0)) hb (le_refl _)
  have hdr := drift_ok (e := e - r.2.2) (m := m) (q := r.1) (p := r.2.1) (by intro z hz; rw [← h2.names]; exact List.mem_map.2 ⟨z, hz, rfl⟩)
    (by intro z hz; exact h2.masses _ (List.mem_map.2 ⟨z, hz, rfl⟩))
  refine ⟨totalBounces m lo hi q p (e - 0),
    (List.map (fun x => (x.1, x.2 + (e - r.2.2) * (SMap.find r.2.1 x.1).getD 0 / (SMap.find m x.1).getD 0)) r.1, r.2.1), ?_⟩
  unfold reflectDrift
  rw [h1]
  simp only [Res.ok_bind, hdr]

/-! Examples -/

/-- A differentiator for a constant statistic. -/
def exFlat : Differ ℚ := fun q => .ok (q.map (fun x => (x.1, 0)))
/-- The differentiator of `a²`. -/
def exSquare : Differ ℚ := fun q => .ok (q.map (fun x => (x.1, 2 * x.2)))

/-- Non-vacuity of C55: three steps in a parabola and back. -/
example : nSteps [("a", 2)] (1/2) exSquare 3 ([("a", 1)], [("a", 3)]) >>= (fun s => Res.ok (s == ([("a", 1)], [("a", 3)]))) = .ok false ∧
    (nSteps [("a", 2)] (1/2) exSquare 3 ([("a", 1)], [("a", 3)]) >>= fun s => nSteps [("a", 2)] (1/2) exSquare 3 (flipMomenta s)) =
      .ok ([("a", 1)], [("a", -3)]) := by decide +kernel

theorem exBox1 : BoxSetup ([("a", 1)] : ParamDict ℚ) [("a", 0)] [("a", 1)] [("a", 1/2)] [("a", 3)] := by
  refine ⟨by decide +kernel, rfl, ?_, ?_, ?_, ?_, by decide +kernel⟩ <;> intro k <;> simp [SMap.keys, SMap.find, dval] <;> (try rintro rfl) <;> (try simp [SMap.find])

/-- Non-vacuity of the reflection theorems: from 1/2 with velocity 3 for a unit of time, three reflections off 0 and 1. -/
example : BoxSetup ([("a", 1)] : ParamDict ℚ) [("a", 0)] [("a", 1)] [("a", 1/2)] [("a", 3)] ∧ Within ([("a", 0)] : ParamDict ℚ) [("a", 1)] [("a", 1/2)] ∧
    NotLeaving ([("a", 1)] : ParamDict ℚ) [("a", 0)] [("a", 1)] [("a", 1/2)] [("a", 3)] ∧
    reflectDrift ([("a", 1)] : ParamDict ℚ) [("a", 0)] [("a", 1)] 1 3 ([("a", 1/2)], [("a", 3)]) = .ok (some ([("a", 1/2)], [("a", -3)])) := by
  refine ⟨exBox1, ?_, ?_, by decide +kernel⟩
  · intro x hx; simp only [List.mem_singleton] at hx; subst hx; simp [dval, SMap.find]; norm_num
  · intro x hx; simp only [List.mem_singleton] at hx; subst hx; simp [dval, SMap.find, speed]

/-- C55 is false as stated: between walls at 0 and 1, from 0 with velocity 1 and step size 1/2, the particle is exactly on the wall after two
steps, and the third takes it out to 3/2. -/
theorem C55_reflect_wrong : reflectSteps ([("a", 1)] : ParamDict ℚ) [("a", 0)] [("a", 1)] (1/2) exFlat 5 3 ([("a", 0)], [("a", 1)]) =
    .ok (some ([("a", 3/2)], [("a", 1)])) := by decide +kernel

/-- C55 is false as stated: a particle running into a corner is reflected from one wall only and leaves through the other, within one step. -/
theorem C55_reflect_corner_wrong :
    reflectSteps ([("a", 1), ("b", 1)] : ParamDict ℚ) [("a", 0), ("b", 0)] [("a", 1), ("b", 1)] 1 exFlat 5 1
      ([("a", 1/2), ("b", 1/2)], [("a", 1), ("b", 1)]) = .ok (some ([("a", 1/2), ("b", 3/2)], [("a", -1), ("b", 1)])) := by decide +kernel

end Oxsx
