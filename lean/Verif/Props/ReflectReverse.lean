import Verif.Spec.Reflect
import Verif.Props.ReflectInside
set_option linter.unusedSectionVars false
set_option linter.unusedSimpArgs false
set_option linter.unusedVariables false
/-
C55: where a reflective step ends, exactly, and its reversibility.
-/
namespace Oxsx
open LeapFrog
variable {α : Type} [Field α] [LinearOrder α] [IsStrictOrderedRing α]

namespace MirrorImage
variable {lo hi x y z s s' : α}

theorem refl : MirrorImage lo hi y y 1 := ⟨0, .inl ⟨rfl, by simp⟩⟩

theorem move (h : MirrorImage lo hi y x s) (a : α) : MirrorImage lo hi (y + a) (x + s * a) s := by
  obtain ⟨n, ⟨rfl, rfl⟩ | ⟨rfl, rfl⟩⟩ := h
  · exact ⟨n, .inl ⟨rfl, by ring⟩⟩
  · exact ⟨n, .inr ⟨rfl, by ring⟩⟩

theorem sign (h : MirrorImage lo hi y x s) : s * s = 1 := by
  obtain ⟨n, ⟨rfl, -⟩ | ⟨rfl, -⟩⟩ := h <;> norm_num

theorem trans (h : MirrorImage lo hi y x s) (h' : MirrorImage lo hi x z s') : MirrorImage lo hi y z (s' * s) := by
  obtain ⟨n, ⟨rfl, rfl⟩ | ⟨rfl, rfl⟩⟩ := h <;> obtain ⟨k, ⟨rfl, rfl⟩ | ⟨rfl, rfl⟩⟩ := h'
  · exact ⟨n + k, .inl ⟨by ring, by push_cast; ring⟩⟩
  · exact ⟨k - n, .inr ⟨by ring, by push_cast; ring⟩⟩
  · exact ⟨n + k, .inr ⟨by ring, by push_cast; ring⟩⟩
  · exact ⟨k - n, .inl ⟨by ring, by push_cast; ring⟩⟩

theorem symm (h : MirrorImage lo hi y x s) : MirrorImage lo hi x y s := by
  obtain ⟨n, ⟨rfl, rfl⟩ | ⟨rfl, rfl⟩⟩ := h
  · exact ⟨-n, .inl ⟨rfl, by push_cast; ring⟩⟩
  · exact ⟨n, .inr ⟨rfl, by ring⟩⟩

theorem at_wall (h : MirrorImage lo hi y x s) (hx : x = lo ∨ x = hi) : MirrorImage lo hi y x (-s) := by
  have : MirrorImage lo hi x x (-1) := by
    rcases hx with rfl | rfl
    · exact ⟨0, .inr ⟨rfl, by simp; ring⟩⟩
    · exact ⟨1, .inr ⟨rfl, by simp; ring⟩⟩
  have := h.trans this
  rwa [neg_one_mul] at this

theorem same (hw : lo < hi) (h : MirrorImage lo hi y x s) (hy : lo ≤ y ∧ y ≤ hi) (hx : lo ≤ x ∧ x ≤ hi) :
    x = y ∧ (lo < y → y < hi → s = 1) := by
  have hL : 0 < hi - lo := by linarith
  obtain ⟨n, ⟨rfl, rfl⟩ | ⟨rfl, rfl⟩⟩ := h
  · have hn : n = 0 := by
      rcases lt_trichotomy n 0 with h | h | h
      · have : (n : α) ≤ -1 := by exact_mod_cast Int.le_sub_one_of_lt h
        nlinarith
      · exact h
      · have : (1 : α) ≤ n := by exact_mod_cast h
        nlinarith
    subst hn; exact ⟨by simp, fun _ _ => rfl⟩
  · have hn : n = 0 ∨ n = 1 := by
      rcases lt_trichotomy n 0 with h | h | h
      · have : (n : α) ≤ -1 := by exact_mod_cast Int.le_sub_one_of_lt h
        nlinarith
      · exact .inl h
      · rcases eq_or_lt_of_le (show (1 : ℤ) ≤ n from h) with h' | h'
        · exact .inr h'.symm
        · have : (2 : α) ≤ n := by exact_mod_cast h'
          nlinarith
    rcases hn with rfl | rfl
    · simp only [Int.cast_zero, mul_zero, zero_mul, add_zero] at hx ⊢
      exact ⟨by linarith, fun h1 _ => by linarith⟩
    · simp only [Int.cast_one, mul_one] at hx ⊢
      exact ⟨by linarith, fun _ h2 => by linarith⟩

theorem onWall (h : MirrorImage lo hi y x s) : OnWall lo hi y → OnWall lo hi x := by
  rintro ⟨k, rfl⟩
  obtain ⟨n, ⟨rfl, rfl⟩ | ⟨rfl, rfl⟩⟩ := h
  · exact ⟨k + 2 * n, by push_cast; ring⟩
  · exact ⟨2 * n - k, by push_cast; ring⟩

theorem onWall_iff (h : MirrorImage lo hi y x s) : OnWall lo hi y ↔ OnWall lo hi x := ⟨h.onWall, h.symm.onWall⟩

end MirrorImage

theorem onWall_lo (lo hi : α) : OnWall lo hi lo := ⟨0, by simp⟩
theorem onWall_hi (lo hi : α) : OnWall lo hi hi := ⟨1, by simp⟩

theorem not_onWall_strict {lo hi x : α} (h1 : lo < x) (h2 : x < hi) : ¬ OnWall lo hi x := by
  rintro ⟨n, rfl⟩
  have hL : 0 < hi - lo := by linarith
  have a : 0 < n := by
    by_contra hn
    have : (n : α) ≤ 0 := by exact_mod_cast not_lt.1 hn
    nlinarith
  have b : (1 : α) ≤ n := by exact_mod_cast a
  nlinarith

theorem dval_of_mem {q : ParamDict α} (hq : q.Sorted) {x : String × α} (hx : x ∈ q) : dval q x.1 = x.2 := by
  unfold dval; rw [SMap.find_of_mem hq hx]; rfl

theorem mem_of_key {q : ParamDict α} {k : String} (hk : k ∈ q.keys) : (k, dval q k) ∈ q := by
  obtain ⟨v, hv⟩ := Option.isSome_iff_exists.1 ((SMap.find_isSome_iff q k).2 hk)
  unfold dval; rw [hv]; exact SMap.find_mem hv

theorem dict_ext {q r : ParamDict α} (hq : q.Sorted) (hk : r.keys = q.keys) (h : ∀ k ∈ q.keys, dval r k = dval q k) : r = q := by
  have hr : r.Sorted := sorted_of_keys hq hk.symm
  apply SMap.ext hr hq
  intro k
  by_cases hkq : k ∈ q.keys
  · rw [SMap.find_of_mem hr (mem_of_key (hk ▸ hkq)), SMap.find_of_mem hq (mem_of_key hkq), h k hkq]
  · rw [(SMap.find_none_iff q k).2 hkq, (SMap.find_none_iff r k).2 (hk ▸ hkq)]

/-- The state `(q, p)` after a time `t`: every parameter is the mirror image of where it would be without walls, its momentum reversed after an
odd number of reflections. -/
def Tracks (m lo hi q0 p0 : ParamDict α) (t : α) (q p : ParamDict α) : Prop :=
  ∀ k ∈ q0.keys, ∃ s, MirrorImage (dval lo k) (dval hi k) (dval q0 k + t * speed m p0 k) (dval q k) s ∧ dval p k = s * dval p0 k

theorem speed_of_sign {m p p0 : ParamDict α} {k : String} {s : α} (h : dval p k = s * dval p0 k) : speed m p k = s * speed m p0 k := by
  unfold speed; rw [h, mul_div_assoc]

theorem dval_bounce_pos {m q p : ParamDict α} (hq : q.Sorted) {d : String} {t : α} {k : String} (hk : k ∈ q.keys) :
    dval (bounce m q p d t).1 k = dval q k + t * speed m p k := by
  have hb : (bounce m q p d t).1.Sorted := sorted_of_keys (q := q) hq (by simp [Oxsx.bounce, SMap.keys])
  have : (k, dval q k + t * speed m p k) ∈ (bounce m q p d t).1 := by
    refine List.mem_map.2 ⟨(k, dval q k), mem_of_key hk, ?_⟩
    unfold speed; simp only [mul_div_assoc]
  exact dval_of_mem hb this

theorem dval_bounce_mom {m q p : ParamDict α} {d : String} {t : α} (k : String) :
    dval (bounce m q p d t).2 k = if k = d then - dval p k else dval p k := by
  unfold Oxsx.bounce
  simp only
  by_cases h : k = d
  · subst h; rw [if_pos rfl]; unfold dval; rw [SMap.find_insert, if_pos rfl]; simp
  · rw [if_neg h]; unfold dval; rw [SMap.find_insert, if_neg (fun e => h e.symm)]

theorem crossTime_wall {q v lo hi e t : α} (h : crossTime q v lo hi e = some t) : q + t * v = lo ∨ q + t * v = hi := by
  unfold crossTime at h
  split at h
  · rename_i hc; cases h; left; rw [div_mul_cancel₀ _ hc.1.ne]; ring
  · split at h
    · rename_i hc; cases h; right; rw [div_mul_cancel₀ _ hc.1.ne']; ring
    · cases h

theorem LeapFrog.loop_tracks {m lo hi q0 p0 : ParamDict α} {e : α} (hq0 : q0.Sorted)
    (hs : ∀ x ∈ q0, ∀ y ∈ q0, x.1 ≠ y.1 → ∀ t, 0 < t → t < e →
      ¬ (OnWall (dval lo x.1) (dval hi x.1) (x.2 + t * speed m p0 x.1) ∧ OnWall (dval lo y.1) (dval hi y.1) (y.2 + t * speed m p0 y.1))) {fuel : Nat} :
    ∀ {q p : ParamDict α} {t0 : α} {r : ParamDict α × ParamDict α × α}, q.keys = q0.keys →
    BoxSetup m lo hi q p → Within lo hi q → NotLeaving m lo hi q p → 0 ≤ t0 → t0 ≤ e → Tracks m lo hi q0 p0 t0 q p →
    reflectLoop m lo hi e fuel (q, p, t0) = .ok (some r) →
    BoxSetup m lo hi r.1 r.2.1 ∧ r.1.keys = q0.keys ∧ Within lo hi r.1 ∧ NotLeaving m lo hi r.1 r.2.1 ∧ 0 ≤ r.2.2 ∧ r.2.2 ≤ e ∧
      (∀ x ∈ r.1, crossTime x.2 (speed m r.2.1 x.1) (dval lo x.1) (dval hi x.1) (e - r.2.2) = none) ∧ Tracks m lo hi q0 p0 r.2.2 r.1 r.2.1 := by
  induction fuel with
  | zero =>
    intro q p t0 r hk hb hw hn h0 he ht h
    obtain ⟨d, t, hf, hcase⟩ := first_spec (e := e - t0) hb
    unfold reflectLoop at h
    simp only [hf, Res.ok_bind] at h
    rcases hcase with ⟨hd, hc⟩ | ⟨hd, -⟩
    · rw [if_pos hd] at h; cases h
      exact ⟨hb, hk, hw, hn, h0, he, hc, ht⟩
    · rw [if_neg hd] at h; cases h
  | succ fuel ih =>
    intro q p t0 r hk hb hw hn h0 he ht h
    obtain ⟨d, t, hf, hcase⟩ := first_spec (e := e - t0) hb
    rcases hcase with ⟨hd, hc⟩ | ⟨hd, tp, te, hex, hmin⟩
    · unfold reflectLoop at h
      simp only [hf, Res.ok_bind] at h
      rw [if_pos hd] at h; cases h
      exact ⟨hb, hk, hw, hn, h0, he, hc, ht⟩
    · have hdq : d ∈ q.keys := by obtain ⟨x, hx, e0, _⟩ := hex; exact e0 ▸ List.mem_map.2 ⟨x, hx, rfl⟩
      rw [loop_succ hb hf hd hdq] at h
      -- where each parameter is at the moment of reflection
      have himg : ∀ k ∈ q0.keys, ∃ s, MirrorImage (dval lo k) (dval hi k) (dval q0 k + (t0 + t) * speed m p0 k) (dval q k + t * speed m p k) s ∧
          dval p k = s * dval p0 k := by
        intro k hk0
        obtain ⟨s, hs1, hs2⟩ := ht k hk0
        refine ⟨s, ?_, hs2⟩
        have := hs1.move (t * speed m p0 k)
        rw [speed_of_sign hs2]
        rw [show dval q0 k + (t0 + t) * speed m p0 k = dval q0 k + t0 * speed m p0 k + t * speed m p0 k by ring,
          show t * (s * speed m p0 k) = s * (t * speed m p0 k) by ring]
        exact this
      have hwall : dval q d + t * speed m p d = dval lo d ∨ dval q d + t * speed m p d = dval hi d := by
        obtain ⟨x, hx, rfl, hc⟩ := hex
        rw [dval_of_mem hb.sorted hx]; exact crossTime_wall hc
      have hdon : OnWall (dval lo d) (dval hi d) (dval q0 d + (t0 + t) * speed m p0 d) := by
        obtain ⟨s, hs1, -⟩ := himg d (hk ▸ hdq)
        apply hs1.symm.onWall
        rcases hwall with h | h <;> rw [h]
        · exact onWall_lo _ _
        · exact onWall_hi _ _
      have htie : ∀ x ∈ q, x.1 ≠ d → speed m p x.1 ≠ 0 → dval lo x.1 < x.2 + t * speed m p x.1 ∧ x.2 + t * speed m p x.1 < dval hi x.1 := by
        intro x hx hxd hv
        have hxk : x.1 ∈ q0.keys := hk ▸ List.mem_map.2 ⟨x, hx, rfl⟩
        obtain ⟨s, hs1, -⟩ := himg x.1 hxk
        rw [dval_of_mem hb.sorted hx] at hs1
        have hnot := hs (x.1, dval q0 x.1) (mem_of_key hxk) (d, dval q0 d) (mem_of_key (hk ▸ hdq)) hxd (t0 + t) (by linarith) (by linarith)
        have hin := move_within (hw x hx).1 (hw x hx).2 (hn x hx).1 (hn x hx).2 tp.le te.le (hmin x hx)
        have hno : ¬ OnWall (dval lo x.1) (dval hi x.1) (x.2 + t * speed m p x.1) := fun hh => hnot ⟨hs1.symm.onWall hh, hdon⟩
        refine ⟨lt_of_le_of_ne hin.1 fun e0 => hno (e0 ▸ onWall_lo _ _), lt_of_le_of_ne hin.2 fun e0 => hno (e0 ▸ onWall_hi _ _)⟩
      obtain ⟨w1, w2⟩ := bounce_within hb hw hn tp te hex hmin htie
      refine ih (by rw [← hk]; simp [Oxsx.bounce, SMap.keys]) (hb.bounce hdq t) w1 w2 (by linarith) (by linarith) ?_ h
      intro k hk0
      obtain ⟨s, hs1, hs2⟩ := himg k hk0
      rw [dval_bounce_pos hb.sorted (hk ▸ hk0), dval_bounce_mom]
      by_cases hkd : k = d
      · subst hkd
        refine ⟨-s, hs1.at_wall hwall, ?_⟩
        rw [if_pos rfl, hs2]; ring
      · exact ⟨s, hs1, by rw [if_neg hkd, hs2]⟩

theorem CleanDrift.within {m lo hi q p : ParamDict α} {e : α} (h : CleanDrift m lo hi e q p) : Within lo hi q :=
  fun x hx => ⟨(h.start x hx).1.le, (h.start x hx).2.le⟩

theorem CleanDrift.notLeaving {m lo hi q p : ParamDict α} {e : α} (h : CleanDrift m lo hi e q p) : NotLeaving m lo hi q p :=
  fun x hx => ⟨fun e0 => absurd e0 (h.start x hx).1.ne', fun e0 => absurd e0 (h.start x hx).2.ne⟩

/-- C55, where a reflective drift ends, exactly: if it starts strictly inside the walls and no two parameters are on a wall at the same moment,
then every parameter ends within its walls at the mirror image of where it would be without walls, with its momentum reversed if the number of
reflections is odd. -/
theorem C55_reflect_exact {m lo hi q p : ParamDict α} {e : α} {fuel : Nat} {r : ParamDict α × ParamDict α} (hb : BoxSetup m lo hi q p) (he : 0 ≤ e)
    (hc : CleanDrift m lo hi e q p) (h : reflectDrift m lo hi e fuel (q, p) = .ok (some r)) :
    r.1.keys = q.keys ∧ r.2.keys = q.keys ∧ ∀ k ∈ q.keys, dval lo k < dval r.1 k ∧ dval r.1 k < dval hi k ∧
      ∃ s, MirrorImage (dval lo k) (dval hi k) (dval q k + e * (dval p k / dval m k)) (dval r.1 k) s ∧ dval r.2 k = s * dval p k := by
  unfold reflectDrift at h
  obtain ⟨x, hx, h⟩ := Res.bind_eq_ok.1 h
  cases x with
  | none => cases h
  | some x =>
    simp only at h
    obtain ⟨y, hy, h⟩ := Res.bind_eq_ok.1 h
    cases h
    obtain ⟨a1, a2, a3, a4, a5, a6, a7, a8⟩ := loop_tracks (q0 := q) (p0 := p) hb.sorted hc.single rfl hb hc.within hc.notLeaving (le_refl _) he
      (fun k hk => ⟨1, by rw [zero_mul, add_zero]; exact .refl, by rw [one_mul]⟩) hx
    have hdr := drift_ok (e := e - x.2.2) (m := m) (q := x.1) (p := x.2.1) (by intro z hz; rw [← a1.names]; exact List.mem_map.2 ⟨z, hz, rfl⟩)
      (by intro z hz; exact a1.masses _ (List.mem_map.2 ⟨z, hz, rfl⟩))
    rw [hdr] at hy; cases hy
    have hkeys : (SMap.keys (List.map (fun z => (z.1, z.2 + (e - x.2.2) * (SMap.find x.2.1 z.1).getD 0 / (SMap.find m z.1).getD 0)) x.1)) = q.keys := by
      rw [← a2]; simp [SMap.keys]
    refine ⟨hkeys, by simp only; rw [← a1.names, a2], ?_⟩
    intro k hk
    have hkx : k ∈ x.1.keys := a2 ▸ hk
    have hval : dval (List.map (fun z => (z.1, z.2 + (e - x.2.2) * (SMap.find x.2.1 z.1).getD 0 / (SMap.find m z.1).getD 0)) x.1) k =
        dval x.1 k + (e - x.2.2) * speed m x.2.1 k := by
      have : (k, dval x.1 k + (e - x.2.2) * speed m x.2.1 k) ∈
          List.map (fun z => (z.1, z.2 + (e - x.2.2) * (SMap.find x.2.1 z.1).getD 0 / (SMap.find m z.1).getD 0)) x.1 := by
        refine List.mem_map.2 ⟨(k, dval x.1 k), mem_of_key hkx, ?_⟩
        unfold speed dval; simp only [mul_div_assoc]
      exact dval_of_mem (sorted_of_keys hb.sorted hkeys.symm) this
    obtain ⟨s, hs1, hs2⟩ := a8 k hk
    have him := hs1.move ((e - x.2.2) * speed m p k)
    rw [show dval q k + x.2.2 * speed m p k + (e - x.2.2) * speed m p k = dval q k + e * speed m p k by ring,
      show s * ((e - x.2.2) * speed m p k) = (e - x.2.2) * (s * speed m p k) by ring, ← speed_of_sign hs2] at him
    have hw := mem_of_key hkx
    have hin := move_within (a3 _ hw).1 (a3 _ hw).2 (a4 _ hw).1 (a4 _ hw).2 (t := e - x.2.2) (e := e - x.2.2) (by linarith) (le_refl _)
      (by intro t' ht'; rw [a7 _ hw] at ht'; cases ht')
    simp only at hin
    have hno : ¬ OnWall (dval lo k) (dval hi k) (dval x.1 k + (e - x.2.2) * speed m x.2.1 k) := fun hh =>
      hc.finish _ (mem_of_key hk) (him.symm.onWall hh)
    simp only [hval]
    exact ⟨lt_of_le_of_ne hin.1 fun e0 => hno (e0 ▸ onWall_lo _ _), lt_of_le_of_ne hin.2 fun e0 => hno (e0 ▸ onWall_hi _ _), s, him, hs2⟩

theorem flip_keys (p : ParamDict α) : SMap.keys (p.map (fun x => (x.1, -x.2))) = p.keys := by simp [SMap.keys, Function.comp_def]

theorem dval_flip (p : ParamDict α) (k : String) : dval (p.map (fun x => (x.1, -x.2))) k = - dval p k := by
  unfold dval; rw [flip_find]; cases p.find k <;> simp

theorem LeapFrog.kick_flip (c : α) (g p : ParamDict α) : kick c g ((kick c g p).map (fun x => (x.1, -x.2))) = p.map (fun x => (x.1, -x.2)) := by
  unfold kick
  rw [List.map_map, List.map_map]
  apply List.map_congr_left
  intro x _
  simp only [Function.comp]
  congr 1; ring

/-- The path back is as clean as the path there. -/
theorem CleanDrift.reverse {m lo hi q p : ParamDict α} {e : α} {fuel : Nat} {r : ParamDict α × ParamDict α} (hb : BoxSetup m lo hi q p) (he : 0 ≤ e)
    (hc : CleanDrift m lo hi e q p) (h : reflectDrift m lo hi e fuel (q, p) = .ok (some r)) :
    BoxSetup m lo hi r.1 (r.2.map (fun x => (x.1, -x.2))) ∧ CleanDrift m lo hi e r.1 (r.2.map (fun x => (x.1, -x.2))) := by
  obtain ⟨h1, h2, h3⟩ := C55_reflect_exact hb he hc h
  have hrs : r.1.Sorted := sorted_of_keys hb.sorted h1.symm
  have hb' : BoxSetup m lo hi r.1 (r.2.map (fun x => (x.1, -x.2))) := hb.of_keys h1 (by rw [flip_keys, h2, hb.names])
  have himg : ∀ x ∈ r.1, ∀ t, ∃ s, MirrorImage (dval lo x.1) (dval hi x.1) (dval q x.1 + (e - t) * (dval p x.1 / dval m x.1))
      (x.2 + t * (dval (r.2.map (fun x => (x.1, -x.2))) x.1 / dval m x.1)) s := by
    intro x hx t
    obtain ⟨-, -, s, hs1, hs2⟩ := h3 x.1 (h1 ▸ List.mem_map.2 ⟨x, hx, rfl⟩)
    rw [dval_of_mem hrs hx] at hs1
    refine ⟨s, ?_⟩
    have := hs1.move (-(t * (dval p x.1 / dval m x.1)))
    rw [dval_flip, hs2]
    rw [show dval q x.1 + (e - t) * (dval p x.1 / dval m x.1) = dval q x.1 + e * (dval p x.1 / dval m x.1) + -(t * (dval p x.1 / dval m x.1)) by ring,
      show x.2 + t * (-(s * dval p x.1) / dval m x.1) = x.2 + s * -(t * (dval p x.1 / dval m x.1)) by ring]
    exact this
  refine ⟨hb', ⟨?_, ?_, ?_⟩⟩
  · intro x hx
    obtain ⟨a, b, -⟩ := h3 x.1 (h1 ▸ List.mem_map.2 ⟨x, hx, rfl⟩)
    rw [dval_of_mem hrs hx] at a b
    exact ⟨a, b⟩
  · intro x hx hon
    obtain ⟨s, hs⟩ := himg x hx e
    have hk : x.1 ∈ q.keys := h1 ▸ List.mem_map.2 ⟨x, hx, rfl⟩
    have := hs.symm.onWall hon
    rw [sub_self, zero_mul, add_zero] at this
    exact not_onWall_strict (hc.start _ (mem_of_key hk)).1 (hc.start _ (mem_of_key hk)).2 this
  · rintro x hx y hy hxy t t0 te ⟨o1, o2⟩
    obtain ⟨s, hs⟩ := himg x hx t
    obtain ⟨s', hs'⟩ := himg y hy t
    exact hc.single (x.1, dval q x.1) (mem_of_key (h1 ▸ List.mem_map.2 ⟨x, hx, rfl⟩)) (y.1, dval q y.1) (mem_of_key (h1 ▸ List.mem_map.2 ⟨y, hy, rfl⟩)) hxy
      (e - t) (by linarith) (by linarith) ⟨hs.symm.onWall o1, hs'.symm.onWall o2⟩

/-- C55: reversing the momenta after a clean reflective drift and drifting again leads back to the start. -/
theorem C55_reflect_drift_reversible [FloorRing α] {m lo hi q p : ParamDict α} {e : α} {fuel : Nat} {r : ParamDict α × ParamDict α} (hb : BoxSetup m lo hi q p)
    (he : 0 ≤ e) (hc : CleanDrift m lo hi e q p) (h : reflectDrift m lo hi e fuel (q, p) = .ok (some r)) :
    ∃ fuel', reflectDrift m lo hi e fuel' (flipMomenta r) = .ok (some (flipMomenta (q, p))) := by
  obtain ⟨hb', hc'⟩ := hc.reverse hb he h
  obtain ⟨fuel', r', hr'⟩ := C55_reflect_terminates hb' e
  refine ⟨fuel', ?_⟩
  show reflectDrift m lo hi e fuel' (r.1, r.2.map (fun x => (x.1, -x.2))) = _
  rw [hr']
  obtain ⟨h1, h2, h3⟩ := C55_reflect_exact hb he hc h
  obtain ⟨g1, g2, g3⟩ := C55_reflect_exact hb' he hc' hr'
  have hps : SMap.Sorted (p.map (fun x => (x.1, -x.2))) := sorted_of_keys hb.sorted (by rw [flip_keys, hb.names])
  have key : ∀ k ∈ q.keys, dval r'.1 k = dval q k ∧ dval r'.2 k = - dval p k := by
    intro k hk
    obtain ⟨-, -, s, hs1, hs2⟩ := h3 k hk
    obtain ⟨b1, b2, s', hs1', hs2'⟩ := g3 k (h1 ▸ hk)
    have hst := hc.start _ (mem_of_key hk)
    have a := hs1.move (-(e * (dval p k / dval m k)))
    rw [add_neg_cancel_right] at a
    rw [dval_flip, hs2, show dval r.1 k + e * (-(s * dval p k) / dval m k) = dval r.1 k + s * -(e * (dval p k / dval m k)) by ring] at hs1'
    obtain ⟨c1, c2⟩ := (a.trans hs1').same (hb.room k hk) ⟨hst.1.le, hst.2.le⟩ ⟨b1.le, b2.le⟩
    refine ⟨c1, ?_⟩
    rw [hs2', dval_flip, hs2, show s' * -(s * dval p k) = -((s' * s) * dval p k) by ring, c2 hst.1 hst.2, one_mul]
  have e1 : r'.1 = q := dict_ext hb.sorted (g1.trans h1) (fun k hk => (key k hk).1)
  have e2 : r'.2 = p.map (fun x => (x.1, -x.2)) := dict_ext hps (by rw [g2, h1, flip_keys, hb.names]) (fun k hk => by
    rw [flip_keys, ← hb.names] at hk
    rw [(key k hk).2, dval_flip])
  unfold flipMomenta
  rw [← e1, ← e2]

theorem LeapFrog.reflectLoop_fuel {m lo hi : ParamDict α} {e : α} {fuel : Nat} : ∀ {s r : ParamDict α × ParamDict α × α},
    reflectLoop m lo hi e fuel s = .ok (some r) → ∀ k, reflectLoop m lo hi e (fuel + k) s = .ok (some r) := by
  induction fuel with
  | zero =>
    intro s r h k
    unfold reflectLoop at h ⊢
    obtain ⟨dt, hdt, h⟩ := Res.bind_eq_ok.1 h
    rw [hdt, Res.ok_bind]
    split at h
    · rename_i hd; rw [if_pos hd]; exact h
    · simp only at h; cases h
  | succ fuel ih =>
    intro s r h k
    rw [show fuel + 1 + k = (fuel + k) + 1 by omega]
    unfold reflectLoop at h ⊢
    obtain ⟨dt, hdt, h⟩ := Res.bind_eq_ok.1 h
    rw [hdt, Res.ok_bind]
    split at h
    · rename_i hd; rw [if_pos hd]; exact h
    · rename_i hd
      rw [if_neg hd]
      simp only at h ⊢
      obtain ⟨x, hx, h⟩ := Res.bind_eq_ok.1 h
      obtain ⟨y, hy, h⟩ := Res.bind_eq_ok.1 h
      rw [hx, Res.ok_bind, hy, Res.ok_bind]
      exact ih h k

theorem LeapFrog.reflectDrift_fuel {m lo hi : ParamDict α} {e : α} {fuel : Nat} {s r : ParamDict α × ParamDict α}
    (h : reflectDrift m lo hi e fuel s = .ok (some r)) (k : Nat) : reflectDrift m lo hi e (fuel + k) s = .ok (some r) := by
  unfold reflectDrift at h ⊢
  obtain ⟨x, hx, h⟩ := Res.bind_eq_ok.1 h
  cases x with
  | none => cases h
  | some x => rw [reflectLoop_fuel hx k]; exact h

theorem LeapFrog.reflectStep_fuel {m lo hi : ParamDict α} {e : α} {d : Differ α} {fuel : Nat} {s r : ParamDict α × ParamDict α}
    (h : reflectStep m lo hi e d fuel s = .ok (some r)) (k : Nat) : reflectStep m lo hi e d (fuel + k) s = .ok (some r) := by
  unfold reflectStep at h ⊢
  obtain ⟨g, hg, h⟩ := Res.bind_eq_ok.1 h
  rw [hg, Res.ok_bind]
  obtain ⟨x, hx, h⟩ := Res.bind_eq_ok.1 h
  cases x with
  | none => cases h
  | some x => rw [reflectDrift_fuel hx k]; exact h

theorem LeapFrog.reflectSteps_fuel {m lo hi : ParamDict α} {e : α} {d : Differ α} {fuel n : Nat} {s r : ParamDict α × ParamDict α}
    (h : reflectSteps m lo hi e d fuel n s = .ok (some r)) (k : Nat) : reflectSteps m lo hi e d (fuel + k) n s = .ok (some r) := by
  induction n generalizing s with
  | zero => exact h
  | succ n ih =>
    unfold reflectSteps at h ⊢
    obtain ⟨x, hx, h⟩ := Res.bind_eq_ok.1 h
    cases x with
    | none => cases h
    | some x => rw [reflectStep_fuel hx k]; exact ih h

theorem LeapFrog.reflectSteps_snoc {m lo hi : ParamDict α} {e : α} {d : Differ α} {fuel n : Nat} {s r r' : ParamDict α × ParamDict α}
    (h : reflectSteps m lo hi e d fuel n s = .ok (some r)) (h' : reflectStep m lo hi e d fuel r = .ok (some r')) :
    reflectSteps m lo hi e d fuel (n + 1) s = .ok (some r') := by
  induction n generalizing s with
  | zero => cases h; unfold reflectSteps; rw [h']; rfl
  | succ n ih =>
    unfold reflectSteps at h ⊢
    obtain ⟨x, hx, h⟩ := Res.bind_eq_ok.1 h
    rw [hx, Res.ok_bind]
    cases x with
    | none => cases h
    | some x => exact ih h

/-- Every drift of the `n` reflective steps from `s` is clean. -/
def CleanSteps (m lo hi : ParamDict α) (e : α) (d : Differ α) (fuel : Nat) : Nat → ParamDict α × ParamDict α → Prop
  | 0, _ => True
  | n + 1, s => (∀ g, d s.1 = .ok g → CleanDrift m lo hi e s.1 (kick (e / 2) g s.2)) ∧
      ∀ r, reflectStep m lo hi e d fuel s = .ok (some r) → CleanSteps m lo hi e d fuel n r

theorem LeapFrog.reflectStep_reverse [FloorRing α] {m lo hi : ParamDict α} {e : α} {d : Differ α} {fuel : Nat} {s r : ParamDict α × ParamDict α}
    (hb : BoxSetup m lo hi s.1 s.2) (he : 0 ≤ e) (hc : ∀ g, d s.1 = .ok g → CleanDrift m lo hi e s.1 (kick (e / 2) g s.2))
    (h : reflectStep m lo hi e d fuel s = .ok (some r)) :
    r.1.keys = s.1.keys ∧ r.2.keys = s.2.keys ∧ ∃ fuel', reflectStep m lo hi e d fuel' (flipMomenta r) = .ok (some (flipMomenta s)) := by
  unfold reflectStep at h
  obtain ⟨g, hg, h⟩ := Res.bind_eq_ok.1 h
  obtain ⟨x, hx, h⟩ := Res.bind_eq_ok.1 h
  cases x with
  | none => cases h
  | some x =>
    simp only at h
    obtain ⟨g', hg', h⟩ := Res.bind_eq_ok.1 h
    cases h
    have hb1 : BoxSetup m lo hi s.1 (kick (e / 2) g s.2) := hb.of_keys rfl (by rw [kick_keys])
    obtain ⟨k1, k2, -⟩ := C55_reflect_exact hb1 he (hc g hg) hx
    obtain ⟨fuel', hf⟩ := C55_reflect_drift_reversible hb1 he (hc g hg) hx
    refine ⟨k1, by simp only [kick_keys]; rw [k2, hb.names], fuel', ?_⟩
    unfold reflectStep flipMomenta
    simp only [hg', Res.ok_bind, kick_flip]
    unfold flipMomenta at hf
    simp only at hf
    rw [hf]
    simp only [Res.ok_bind, hg, kick_flip]

/-- C55, reversibility with walls: integrating any number of reflective steps, reversing the momenta and integrating the same number again gives
the starting positions with reversed momenta, provided that along the way no step starts or ends exactly on a wall and no two parameters reach
walls at the same moment. -/
theorem C55_reflect_reversible_partial [FloorRing α] {m lo hi : ParamDict α} {e : α} {d : Differ α} {fuel n : Nat} {s r : ParamDict α × ParamDict α}
    (hb : BoxSetup m lo hi s.1 s.2) (he : 0 ≤ e) (hc : CleanSteps m lo hi e d fuel n s) (h : reflectSteps m lo hi e d fuel n s = .ok (some r)) :
    ∃ fuel', reflectSteps m lo hi e d fuel' n (flipMomenta r) = .ok (some (flipMomenta s)) := by
  induction n generalizing s with
  | zero => cases h; exact ⟨0, rfl⟩
  | succ n ih =>
    unfold reflectSteps at h
    obtain ⟨x, hx, h⟩ := Res.bind_eq_ok.1 h
    cases x with
    | none => cases h
    | some x =>
      obtain ⟨k1, k2, f1, h1⟩ := reflectStep_reverse hb he hc.1 hx
      obtain ⟨f2, h2⟩ := ih (hb.of_keys k1 k2) (hc.2 x hx) h
      refine ⟨f2 + f1, reflectSteps_snoc (reflectSteps_fuel h2 f1) ?_⟩
      rw [Nat.add_comm]; exact reflectStep_fuel h1 f2

/-- Masses, and walls at 0 and 1, for two parameters. -/
def exMasses : ParamDict ℚ := [("a", 1), ("b", 1)]
def exLow : ParamDict ℚ := [("a", 0), ("b", 0)]
def exHigh : ParamDict ℚ := [("a", 1), ("b", 1)]

theorem exHigh_box (q p : ParamDict ℚ) (hq : q.keys = ["a", "b"]) (hp : p.keys = ["a", "b"]) : BoxSetup exMasses exLow exHigh q p := by
  have hk : ∀ k ∈ q.keys, k = "a" ∨ k = "b" := by intro k hk; rw [hq] at hk; simpa using hk
  refine ⟨sorted_of_keys (q := exMasses) (by decide +kernel) (by rw [hq]; rfl), by rw [hq, hp], ?_, ?_, ?_, ?_, by rw [hq]; decide⟩ <;> intro k h <;>
    rcases hk k h with rfl | rfl <;> decide +kernel

theorem exHigh_clean : CleanDrift exMasses exLow exHigh (2/5) [("a", 1/2), ("b", 1/3)] [("a", 3), ("b", -1)] := by
  have l : ∀ k, k = "a" ∨ k = "b" → dval exLow k = 0 ∧ dval exHigh k = 1 ∧ dval exMasses k = 1 := by rintro k (rfl | rfl) <;> decide +kernel
  have pa : dval ([("a", 3), ("b", -1)] : ParamDict ℚ) "a" = 3 := by decide +kernel
  have pb : dval ([("a", 3), ("b", -1)] : ParamDict ℚ) "b" = -1 := by decide +kernel
  have ha := l "a" (.inl rfl)
  have hb := l "b" (.inr rfl)
  have fa : ∀ t : ℚ, 0 < t → t ≤ 2/5 → OnWall 0 1 (1/2 + t * (3 / 1)) → t = 1/6 := by
    rintro t t0 te ⟨n, hn⟩
    have h1 : (0 : ℚ) < n := by linarith
    have h2 : (n : ℚ) < 2 := by linarith
    have : n = 1 := by have : 0 < n := by exact_mod_cast h1
                       have : n < 2 := by exact_mod_cast h2
                       omega
    subst this; push_cast at hn; linarith
  have fb : ∀ t : ℚ, 0 < t → t ≤ 2/5 → OnWall 0 1 (1/3 + t * (-1 / 1)) → t = 1/3 := by
    rintro t t0 te ⟨n, hn⟩
    have h1 : (-1 : ℚ) < n := by linarith
    have h2 : (n : ℚ) < 1 := by linarith
    have : n = 0 := by have : -1 < n := by exact_mod_cast h1
                       have : n < 1 := by exact_mod_cast h2
                       omega
    subst this; push_cast at hn; linarith
  refine ⟨?_, ?_, ?_⟩
  · intro x hx
    simp only [List.mem_cons, List.not_mem_nil, or_false] at hx
    rcases hx with rfl | rfl <;> simp only [ha, hb] <;> norm_num
  · intro x hx
    simp only [List.mem_cons, List.not_mem_nil, or_false] at hx
    rcases hx with rfl | rfl <;> simp only [ha, hb, pa, pb]
    · intro h; have := fa _ (by norm_num) (by norm_num) h; norm_num at this
    · intro h; have := fb _ (by norm_num) (by norm_num) h; norm_num at this
  · intro x hx y hy hxy t t0 te
    simp only [List.mem_cons, List.not_mem_nil, or_false] at hx hy
    rcases hx with rfl | rfl <;> rcases hy with rfl | rfl <;> simp only [ha, hb, pa, pb, ne_eq, not_true_eq_false] at hxy ⊢
    · rintro ⟨h1, h2⟩; have := fa t t0 te.le h1; have := fb t t0 te.le h2; linarith
    · rintro ⟨h1, h2⟩; have := fb t t0 te.le h1; have := fa t t0 te.le h2; linarith

/-- Non-vacuity: in a parabola in two parameters, one step with a reflection of each, and back. -/
example : BoxSetup exMasses exLow exHigh [("a", 1/2), ("b", 1/3)] [("a", 16/5), ("b", -13/15)] ∧
    CleanSteps exMasses exLow exHigh (2/5) exSquare 2 1 ([("a", 1/2), ("b", 1/3)], [("a", 16/5), ("b", -13/15)]) ∧
    reflectSteps exMasses exLow exHigh (2/5) exSquare 2 1 ([("a", 1/2), ("b", 1/3)], [("a", 16/5), ("b", -13/15)]) =
      .ok (some ([("a", 3/10), ("b", 1/15)], [("a", -78/25), ("b", 73/75)])) ∧
    reflectSteps exMasses exLow exHigh (2/5) exSquare 2 1 ([("a", 3/10), ("b", 1/15)], [("a", 78/25), ("b", -73/75)]) =
      .ok (some ([("a", 1/2), ("b", 1/3)], [("a", -16/5), ("b", 13/15)])) := by
  refine ⟨exHigh_box _ _ rfl rfl, ⟨?_, fun _ _ => trivial⟩, by decide +kernel, by decide +kernel⟩
  intro g hg
  have : exSquare [("a", 1/2), ("b", 1/3)] = .ok [("a", 1), ("b", 2/3)] := by decide +kernel
  rw [this] at hg; cases hg
  have : kick ((2/5 : ℚ) / 2) [("a", 1), ("b", 2/3)] [("a", 16/5), ("b", -13/15)] = [("a", 3), ("b", -1)] := by decide +kernel
  simp only [this]
  exact exHigh_clean

/-- C55 is false without the conditions: in a parabola between walls at 0 and 1, a particle starting on the wall at 1 and moving out is pulled
back in; the way back, with the momentum reversed, is reflected by the wall it came through and ends at 0 instead of 1. -/
theorem C55_reflect_reversible_wrong :
    reflectSteps ([("a", 1)] : ParamDict ℚ) [("a", 0)] [("a", 1)] (1/2) exSquare 5 2 ([("a", 1)], [("a", 3/4)]) = .ok (some ([("a", 11/16)], [("a", -39/32)])) ∧
    reflectSteps ([("a", 1)] : ParamDict ℚ) [("a", 0)] [("a", 1)] (1/2) exSquare 5 2 ([("a", 11/16)], [("a", 39/32)]) = .ok (some ([("a", 0)], [("a", -7/4)])) := by
  constructor <;> decide +kernel

end Oxsx
