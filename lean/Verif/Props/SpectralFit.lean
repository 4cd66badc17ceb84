import Verif.Model.SpectralFit
import Verif.Lemmas.Histogram
import Verif.Lemmas.Parameters
import Mathlib.Data.Rat.Floor
/-
C60: bins as fit parameters.
-/
set_option linter.unusedSectionVars false
set_option linter.unusedSimpArgs false
set_option linter.unusedVariables false
namespace Oxsx
variable {α : Type} [Field α] [LinearOrder α]

/-- The distributions made from a new one by setting all parameters, filling or otherwise replacing contents, and renaming to names
not in use: `SetParameter` is excluded. -/
inductive SpectralFit.Built : SpectralFit α → Prop
  | new (name : String) (axes : AxisCollection α) : Built (.new name axes)
  | setParameters {s} (d) : Built s → Built (s.setParameters d).1
  | setContents {s : SpectralFit α} (c : List α) : Built s → c.length = s.dist.hist.nBins → Built { s with dist := { s.dist with hist := { s.dist.hist with contents := c } } }
  | rename {s s'} (o n) : Built s → n ∉ s.binNames → s.renameParameter o n = .ok s' → Built s'

/-- Names and contents go together and names are distinct. -/
structure SpectralFit.Ok (s : SpectralFit α) : Prop where
  names : s.binNames.length = s.dist.hist.nBins
  contents : s.dist.hist.contents.length = s.dist.hist.nBins
  nodup : s.binNames.Nodup

theorem Nat.toString_injective {i j : Nat} (h : toString i = toString j) : i = j := by
  have h' := congrArg String.toList h
  rw [_root_.Nat.toString_eq_repr, _root_.Nat.toString_eq_repr, _root_.Nat.toList_repr, _root_.Nat.toList_repr] at h'
  rw [← _root_.Nat.ofDigitChars_toDigits (b := 10) (n := i) (by norm_num) (by norm_num), h',
    _root_.Nat.ofDigitChars_toDigits (by norm_num) (by norm_num)]

theorem SpectralFit.names_nodup (name : String) (n : Nat) : ((List.range n).map (fun i => name ++ "_bin_" ++ toString i)).Nodup := by
  refine List.Nodup.map (fun i j h => ?_) List.nodup_range
  exact Nat.toString_injective (String.append_right_inj _ |>.1 h)

theorem setIdx_ok_length {β : Type} {l l' : List β} {i : Nat} {b : β} (h : setIdx l i b = .ok l') : l'.length = l.length ∧ i < l.length ∧ l' = l.set i b := by
  unfold setIdx at h
  split at h
  · cases h; rename_i hi; exact ⟨by simp, hi, rfl⟩
  · cases h

theorem SpectralFit.setLoop_shape (d : ParamDict α) (l : List (String × Nat)) (h : Histogram α) :
    (setLoop d h l).1.nBins = h.nBins ∧ (setLoop d h l).1.contents.length = h.contents.length := by
  induction l generalizing h with
  | nil => exact ⟨rfl, rfl⟩
  | cons p l ih =>
    unfold setLoop
    cases hs : setStep d h p with
    | ok h' =>
      simp only
      have : h'.nBins = h.nBins ∧ h'.contents.length = h.contents.length := by
        unfold setStep at hs
        split at hs
        · cases hs
        · unfold Histogram.setBinContent at hs
          split at hs
          · cases hs
          · obtain ⟨cs, hc, hs⟩ := Res.bind_eq_ok.1 hs
            cases hs
            exact ⟨rfl, (setIdx_ok_length hc).1⟩
      exact ⟨(ih h').1.trans this.1, (ih h').2.trans this.2⟩
    | throw e => exact ⟨rfl, rfl⟩
    | ub => exact ⟨rfl, rfl⟩

theorem SpectralFit.ok_of_built {s : SpectralFit α} (h : s.Built) : s.Ok := by
  induction h with
  | new name axes =>
    refine ⟨by simp [SpectralFit.new, BinnedED.ofAxes, Histogram.ofAxes, Histogram.setAxes], ?_, names_nodup _ _⟩
    simp [SpectralFit.new, BinnedED.ofAxes, Histogram.ofAxes, Histogram.setAxes, resize, Histogram.empty]
  | @setParameters s d _ ih =>
    obtain ⟨h1, h2⟩ := setLoop_shape d s.binNames.zipIdx s.dist.hist
    exact ⟨ih.names.trans h1.symm, h2.trans (ih.contents.trans h1.symm), ih.nodup⟩
  | setContents c _ hc ih => exact ⟨ih.names, hc, ih.nodup⟩
  | @rename s s' o n _ hn hr ih =>
    unfold SpectralFit.renameParameter at hr
    split at hr
    · cases hr
    · cases hr
      refine ⟨by simpa using ih.names, ih.contents, ?_⟩
      exact List.Nodup.set ih.nodup hn

theorem findPos_getElem {l : List String} (hn : l.Nodup) {i : Nat} {n : String} (h : l[i]? = some n) : findPos l n = some i := by
  unfold findPos
  obtain ⟨hi, he⟩ := List.getElem?_eq_some_iff.1 h
  rw [List.findIdx?_eq_some_iff_getElem]
  refine ⟨hi, by simp [he], ?_⟩
  intro j hj
  simp only [decide_eq_true_eq, Bool.not_eq_true', decide_eq_false_iff_not, Bool.not_eq_true, Bool.decide_eq_true]
  intro hje
  have := (List.Nodup.getElem_inj_iff hn (hi := by omega) (hj := hi)).1 (hje.trans he.symm)
  omega

/-- C60, one parameter per bin, in bin order, with distinct names. -/
theorem C60_one_per_bin (name : String) (axes : AxisCollection α) :
    (SpectralFit.new name axes).getParameterCount = axes.nBins ∧
    (SpectralFit.new name axes).binNames.length = axes.nBins ∧ (SpectralFit.new name axes).binNames.Nodup ∧
    ∀ i, i < axes.nBins → (SpectralFit.new name axes).binNames[i]? = some (name ++ "_bin_" ++ toString i) := by
  refine ⟨rfl, by simp [SpectralFit.new], SpectralFit.names_nodup _ _, ?_⟩
  intro i hi
  simp [SpectralFit.new, hi]

/-- C60, getting the parameter of a bin returns the bin's content, and an unknown name is refused. -/
theorem C60_get {s : SpectralFit α} (h : s.Built) :
    (∀ (i : Nat) n, s.binNames[i]? = some n → ∃ v, s.getParameter n = .ok v ∧ s.dist.hist.contents[i]? = some v) ∧
    (∀ n, n ∉ s.binNames → s.getParameter n = .throw .parameter) := by
  have ho := SpectralFit.ok_of_built h
  constructor
  · intro i n hi
    have hil := (List.getElem?_eq_some_iff.1 hi).1
    have hc : i < s.dist.hist.contents.length := by rw [ho.contents, ← ho.names]; exact hil
    refine ⟨s.dist.hist.contents[i], ?_, by simp [hc]⟩
    unfold SpectralFit.getParameter
    rw [findPos_getElem ho.nodup hi]
    simp only
    unfold Histogram.getBinContent
    rw [if_neg (by rw [← ho.contents]; omega), idx_of_lt hc]
  · intro n hn
    unfold SpectralFit.getParameter
    have : findPos s.binNames n = none := by
      unfold findPos
      rw [List.findIdx?_eq_none_iff]
      intro x hx
      simp only [decide_eq_false_iff_not]
      rintro rfl; exact hn hx
    rw [this]

/-- C60 (partial): setting all parameters gives every bin the value under its name and nothing else, and the parameters read back are
those values. Missing: setting one parameter by name, see `C60_set_one_wrong`. -/
theorem C60_set_all_partial {s : SpectralFit α} (h : s.Built) (d : ParamDict α) (hall : ∀ n ∈ s.binNames, (SMap.find d n).isSome) :
    (s.setParameters d).2 = .ok () ∧
    (s.setParameters d).1.dist.hist.contents = s.binNames.map (fun n => (SMap.find d n).getD 0) ∧
    (s.setParameters d).1.binNames = s.binNames ∧ (s.setParameters d).1.dist.hist.axes = s.dist.hist.axes ∧
    (s.setParameters d).1.dist.obs = s.dist.obs ∧
    ∀ n ∈ s.binNames, (s.setParameters d).1.getParameter n = .ok ((SMap.find d n).getD 0) := by
  have ho := SpectralFit.ok_of_built h
  have gen : ∀ (l : List String) (k : Nat) (hh : Histogram α), (∀ n ∈ l, (SMap.find d n).isSome) → k + l.length = hh.nBins →
      hh.contents.length = hh.nBins →
      SpectralFit.setLoop d hh (l.zipIdx k) = ({ hh with contents := hh.contents.take k ++ l.map (fun n => (SMap.find d n).getD 0) }, .ok ()) := by
    intro l
    induction l with
    | nil =>
      intro k hh _ hk hc
      simp only [List.zipIdx_nil, SpectralFit.setLoop, List.map_nil, List.append_nil]
      rw [List.take_of_length_le (by simp at hk; omega)]
    | cons n l ih =>
      intro k hh hl hk hc
      obtain ⟨v, hv⟩ := Option.isSome_iff_exists.1 (hl n (by simp))
      simp only [List.zipIdx_cons, SpectralFit.setLoop]
      have hkl : k < hh.contents.length := by rw [hc]; simp at hk; omega
      have hs : SpectralFit.setStep d hh (n, k) = .ok { hh with contents := hh.contents.set k v } := by
        unfold SpectralFit.setStep Histogram.setBinContent setIdx
        simp only [hv]
        rw [if_neg (by omega), if_pos hkl]
        rfl
      rw [hs]
      simp only
      rw [ih (k + 1) _ (fun m hm => hl m (by simp [hm])) (by simp at hk ⊢; omega) (by simpa using hc)]
      simp only [List.map_cons, hv, Option.getD_some]
      congr 2
      rw [List.take_succ_eq_append_getElem (by simpa using hkl), List.take_set_of_le (Nat.le_refl k), List.getElem_set_self,
        List.append_assoc]
      rfl
  have key := gen s.binNames 0 s.dist.hist hall (by simpa using ho.names) ho.contents
  have hset : s.setParameters d = ({ s with dist := { s.dist with hist := { s.dist.hist with contents := s.binNames.map (fun n => (SMap.find d n).getD 0) } } }, .ok ()) := by
    unfold SpectralFit.setParameters
    rw [key]
    simp
  have hb := h.setParameters d
  rw [hset] at hb ⊢
  refine ⟨rfl, rfl, rfl, rfl, rfl, ?_⟩
  intro n hn
  obtain ⟨i, hi, he⟩ := List.mem_iff_getElem.1 hn
  obtain ⟨v, h1, h2⟩ := (C60_get hb).1 i n (by simp [hi, he])
  rw [h1]
  simp only [List.getElem?_map] at h2
  rw [show s.binNames[i]? = some n by simp [hi, he]] at h2
  simpa using h2.symm

/-- C60: a dictionary without the name of a bin is refused with ParameterError. -/
theorem C60_missing {s : SpectralFit α} (h : s.Built) (d : ParamDict α) (hm : ∃ n ∈ s.binNames, SMap.find d n = none) :
    (s.setParameters d).2 = .throw .parameter := by
  have ho := SpectralFit.ok_of_built h
  have gen : ∀ (l : List String) (k : Nat) (hh : Histogram α), (∃ n ∈ l, SMap.find d n = none) → k + l.length = hh.nBins →
      hh.contents.length = hh.nBins → (SpectralFit.setLoop d hh (l.zipIdx k)).2 = .throw .parameter := by
    intro l
    induction l with
    | nil => intro k hh ⟨n, hn, _⟩; simp at hn
    | cons n l ih =>
      intro k hh hl hk hc
      simp only [List.zipIdx_cons, SpectralFit.setLoop]
      cases hv : SMap.find d n with
      | none =>
        unfold SpectralFit.setStep
        simp only [hv]
      | some v =>
        have hkl : k < hh.contents.length := by rw [hc]; simp at hk; omega
        have hs : SpectralFit.setStep d hh (n, k) = .ok { hh with contents := hh.contents.set k v } := by
          unfold SpectralFit.setStep Histogram.setBinContent setIdx
          simp only [hv]
          rw [if_neg (by omega), if_pos hkl]
          rfl
        rw [hs]
        simp only
        refine ih (k + 1) _ ?_ (by simp at hk ⊢; omega) (by simpa using hc)
        obtain ⟨m, hm, hme⟩ := hl
        rcases List.mem_cons.1 hm with rfl | hm
        · rw [hv] at hme; cases hme
        · exact ⟨m, hm, hme⟩
  exact gen s.binNames 0 s.dist.hist hm (by simpa using ho.names) ho.contents

/-- C60, all parameters read: the dictionary holds every bin's content under the bin's name. -/
theorem C60_get_all {s : SpectralFit α} (h : s.Built) :
    ∃ g, s.getParameters = .ok g ∧ (∀ (i : Nat) n, s.binNames[i]? = some n → SMap.find g n = s.dist.hist.contents[i]?) ∧
      ∀ n, n ∉ s.binNames → SMap.find g n = none := by
  have ho := SpectralFit.ok_of_built h
  have hlen : s.binNames.length = s.dist.hist.contents.length := ho.names.trans ho.contents.symm
  have gen : ∀ (l : List String) (c : List α) (m : ParamDict α), l.Nodup → l.length = c.length →
      (∀ (i : Nat) n, l[i]? = some n → SMap.find ((l.zip c).foldl (fun (m : ParamDict α) p => m.insert p.1 p.2) m) n = c[i]?) ∧
      ∀ n, n ∉ l → SMap.find ((l.zip c).foldl (fun (m : ParamDict α) p => m.insert p.1 p.2) m) n = SMap.find m n := by
    intro l
    induction l with
    | nil => intro c m _ _; simp
    | cons a l ih =>
      intro c m hn hl
      cases c with
      | nil => cases hl
      | cons x c =>
        rw [List.nodup_cons] at hn
        obtain ⟨i1, i2⟩ := ih c (SMap.insert a x m) hn.2 (by simpa using hl)
        simp only [List.zip_cons_cons, List.foldl_cons]
        constructor
        · intro i n hi
          cases i with
          | zero =>
            simp at hi; subst hi
            rw [i2 _ hn.1, SMap.find_insert, if_pos rfl]; rfl
          | succ i => simp at hi; rw [i1 i n hi]; rfl
        · intro n hnm
          rw [i2 n (fun h => hnm (List.mem_cons_of_mem _ h)), SMap.find_insert, if_neg (fun (h : a = n) => hnm (by rw [← h]; exact List.mem_cons_self))]
  obtain ⟨g1, g2⟩ := gen s.binNames s.dist.hist.contents [] ho.nodup hlen
  refine ⟨_, by unfold SpectralFit.getParameters; rw [if_neg (by omega)], g1, fun n hn => by rw [g2 n hn]; rfl⟩

/-- **C60 is false for setting one parameter**: whenever `SetParameter` returns, no bin content has changed; the bin's *name* has been
replaced by a single character, so that the parameter is gone (unless that character is its name). -/
theorem C60_set_one_wrong [FloorRing α] {s s' : SpectralFit α} (n : String) (v : α) (h : s.setParameter n v = .ok s') :
    s'.dist = s.dist ∧ n ∈ s.binNames ∧ ∃ c, SpectralFit.byteString v = .ok c ∧ c ∈ s'.binNames := by
  unfold SpectralFit.setParameter at h
  split at h
  · cases h
  · rename_i i hi
    obtain ⟨b, hb, h⟩ := Res.bind_eq_ok.1 h
    cases h
    obtain ⟨h1, h2, _⟩ := List.findIdx?_eq_some_iff_getElem.1 hi
    refine ⟨rfl, ?_, b, hb, ?_⟩
    · have : s.binNames[i] = n := by simpa using h2
      exact this ▸ List.getElem_mem h1
    · exact List.mem_set h1 b

/-- C60: and setting one bin to 128 events or more, or to -129 or less, is undefined behaviour. -/
theorem C60_set_one_range_wrong [FloorRing α] [IsStrictOrderedRing α] {s : SpectralFit α} {n : String} (hn : n ∈ s.binNames) {v : α} (hv : 128 ≤ v ∨ v ≤ -129) :
    s.setParameter n v = .ub := by
  have hb : SpectralFit.byteString v = .ub := by
    unfold SpectralFit.byteString
    simp only
    rw [if_neg]
    rcases hv with hv | hv
    · have h0 : (0 : α) ≤ v := le_trans (by norm_num) hv
      rw [if_pos h0]
      have : (128 : Int) ≤ ⌊v⌋ := Int.le_floor.2 (by exact_mod_cast hv)
      omega
    · have h0 : ¬ (0 : α) ≤ v := fun h => by linarith
      rw [if_neg h0]
      have : ⌈v⌉ ≤ (-129 : Int) := Int.ceil_le.2 (by exact_mod_cast hv)
      omega
  unfold SpectralFit.setParameter
  split
  · rename_i h
    unfold findPos at h
    rw [List.findIdx?_eq_none_iff] at h
    have := h n hn
    simp at this
  · rw [hb]; rfl

/-- A two bin example: after `SetParameter("b_bin_0", 7)` the content is still 0 and the parameter is no longer known. -/
theorem C60_set_one_example_wrong : ∃ (s s' : SpectralFit ℚ), s.Built ∧ s.setParameter "b_bin_0" 7 = .ok s' ∧
    s'.dist.hist.contents = [0, 0] ∧ s'.getParameter "b_bin_0" = .throw .parameter := by
  have hw : (BinAxis.mkEqual "x" (0 : ℚ) 2 2 >>= fun a => (AxisCollection.empty : AxisCollection ℚ).addAxes [a] >>= fun c =>
      (SpectralFit.new "b" c).setParameter "b_bin_0" 7 >>= fun s' => Res.ok (s'.dist.hist.contents, s'.getParameter "b_bin_0")) =
      .ok ([0, 0], .throw .parameter) := by decide +kernel
  obtain ⟨a, _, hw⟩ := Res.bind_eq_ok.1 hw
  obtain ⟨c, _, hw⟩ := Res.bind_eq_ok.1 hw
  obtain ⟨s', h, hw⟩ := Res.bind_eq_ok.1 hw
  have hw := Res.ok.inj hw
  simp only [Prod.mk.injEq] at hw
  exact ⟨_, s', .new "b" c, h, hw⟩

/-- Non-vacuity of C60. -/
example : ∃ (s : SpectralFit ℚ), s.Built ∧ s.binNames = ["b_bin_0", "b_bin_1"] ∧
    (s.setParameters [("b_bin_0", 3), ("b_bin_1", 4)]).1.dist.hist.contents = [3, 4] := by
  have hw : (BinAxis.mkEqual "x" (0 : ℚ) 2 2 >>= fun a => (AxisCollection.empty : AxisCollection ℚ).addAxes [a] >>= fun c =>
      Res.ok ((SpectralFit.new "b" c).binNames, ((SpectralFit.new "b" c).setParameters [("b_bin_0", 3), ("b_bin_1", 4)]).1.dist.hist.contents)) =
      .ok (["b_bin_0", "b_bin_1"], [3, 4]) := by decide +kernel
  obtain ⟨a, _, hw⟩ := Res.bind_eq_ok.1 hw
  obtain ⟨c, _, hw⟩ := Res.bind_eq_ok.1 hw
  have hw := Res.ok.inj hw
  simp only [Prod.mk.injEq] at hw
  exact ⟨_, .new "b" c, hw⟩

end Oxsx
