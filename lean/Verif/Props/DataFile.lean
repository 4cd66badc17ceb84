import Verif.Props.Packing
import Verif.Props.DataSet
import Mathlib.Data.List.Basic
import Mathlib.Tactic.Ring
/-
Property C49: a data set written to a file in slabs is complete and in order, and is read back unchanged.
-/
set_option linter.unusedSectionVars false
set_option linter.unusedSimpArgs false
set_option linter.unusedVariables false
namespace Oxsx
variable {α : Type}
namespace IO

theorem flatten_length_const {m : Nat} {rows : List (List α)} (h : ∀ r ∈ rows, r.length = m) :
    rows.flatten.length = rows.length * m := by
  induction rows with
  | nil => simp
  | cons r rs ih =>
    simp only [List.flatten_cons, List.length_append, List.length_cons]
    rw [ih (fun r hr => h r (List.mem_cons_of_mem _ hr)), h r List.mem_cons_self]; ring

/-- Reading the events of a range. -/
theorem read_rows (d : DataSet α) (a b : Nat) (hb : b ≤ d.data.length) :
    Res.traverse (fun k => (d.getEntry (a + k) >>= fun e => pure e.obs : Res (List α))) (List.range (b - a)) =
      .ok ((d.data.drop a).take (b - a)) := by
  have : ∀ k ∈ List.range (b - a), (d.getEntry (a + k) >>= fun e => pure e.obs : Res (List α)) =
      .ok ((d.data[a + k]?).getD []) := by
    intro k hk
    simp only [List.mem_range] at hk
    have : a + k < d.data.length := by omega
    simp [DataSet.getEntry, List.getElem?_eq_getElem this]
  rw [Res.traverse_ok this]
  congr 1
  apply List.ext_getElem?
  intro i
  by_cases hi : i < b - a
  · rw [List.getElem?_take_of_lt hi, List.getElem?_drop]
    have : a + i < d.data.length := by omega
    simp [hi, List.getElem?_eq_getElem this]
  · rw [List.getElem?_eq_none (by simp; omega), List.getElem?_eq_none (by simp; omega)]

theorem writeSlab_spec (pre blk suf : List α) (cnt : Nat) (h1 : blk.length = cnt) (h2 : cnt ≤ suf.length) :
    writeSlab (pre ++ suf) pre.length cnt blk = .ok (pre ++ blk ++ suf.drop cnt) := by
  unfold writeSlab
  rw [if_neg (by simp; omega), if_neg (by omega)]
  congr 1
  rw [List.take_left, List.drop_append]
  simp [List.take_of_length_le (le_of_eq h1)]

end IO
open Oxsx.IO

/-- Start of slab `i` (in events); `i = slabs` gives the number of events. -/
def IO.slabStart (n slabs i : Nat) : Nat := if i = slabs then n else i * (n / slabs)

theorem IO.slabRange_eq (n slabs i : Nat) (hi : i < slabs) :
    slabRange n slabs i = (slabStart n slabs i, slabStart n slabs (i + 1)) := by
  unfold slabRange slabStart
  rw [if_neg (show ¬ i = slabs by omega)]
  by_cases h : i + 1 = slabs
  · rw [if_pos (show i = slabs - 1 by omega), if_pos h]
  · rw [if_neg (show ¬ i = slabs - 1 by omega), if_neg h]

theorem IO.slabStart_le (n slabs i : Nat) (hi : i ≤ slabs) : slabStart n slabs i ≤ n := by
  unfold slabStart
  split
  · exact le_rfl
  · calc i * (n / slabs) ≤ slabs * (n / slabs) := Nat.mul_le_mul_right _ hi
      _ ≤ n := Nat.mul_div_le n slabs

theorem IO.slabStart_lt (n slabs i : Nat) (hs : slabs ≤ n) (hi : i < slabs) :
    slabStart n slabs i < slabStart n slabs (i + 1) := by
  have hq : 0 < n / slabs := Nat.div_pos hs (by omega)
  unfold slabStart
  rw [if_neg (by omega)]
  split
  · rename_i h
    calc i * (n / slabs) < (i + 1) * (n / slabs) := Nat.mul_lt_mul_of_pos_right (by omega) hq
      _ ≤ n := by rw [h]; exact Nat.mul_div_le n slabs
  · exact Nat.mul_lt_mul_of_pos_right (by omega) hq

/-- C49 (slabs tile the events): for any number of events and slabs (at least one), the ranges of consecutive slabs
meet exactly, start at 0 and end at the number of events. -/
theorem C49_slabs_tile (n slabs : Nat) (hs : 0 < slabs) :
    (slabRange n slabs 0).1 = 0 ∧ (slabRange n slabs (slabs - 1)).2 = n ∧
    ∀ i, i + 1 < slabs → (slabRange n slabs i).2 = (slabRange n slabs (i + 1)).1 ∧
      (slabRange n slabs i).1 ≤ (slabRange n slabs i).2 := by
  refine ⟨by simp [slabRange], by simp [slabRange], ?_⟩
  intro i hi
  unfold slabRange
  rw [if_neg (by omega)]
  exact ⟨rfl, Nat.mul_le_mul_right _ (by omega)⟩

example : slabRange 7 3 0 = (0, 2) ∧ slabRange 7 3 1 = (2, 4) ∧ slabRange 7 3 2 = (4, 7) := by decide

theorem IO.nSlabs_le {n m : Nat} (hn : 0 < n) (hm : m < 10000) : nSlabs (m * n) ≤ n := by
  unfold nSlabs
  have : m * n / 10000 < n := by
    rw [Nat.div_lt_iff_lt_mul (by norm_num)]
    calc m * n ≤ 9999 * n := Nat.mul_le_mul_right _ (by omega)
      _ < n * 10000 := by omega
  omega

/-- C49 (writing): a well-formed, non-empty data set with one name per observable and fewer than 10000 observables is
written completely: the file's array is the values of event 0, then of event 1, … in order, nothing else; the number
of observables and the packed names (cut to 64 characters) are stored beside it. -/
theorem C49_save [Zero α] (d : DataSet α) (hd : d.WF) (hne : d.data ≠ []) (hn : d.names.length = d.nObs)
    (hm : d.nObs < 10000) :
    saveH5 d = .ok ⟨d.data.flatten, cut64 (flatten d.names), d.nObs⟩ := by
  set N := d.data.length with hN
  set m := d.nObs with hmdef
  have hNpos : 0 < N := List.length_pos_of_ne_nil hne
  have hmpos : 0 < m := Nat.pos_of_ne_zero (hd.2.1 hne)
  have hfl : d.data.flatten.length = N * m := flatten_length_const hd.1
  have hslab : nSlabs (m * N) ≤ N := nSlabs_le hNpos hm
  have hspos : 0 < nSlabs (m * N) := by unfold nSlabs; omega
  set S := nSlabs (m * N) with hS
  have hloop := Res.forFold_range (f := saveSlab d m S) (fun i (dat : List α) =>
    dat = (d.data.take (slabStart N S i)).flatten ++ List.replicate (m * N - slabStart N S i * m) 0) (n := S)
    (s := List.replicate (m * N) 0) (by
      have h0 : slabStart N S 0 = 0 := by unfold slabStart; rw [if_neg (by omega), Nat.zero_mul]
      rw [h0]; simp) (by
      rintro i dat hi rfl
      set a := slabStart N S i with ha
      set b := slabStart N S (i + 1) with hb
      have hab : a < b := slabStart_lt N S i hslab hi
      have hbN : b ≤ N := slabStart_le N S (i + 1) (by omega)
      have hrows : ∀ r ∈ (d.data.drop a).take (b - a), r.length = m := fun r hr =>
        hd.1 r (List.mem_of_mem_drop (List.mem_of_mem_take hr))
      have hlen : ((d.data.drop a).take (b - a)).length = b - a := by simp; omega
      have hfl2 := flatten_length_const hrows
      rw [hlen] at hfl2
      have hpre : (d.data.take a).flatten.length = a * m := by
        rw [flatten_length_const (fun r hr => hd.1 r (List.mem_of_mem_take hr)), List.length_take,
          Nat.min_eq_left (by omega)]
      refine ⟨_, ?_, rfl⟩
      unfold saveSlab
      have hr : slabRange d.getNEntries S i = (a, b) := slabRange_eq N S i hi
      simp only [hr]
      rw [read_rows d a b hbN]
      have hpos : 0 < ((d.data.drop a).take (b - a)).flatten.length := by
        rw [hfl2]; exact Nat.mul_pos (by omega) hmpos
      simp only [Res.ok_bind]
      rw [at_of_lt hpos, Res.ok_bind]
      have hle : a * m + (b - a) * m ≤ m * N := by
        rw [← Nat.add_mul, Nat.add_sub_cancel' hab.le, Nat.mul_comm]; exact Nat.mul_le_mul_left _ hbN
      rw [← hpre, writeSlab_spec _ _ _ _ hfl2 (by simp [hpre]; omega)]
      congr 1
      rw [List.drop_replicate, hpre]
      congr 1
      · rw [← List.flatten_append]
        congr 1
        rw [← List.take_add, Nat.add_sub_cancel' hab.le]
      · congr 1
        have : b * m = a * m + (b - a) * m := by rw [← Nat.add_mul, Nat.add_sub_cancel' hab.le]
        omega)
  obtain ⟨dat, h1, h2⟩ := hloop
  have hdat : dat = d.data.flatten := by
    rw [h2]
    have : slabStart N S S = N := by unfold slabStart; rw [if_pos rfl]
    rw [this, Nat.mul_comm m N, Nat.sub_self, hN, List.take_length]; simp
  unfold saveH5
  have h0 : d.nObs * d.getNEntries = m * N := rfl
  simp only [h0]
  rw [Res.throwIf_false_of (by rw [hn]; simp [hmdef]), Res.ok_bind]
  show (Res.forFold (saveSlab d m S) _ _ >>= _) = _
  rw [h1, hdat]; rfl

example : (DataSet.mk [[(1 : Int), 2], [3, 4]] ["e", "r"] 2).WF ∧
    saveH5 (DataSet.mk [[(1 : Int), 2], [3, 4]] ["e", "r"] 2) = .ok ⟨[1, 2, 3, 4], "e:r", 2⟩ := by decide +kernel

/-- C49 is false for an empty data set and for 10000 observables or more: instead of writing the file the call throws
`std::out_of_range`. A wrong number of names throws `IOError`. -/
theorem C49_save_fails_wrong [Zero α] (d : DataSet α) (hd : d.WF) :
    (d.names.length ≠ d.nObs → saveH5 d = .throw .io) ∧
    (d.names.length = d.nObs → d.data = [] ∨ 10000 ≤ d.nObs → saveH5 d = .throw .outOfRange) := by
  constructor
  · intro h
    unfold saveH5
    simp only []
    rw [Res.throwIf_true_of h]; rfl
  · intro hn h
    unfold saveH5
    simp only []
    rw [Res.throwIf_false_of (by simp [hn]), Res.ok_bind]
    set N := d.data.length with hN
    have hS : 0 < nSlabs (d.nObs * d.getNEntries) := by unfold nSlabs; omega
    have hfirst : slabRange d.getNEntries (nSlabs (d.nObs * d.getNEntries)) 0 = (0, 0) := by
      unfold slabRange
      rcases h with h | h
      · have : d.getNEntries = 0 := by unfold DataSet.getNEntries; rw [h]; rfl
        rw [this]; simp
      · by_cases h0 : d.data = []
        · have : d.getNEntries = 0 := by unfold DataSet.getNEntries; rw [h0]; rfl
          rw [this]; simp
        have hpos : 0 < N := List.length_pos_of_ne_nil h0
        have hlt : N < nSlabs (d.nObs * d.getNEntries) := by
          unfold nSlabs
          have : N ≤ d.nObs * N / 10000 := by
            rw [Nat.le_div_iff_mul_le (by norm_num), Nat.mul_comm]; exact Nat.mul_le_mul_right _ h
          show N < d.nObs * N / 10000 + 1
          omega
        rw [if_neg (by omega)]
        have : d.getNEntries / nSlabs (d.nObs * d.getNEntries) = 0 := Nat.div_eq_of_lt hlt
        rw [this]
    have hstep : ∀ dat, saveSlab d d.nObs (nSlabs (d.nObs * d.getNEntries)) dat 0 = .throw .outOfRange := by
      intro dat
      unfold saveSlab
      simp only [hfirst]
      rfl
    obtain ⟨k, hk⟩ : ∃ k, nSlabs (d.nObs * d.getNEntries) = k + 1 := ⟨_, (Nat.sub_add_cancel hS).symm⟩
    rw [hk] at hstep ⊢
    rw [List.range_succ_eq_map]
    simp only [Res.forFold, hstep]; rfl

example : saveH5 (DataSet.empty : DataSet Int) = .throw .outOfRange := by decide +kernel

namespace IO

/-- Reading whole events off a flat buffer. -/
theorem addEvents_spec (m : Nat) (hm : 0 < m) (rows : List (List α)) (hr : ∀ r ∈ rows, r.length = m)
    (rest : List α) (out : DataSet α) (hw : out.WF) (ho : out.nObs = 0 ∨ out.nObs = m) :
    ∃ out', addEvents m rows.length (rows.flatten ++ rest) out = .ok out' ∧ out'.data = out.data ++ rows ∧
      out'.names = out.names ∧ out'.WF ∧ (out'.nObs = 0 ∨ out'.nObs = m) := by
  have hget : ∀ i j, i < rows.length → j < m → (rows.flatten ++ rest)[i * m + j]? = (rows[i]?).bind (fun r => r[j]?) := by
    intro i j hi hj
    have hfl := flatten_length_const hr
    have hlt : i * m + j < rows.flatten.length := by
      rw [hfl]
      calc i * m + j < i * m + m := by omega
        _ = (i + 1) * m := by ring
        _ ≤ rows.length * m := Nat.mul_le_mul_right _ hi
    rw [List.getElem?_append_left hlt]
    clear hlt hfl
    induction rows generalizing i with
    | nil => simp at hi
    | cons r rs ih =>
      have hr0 := hr r List.mem_cons_self
      cases i with
      | zero =>
        rw [List.flatten_cons, Nat.zero_mul, Nat.zero_add, List.getElem?_append_left (by omega)]
        simp
      | succ i =>
        rw [List.flatten_cons, List.getElem?_append_right (by rw [hr0, Nat.add_mul]; omega), hr0]
        have : (i + 1) * m + j - m = i * m + j := by rw [Nat.add_mul]; omega
        rw [this, List.getElem?_cons_succ]
        exact ih (fun r h => hr r (List.mem_cons_of_mem _ h)) i (by simpa using hi)
  have := Res.forFold_range (f := fun (o : DataSet α) i => do
    let row ← Res.traverse (fun j => at_ (rows.flatten ++ rest) (i * m + j)) (List.range m)
    o.addEntry (Event.ofData row)) (fun i (o : DataSet α) => o.data = out.data ++ rows.take i ∧ o.names = out.names ∧
      o.WF ∧ (o.nObs = 0 ∨ o.nObs = m)) (n := rows.length) (s := out) ⟨by simp, rfl, hw, ho⟩ (by
    rintro i s hi ⟨h1, h2, h3, h4⟩
    have hrow : Res.traverse (fun j => at_ (rows.flatten ++ rest) (i * m + j)) (List.range m) = .ok rows[i] := by
      have hl := hr _ (List.getElem_mem hi)
      have : ∀ j ∈ List.range m, at_ (rows.flatten ++ rest) (i * m + j) = .ok (rows[i].getD j (rows[i][0]'(by omega))) := by
        intro j hj
        simp only [List.mem_range] at hj
        rw [at_ok, hget i j hi hj]
        simp [List.getElem?_eq_getElem hi, List.getElem?_eq_getElem (show j < rows[i].length by omega), List.getD_eq_getElem?_getD]
      rw [Res.traverse_ok this]
      congr 1
      apply List.ext_getElem?
      intro j
      by_cases hj : j < m
      · simp [hj, List.getElem?_eq_getElem (show j < rows[i].length by omega)]
      · rw [List.getElem?_eq_none (by simp; omega), List.getElem?_eq_none (by omega)]
    have hl := hr _ (List.getElem_mem hi)
    have hadd : s.addEntry (Event.ofData rows[i]) = _ := DataSet.addEntry_ok (d := s) (e := Event.ofData rows[i])
      (by intro h; simp only [Event.ofData] at h; rw [h] at hl; simp at hl; omega) (by simp only [Event.ofData, hl]; exact h4)
    refine ⟨⟨s.data ++ [rows[i]], s.names, rows[i].length⟩, ?_, ?_, h2, DataSet.wf_addEntry h3 hadd, .inr hl⟩
    · simp only [hrow, Res.ok_bind]; exact hadd
    · rw [h1]; simp only [List.append_assoc, List.take_append_getElem])
  obtain ⟨o, h1, h2, h3, h4, h5⟩ := this
  exact ⟨o, h1, by rw [h2, List.take_length], h3, h4, h5⟩

theorem readSlab_rows (m : Nat) (rows : List (List α)) (hr : ∀ r ∈ rows, r.length = m) (a k : Nat)
    (h : a + k ≤ rows.length) :
    readSlab rows.flatten (a * m) (k * m) = .ok ((rows.drop a).take k).flatten := by
  unfold readSlab
  have hfl := flatten_length_const hr
  rw [if_neg (by rw [hfl, ← Nat.add_mul]; exact Nat.not_lt.2 (Nat.mul_le_mul_right _ h))]
  congr 1
  have e : rows.flatten = (rows.take a).flatten ++ (((rows.drop a).take k).flatten ++ ((rows.drop a).drop k).flatten) := by
    rw [← List.flatten_append, List.take_append_drop, ← List.flatten_append, List.take_append_drop]
  have h1 : (rows.take a).flatten.length = a * m := by
    rw [flatten_length_const (fun r hr' => hr r (List.mem_of_mem_take hr')), List.length_take, Nat.min_eq_left (by omega)]
  have h2 : ((rows.drop a).take k).flatten.length = k * m := by
    rw [flatten_length_const (fun r hr' => hr r (List.mem_of_mem_drop (List.mem_of_mem_take hr')))]
    congr 1; simp; omega
  conv_lhs => rw [e]
  rw [← h1, List.drop_left, ← h2, List.take_left]

end IO

/-- C49 (reading): a file holding the values of `rows` (at least one event, each of `m` values, `0 < m`), at most
`2^32` values in all, is read back as exactly those events in order, under the stored names. -/
theorem C49_load (rows : List (List α)) (m : Nat) (hm : 0 < m) (hr : ∀ r ∈ rows, r.length = m) (hne : rows ≠ [])
    (hsize : rows.length * m ≤ 2 ^ 32) (names : String) :
    ∃ ns d, unpack names = .ok ns ∧ loadH5 ⟨rows.flatten, names, m⟩ = .ok d ∧ d.data = rows ∧ d.names = ns ∧ d.WF := by
  have hfl := flatten_length_const hr
  have hpos : 0 < rows.length := List.length_pos_of_ne_nil hne
  have hN : rows.flatten.length / m = rows.length := by rw [hfl, Nat.mul_div_cancel _ hm]
  obtain ⟨ns, hns, _⟩ := C48_unpack_all names
  refine ⟨ns, ?_⟩
  have hflpos : 0 < rows.flatten.length := by rw [hfl]; exact Nat.mul_pos hpos hm
  set out0 := (DataSet.empty : DataSet α).setObservableNames ns with hout
  have hw0 : out0.WF := DataSet.wf_empty ns
  suffices h : ∃ d, (if rows.length < 1000000 then (at_ rows.flatten 0 >>= fun _ => addEvents m rows.length rows.flatten out0)
      else loadChunks ⟨rows.flatten, names, m⟩ rows.length out0) = .ok d ∧ d.data = rows ∧ d.names = ns ∧ d.WF by
    obtain ⟨d, h1, h2, h3, h4⟩ := h
    refine ⟨d, hns, ?_, h2, h3, h4⟩
    unfold loadH5
    simp only [hns, Res.ok_bind]
    rw [if_neg (by omega)]
    simp only [hN]
    exact h1
  by_cases hsmall : rows.length < 1000000
  · rw [if_pos hsmall]
    obtain ⟨d, h1, h2, h3, h4, _⟩ := addEvents_spec m hm rows hr [] out0 hw0 (.inl rfl)
    rw [List.append_nil] at h1
    refine ⟨d, by rw [at_of_lt hflpos]; exact h1, by rw [h2]; rfl, h3, h4⟩
  · rw [if_neg hsmall]
    unfold loadChunks
    simp only []
    set Q := rows.length / 100000 with hQ
    have hQle : Q * 100000 ≤ rows.length := Nat.div_mul_le_self _ _
    have hm32 : 100000 * m < 2 ^ 32 := by
      have : 1000000 * m ≤ 2 ^ 32 := le_trans (Nat.mul_le_mul_right _ (by omega)) hsize
      omega
    have hlen : (100000 * m) % 2 ^ 32 = 100000 * m := Nat.mod_eq_of_lt hm32
    have hoff : ∀ i, i < Q → chunkOffset i m = (i * 100000) * m := by
      intro i hi
      have h1 : (i * 100000 + 100000) * m ≤ 2 ^ 32 := by
        refine le_trans (Nat.mul_le_mul_right _ ?_) hsize
        calc i * 100000 + 100000 = (i + 1) * 100000 := by ring
          _ ≤ Q * 100000 := Nat.mul_le_mul_right _ hi
          _ ≤ rows.length := hQle
      have h2 : (i * 100000) * m < 2 ^ 32 := by
        have := Nat.add_mul (i * 100000) 100000 m
        omega
      have h3 : i * 100000 < 2 ^ 32 := lt_of_le_of_lt (Nat.le_mul_of_pos_right _ hm) h2
      unfold chunkOffset
      rw [Nat.mod_eq_of_lt h3, Nat.mod_eq_of_lt h2]
    have hloop := Res.forFold_range (f := fun (o : DataSet α) i => do
      let flat ← readSlab rows.flatten (chunkOffset i m) ((100000 * m) % 2 ^ 32)
      let _ ← at_ flat 0
      addEvents m 100000 flat o) (fun i (o : DataSet α) => o.data = rows.take (i * 100000) ∧ o.names = ns ∧ o.WF ∧
        (o.nObs = 0 ∨ o.nObs = m)) (n := Q) (s := out0) ⟨by simp [hout, DataSet.empty, DataSet.setObservableNames], rfl, hw0, .inl rfl⟩ (by
      rintro i o hi ⟨h1, h2, h3, h4⟩
      have hle : i * 100000 + 100000 ≤ rows.length := by
        calc i * 100000 + 100000 = (i + 1) * 100000 := by ring
          _ ≤ Q * 100000 := Nat.mul_le_mul_right _ hi
          _ ≤ rows.length := hQle
      set blk := (rows.drop (i * 100000)).take 100000 with hblk
      have hbl : blk.length = 100000 := by simp [hblk]; omega
      have hbr : ∀ r ∈ blk, r.length = m := fun r h => hr r (List.mem_of_mem_drop (List.mem_of_mem_take h))
      obtain ⟨o', g1, g2, g3, g4, g5⟩ := addEvents_spec m hm blk hbr [] o h3 h4
      rw [hbl, List.append_nil] at g1
      have hflb : 0 < blk.flatten.length := by
        rw [flatten_length_const hbr, hbl]; exact Nat.mul_pos (by norm_num) hm
      refine ⟨o', ?_, ?_, by rw [g3, h2], g4, g5⟩
      · rw [hoff i hi, hlen, readSlab_rows m rows hr (i * 100000) 100000 hle]
        simp only [Res.ok_bind]
        rw [at_of_lt hflb, Res.ok_bind, g1]
      · rw [g2, h1, hblk, ← List.take_add, Nat.add_mul, Nat.one_mul])
    obtain ⟨o, h1, h2, h3, h4, h5⟩ := hloop
    rw [h1, Res.ok_bind]
    by_cases hleft : rows.length % 100000 = 0
    · rw [if_pos hleft]
      refine ⟨o, rfl, ?_, h3, h4⟩
      rw [h2]
      apply List.take_of_length_le
      have := Nat.div_add_mod rows.length 100000
      omega
    · rw [if_neg hleft]
      have hdm := Nat.div_add_mod rows.length 100000
      set L := rows.length % 100000 with hL
      have hrd := readSlab_rows m rows hr (100000 * Q) L (by omega)
      rw [Nat.mul_comm L m] at hrd
      rw [hrd, Res.ok_bind]
      set blk := (rows.drop (100000 * Q)).take L with hblk
      have hbl : blk.length = L := by simp [hblk]; omega
      have hbr : ∀ r ∈ blk, r.length = m := fun r h => hr r (List.mem_of_mem_drop (List.mem_of_mem_take h))
      obtain ⟨o', g1, g2, g3, g4, g5⟩ := addEvents_spec m hm blk hbr [] o h4 h5
      rw [hbl, List.append_nil] at g1
      refine ⟨o', g1, ?_, by rw [g3, h3], g4⟩
      rw [g2, h2, hblk, Nat.mul_comm Q, ← List.take_add]
      apply List.take_of_length_le
      omega

/-- C49 (round trip): saving a well-formed non-empty data set with fewer than 10000 observables, at most `2^32` values, names
without ':' and at most 64 characters when packed, and loading the file gives the same data set. -/
theorem C49_round_trip_partial [Zero α] (d : DataSet α) (hd : d.WF) (hne : d.data ≠ []) (hn : d.names.length = d.nObs)
    (hm : d.nObs < 10000) (hsize : d.data.length * d.nObs ≤ 2 ^ 32) (hdel : ∀ n ∈ d.names, ':' ∉ n.toList)
    (h64 : (flatten d.names).toList.length ≤ 64) :
    (saveH5 d >>= loadH5) = .ok d := by
  have hmpos : 0 < d.nObs := Nat.pos_of_ne_zero (hd.2.1 hne)
  have hc : cut64 (flatten d.names) = flatten d.names := by
    unfold cut64; rw [List.take_of_length_le h64]; simp
  rw [C49_save d hd hne hn hm, Res.ok_bind, hc]
  obtain ⟨ns, d', h1, h2, h3, h4, h5⟩ := C49_load d.data d.nObs hmpos hd.1 hne hsize (flatten d.names)
  rw [C48_round_trip d.names (by intro h; rw [h] at hn; simp at hn; omega) hdel] at h1
  rw [h2]
  have e1 : d'.names = d.names := by rw [h4]; exact (Res.ok.inj h1).symm
  have e2 : d'.nObs = d.nObs := by
    obtain ⟨r, hr⟩ := List.exists_mem_of_ne_nil _ hne
    rw [← hd.1 r hr]; exact (h5.1 r (h3 ▸ hr)).symm
  obtain ⟨a, b, c⟩ := d'
  obtain ⟨a', b', c'⟩ := d
  simp only at h3 e1 e2
  subst h3 e1 e2; rfl

example : (saveH5 (DataSet.mk [[(1 : Int), 2], [3, 4]] ["e", "r"] 2) >>= loadH5) =
    .ok ⟨[[1, 2], [3, 4]], ["e", "r"], 2⟩ := by decide +kernel

/-- C49 is false for long name lists: more than 64 characters are silently cut, so a data set comes back with other
names (here one name of 65 characters). -/
theorem C49_long_names_wrong : ∃ d d' : DataSet Int, d.WF ∧ d.names.length = d.nObs ∧ (saveH5 d >>= loadH5) = .ok d' ∧
    d'.data = d.data ∧ d'.names ≠ d.names := by
  refine ⟨⟨[[1]], [String.ofList (List.replicate 65 'a')], 1⟩, ⟨[[1]], [String.ofList (List.replicate 64 'a')], 1⟩, ?_, ?_, ?_, ?_, ?_⟩ <;>
    decide +kernel

/-- Reading a file of one-value events, whatever its size: chunk `i` holds the events from `i·100000 mod 2^32` on. -/
theorem IO.load_one_column (rows : List (List α)) (hr : ∀ r ∈ rows, r.length = 1) (hbig : 1000000 ≤ rows.length)
    (names : String) :
    ∃ d rest, loadH5 ⟨rows.flatten, names, 1⟩ = .ok d ∧ d.data.length = rows.length ∧
      d.data = ((List.range (rows.length / 100000)).flatMap
        (fun i => (rows.drop ((i * 100000) % 2 ^ 32)).take 100000)) ++ rest := by
  obtain ⟨ns, hns, _⟩ := C48_unpack_all names
  set out0 := (DataSet.empty : DataSet α).setObservableNames ns with hout
  have hfl := flatten_length_const hr
  set Q := rows.length / 100000 with hQ
  have hQle : Q * 100000 ≤ rows.length := Nat.div_mul_le_self _ _
  have hloop := Res.forFold_range (f := fun (o : DataSet α) i => do
      let flat ← readSlab rows.flatten (chunkOffset i 1) ((100000 * 1) % 2 ^ 32)
      let _ ← at_ flat 0
      addEvents 1 100000 flat o) (fun i (o : DataSet α) => o.data = (List.range i).flatMap
        (fun i => (rows.drop ((i * 100000) % 2 ^ 32)).take 100000) ∧ o.data.length = i * 100000 ∧ o.WF ∧
        (o.nObs = 0 ∨ o.nObs = 1)) (n := Q) (s := out0)
        ⟨rfl, by simp [hout, DataSet.empty, DataSet.setObservableNames], DataSet.wf_empty ns, .inl rfl⟩ (by
      rintro i o hi ⟨h1, h2, h3, h4⟩
      have hoff : chunkOffset i 1 = ((i * 100000) % 2 ^ 32) * 1 := by
        unfold chunkOffset; rw [Nat.mul_one, Nat.mod_mod]
      have hle : (i * 100000) % 2 ^ 32 + 100000 ≤ rows.length := by
        have : (i * 100000) % 2 ^ 32 ≤ i * 100000 := Nat.mod_le _ _
        have h5 : i * 100000 + 100000 ≤ rows.length := by
          calc i * 100000 + 100000 = (i + 1) * 100000 := by ring
            _ ≤ Q * 100000 := Nat.mul_le_mul_right _ hi
            _ ≤ rows.length := hQle
        omega
      set blk := (rows.drop ((i * 100000) % 2 ^ 32)).take 100000 with hblk
      have hbl : blk.length = 100000 := by rw [hblk, List.length_take, List.length_drop]; omega
      have hbr : ∀ r ∈ blk, r.length = 1 := fun r h => hr r (List.mem_of_mem_drop (List.mem_of_mem_take h))
      obtain ⟨o', g1, g2, g3, g4, g5⟩ := addEvents_spec 1 (by norm_num) blk hbr [] o h3 h4
      rw [hbl, List.append_nil] at g1
      have hflb : 0 < blk.flatten.length := by
        rw [flatten_length_const hbr, hbl]; norm_num
      have hlen : (100000 * 1) % 2 ^ 32 = 100000 * 1 := by norm_num
      refine ⟨o', ?_, ?_, ?_, g4, g5⟩
      · rw [hoff, hlen, readSlab_rows 1 rows hr _ 100000 hle]
        simp only [Res.ok_bind]
        rw [at_of_lt hflb, Res.ok_bind, g1]
      · rw [g2, h1, List.range_succ, List.flatMap_append]
        simp only [List.flatMap_cons, List.flatMap_nil, List.append_nil]
        rw [hblk]
      · rw [g2, List.length_append, h2, hbl, Nat.add_mul, Nat.one_mul])
  obtain ⟨o, h1, h2, h3, h4, h5⟩ := hloop
  have hload : loadH5 ⟨rows.flatten, names, 1⟩ = loadChunks ⟨rows.flatten, names, 1⟩ rows.length out0 := by
    unfold loadH5
    simp only [hns, Res.ok_bind]
    rw [if_neg (by norm_num), hfl, Nat.mul_one, Nat.div_one, if_neg (by omega)]
  rw [hload]
  unfold loadChunks
  simp only []
  rw [h1, Res.ok_bind]
  have hdm := Nat.div_add_mod rows.length 100000
  by_cases hleft : rows.length % 100000 = 0
  · rw [if_pos hleft]
    exact ⟨o, [], rfl, by omega, by rw [h2, List.append_nil]⟩
  · rw [if_neg hleft]
    set L := rows.length % 100000 with hL
    have hrd := readSlab_rows 1 rows hr (100000 * Q) L (by omega)
    rw [Nat.mul_comm L 1] at hrd
    rw [hrd, Res.ok_bind]
    set blk := (rows.drop (100000 * Q)).take L with hblk
    have hbl : blk.length = L := by rw [hblk, List.length_take, List.length_drop]; omega
    have hbr : ∀ r ∈ blk, r.length = 1 := fun r h => hr r (List.mem_of_mem_drop (List.mem_of_mem_take h))
    obtain ⟨o', g1, g2, g3, g4, g5⟩ := addEvents_spec 1 (by norm_num) blk hbr [] o h4 h5
    rw [hbl, List.append_nil] at g1
    refine ⟨o', blk, g1, ?_, by rw [g2, h2]⟩
    rw [g2, List.length_append, h3, hbl]; omega

/-- C49 is false for very large files: chunk offsets are computed in 32 bits. Whenever a file of one-value events has
more than 4295100000 of them, what is returned as event 4295000000 is event 32704 of the file. -/
theorem C49_large_file_wrong (rows : List (List α)) (hr : ∀ r ∈ rows, r.length = 1) (hbig : 4295100000 ≤ rows.length)
    (names : String) :
    ∃ d, loadH5 ⟨rows.flatten, names, 1⟩ = .ok d ∧ d.data[4295000000]? = rows[32704]? := by
  obtain ⟨d, rest, h1, h2, h3⟩ := load_one_column rows hr (by omega) names
  refine ⟨d, h1, ?_⟩
  have hQ : 42951 ≤ rows.length / 100000 := by
    rw [Nat.le_div_iff_mul_le (by norm_num)]; omega
  obtain ⟨k, hk⟩ : ∃ k, rows.length / 100000 = (42950 + 1) + k := ⟨_, (Nat.add_sub_cancel' hQ).symm⟩
  have hmem : ∀ n, n ≤ 42951 → ((List.range n).flatMap
      (fun i => (rows.drop ((i * 100000) % 2 ^ 32)).take 100000)).length = n * 100000 := by
    intro n hn
    induction n with
    | zero => rfl
    | succ n ih =>
      rw [List.range_succ, List.flatMap_append, List.length_append, ih (by omega)]
      simp only [List.flatMap_cons, List.flatMap_nil, List.append_nil, List.length_take, List.length_drop]
      have : (n * 100000) % 2 ^ 32 ≤ n * 100000 := Nat.mod_le _ _
      omega
  rw [h3, hk, List.range_add, List.flatMap_append, List.range_succ, List.flatMap_append, List.append_assoc,
    List.append_assoc]
  rw [List.getElem?_append_right (by rw [hmem _ (by norm_num)]), hmem _ (by norm_num)]
  simp only [List.flatMap_cons, List.flatMap_nil, List.append_nil]
  rw [List.getElem?_append_left (by
    rw [List.length_take, List.length_drop]
    have : (42950 * 100000) % 2 ^ 32 = 32704 := by norm_num
    omega)]
  rw [List.getElem?_take_of_lt (by norm_num), List.getElem?_drop]
  norm_num

/-- C49 (extensions): the text after the last dot decides: "h5" and "root" are accepted, anything else (or no dot)
throws `IOError`. -/
theorem C49_extension (base ext : String) (h : '.' ∉ ext.toList) :
    getExt (base ++ "." ++ ext) = .ok ext ∧
    (chooseFormat (base ++ "." ++ ext) = if ext = "h5" then .ok .h5 else if ext = "root" then .ok .root else .throw .io) ∧
    ('.' ∉ base.toList → getExt base = .throw .io ∧ chooseFormat base = .throw .io) := by
  have h1 : getExt (base ++ "." ++ ext) = .ok ext := by
    unfold getExt
    rw [if_pos (by simp)]
    congr 1
    have : (base ++ "." ++ ext).toList.reverse = ext.toList.reverse ++ ('.' :: base.toList.reverse) := by simp
    rw [this, List.takeWhile_append_of_pos]
    · simp
    · intro c hc
      simp only [List.mem_reverse] at hc
      simp only [decide_eq_true_eq]
      rintro rfl; exact h hc
  refine ⟨h1, ?_, ?_⟩
  · unfold chooseFormat
    rw [h1, Res.ok_bind]
    rfl
  · intro hb
    have : getExt base = .throw .io := by unfold getExt; rw [if_neg hb]
    exact ⟨this, by unfold chooseFormat; rw [this]; rfl⟩

example : getExt "a.b/file.h5" = .ok "h5" := by decide +kernel

end Oxsx
