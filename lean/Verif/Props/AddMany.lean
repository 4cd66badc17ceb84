import Verif.Props.Refused
/-
C94: a call that adds many things does what adding them one by one does, with the same object left behind when one of them is
refused.
-/
set_option linter.unusedSectionVars false
set_option linter.unusedSimpArgs false
set_option linter.unusedVariables false
namespace Oxsx
open AxisCollection NLLH SysManager
variable {σ α : Type} [Field α] [LinearOrder α] [IsStrictOrderedRing α]

/-- The arguments of one `AddPdf`. -/
structure PdfArgs (α : Type) where
  pdf : BinnedED α
  groups : Option (List String)
  rate : Option Int
  status : NormStatus

/-- One `AddPdf` after the other, until one is refused. -/
def NLLH.oneByOne (name : Nat → String) (L : NLLH σ α) (calls : List (PdfArgs α)) : NLLH σ α × Res Unit :=
  Res.forLeft (fun L c => NLLH.addPdfLeft name L c.pdf c.groups c.rate c.status) L calls

/-- The `i`-th distribution with the `i`-th element of each of the other lists given; a status not given is `INDIRECT`. -/
def pdfArgs (pdfs : List (BinnedED α)) (syss : Option (List (List String))) (rates : Option (List Int))
    (sts : Option (List NormStatus)) : List (PdfArgs α) :=
  pdfs.zipIdx.map (fun p => ⟨p.1, syss.bind (·[p.2]?), rates.bind (·[p.2]?), (sts.bind (·[p.2]?)).getD .indirect⟩)

theorem argAt_of_lt {β : Type} {l : Option (List β)} {i : Nat} (h : ∀ x, l = some x → i < x.length) :
    NLLH.argAt l i = .ok (l.bind (·[i]?)) := by
  cases l with
  | none => rfl
  | some l =>
    have := h l rfl
    simp only [NLLH.argAt, at_of_lt this, Res.ok_bind, Option.bind_some, List.getElem?_eq_getElem this]
    rfl

theorem argAt_beyond {β : Type} {l : List β} {i : Nat} (h : l.length ≤ i) : NLLH.argAt (some l) i = .throw .outOfRange := by
  simp [NLLH.argAt, at_, List.getElem?_eq_none h]

/-- The loop of `AddPdfs` up to an index all of whose arguments exist. -/
theorem addPdfs_loop (name : Nat → String) (L : NLLH σ α) (pdfs : List (BinnedED α)) (syss : Option (List (List String)))
    (rates : Option (List Int)) (sts : Option (List NormStatus)) (n : Nat) (hp : n ≤ pdfs.length)
    (hs : ∀ x, syss = some x → n ≤ x.length) (hr : ∀ x, rates = some x → n ≤ x.length) (ht : ∀ x, sts = some x → n ≤ x.length) :
    Res.forLeft (NLLH.addPdfsStep name pdfs syss rates sts) L (List.range n) = L.oneByOne name ((pdfArgs pdfs syss rates sts).take n) := by
  have htake : (pdfArgs pdfs syss rates sts).take n = (List.range n).map (fun i =>
      (⟨pdfs.getD i ⟨"", .empty, ⟨[], []⟩⟩, syss.bind (·[i]?), rates.bind (·[i]?), (sts.bind (·[i]?)).getD .indirect⟩ : PdfArgs α)) := by
    apply List.ext_getElem?
    intro i
    by_cases hi : i < n
    · have hi' : i < pdfs.length := by omega
      simp [pdfArgs, hi, hi', List.getElem?_take, List.getD]
    · rw [List.getElem?_eq_none (by simp [pdfArgs]; omega), List.getElem?_eq_none (by simp; omega)]
  rw [htake]
  unfold NLLH.oneByOne
  rw [Res.forLeft_map]
  apply Res.forLeft_congr
  intro L i hi
  have hi : i < n := by simpa using hi
  unfold NLLH.addPdfsStep
  rw [at_of_lt (show i < pdfs.length by omega), argAt_of_lt (fun x hx => by have := hs x hx; omega),
    argAt_of_lt (fun x hx => by have := hr x hx; omega), argAt_of_lt (fun x hx => by have := ht x hx; omega)]
  simp only [Res.ok_bind, Res.pure_eq, List.getD, List.getElem?_eq_getElem (show i < pdfs.length by omega), Option.getD_some]

/-- **C94** (distributions): `AddPdfs` with lists of equal lengths is `AddPdf` of one distribution after the other, with the groups,
generated rate and status at the same place in the lists; when one is refused both leave the same likelihood behind. -/
theorem C94_addPdfs (name : Nat → String) (L : NLLH σ α) (pdfs : List (BinnedED α)) (syss : Option (List (List String)))
    (rates : Option (List Int)) (sts : Option (List NormStatus)) (hs : ∀ x, syss = some x → x.length = pdfs.length)
    (hr : ∀ x, rates = some x → x.length = pdfs.length) (ht : ∀ x, sts = some x → x.length = pdfs.length)
    (hbb : rates = none → L.useBB = false) :
    L.addPdfs name pdfs syss rates sts = L.oneByOne name (pdfArgs pdfs syss rates sts) := by
  unfold NLLH.addPdfs
  rw [if_neg (by rintro ⟨h1, h2⟩; rw [hbb h1] at h2; cases h2), if_neg (by rintro ⟨s, h1, h2⟩; exact h2 (hs s h1).symm),
    if_neg (by rintro ⟨_, s, h1, h2⟩; exact h2 (ht s h1).symm)]
  rw [addPdfs_loop name L pdfs syss rates sts pdfs.length le_rfl (fun x hx => (hs x hx).ge) (fun x hx => (hr x hx).ge) (fun x hx => (ht x hx).ge),
    List.take_of_length_le (by simp [pdfArgs])]

/-- **C94** (refusals): without generated rates a likelihood in Barlow-Beeston mode refuses the lists; lists of groups of another
length, and of statuses of another length except when both groups and rates are given, are refused; in each case nothing is added. -/
theorem C94_refused (name : Nat → String) (L : NLLH σ α) (pdfs : List (BinnedED α)) (syss : Option (List (List String)))
    (rates : Option (List Int)) (sts : Option (List NormStatus)) :
    (rates = none → L.useBB = true → L.addPdfs name pdfs syss rates sts = (L, .throw .oxsx)) ∧
    ((rates = none → L.useBB = false) → (∃ x, syss = some x ∧ x.length ≠ pdfs.length) →
      L.addPdfs name pdfs syss rates sts = (L, .throw .dimension)) ∧
    ((rates = none → L.useBB = false) → ¬ (syss.isSome = true ∧ rates.isSome = true) → (∃ x, sts = some x ∧ x.length ≠ pdfs.length) →
      L.addPdfs name pdfs syss rates sts = (L, .throw .dimension)) := by
  unfold NLLH.addPdfs
  refine ⟨?_, ?_, ?_⟩
  · intro h1 h2; rw [if_pos ⟨h1, h2⟩]
  · rintro hbb ⟨x, hx, hl⟩
    rw [if_neg (by rintro ⟨h1, h2⟩; rw [hbb h1] at h2; cases h2), if_pos ⟨x, hx, fun h => hl h.symm⟩]
  · rintro hbb hno ⟨x, hx, hl⟩
    rw [if_neg (by rintro ⟨h1, h2⟩; rw [hbb h1] at h2; cases h2)]
    by_cases hq : ∃ s, syss = some s ∧ pdfs.length ≠ s.length
    · rw [if_pos hq]
    · rw [if_neg hq, if_pos ⟨hno, x, hx, fun h => hl h.symm⟩]

/-- C94 fails for generated rates, whose number is not checked: with too few of them, the distributions that have one are added and
then the call throws; with too many, the rest of them is ignored. -/
theorem C94_rates_wrong (name : Nat → String) (L : NLLH σ α) (pdfs : List (BinnedED α)) (syss : Option (List (List String)))
    (rs : List Int) (sts : Option (List NormStatus)) (hs : ∀ x, syss = some x → x.length = pdfs.length)
    (ht : ∀ x, sts = some x → x.length = pdfs.length) :
    (∀ L', rs.length < pdfs.length → L.oneByOne name ((pdfArgs pdfs syss (some rs) sts).take rs.length) = (L', .ok ()) →
      L.addPdfs name pdfs syss (some rs) sts = (L', .throw .outOfRange)) ∧
    (pdfs.length ≤ rs.length → L.addPdfs name pdfs syss (some rs) sts = L.addPdfs name pdfs syss (some (rs.take pdfs.length)) sts) := by
  constructor
  · intro L' hlt hone
    unfold NLLH.addPdfs
    rw [if_neg (by rintro ⟨h1, h2⟩; cases h1), if_neg (by rintro ⟨s, h1, h2⟩; exact h2 (hs s h1).symm),
      if_neg (by rintro ⟨_, s, h1, h2⟩; exact h2 (ht s h1).symm)]
    obtain ⟨k, hk⟩ : ∃ k, pdfs.length = rs.length + (k + 1) := ⟨pdfs.length - rs.length - 1, by omega⟩
    rw [← addPdfs_loop name L pdfs syss (some rs) sts rs.length (by omega) (fun x hx => by rw [hs x hx]; omega)
      (fun x hx => by cases hx; exact le_rfl) (fun x hx => by rw [ht x hx]; omega)] at hone
    rw [hk, List.range_add, Res.forLeft_append hone, List.range_succ_eq_map, List.map_cons, Res.forLeft_cons_throw]
    unfold NLLH.addPdfsStep
    rw [at_of_lt (show rs.length + 0 < pdfs.length by omega), argAt_of_lt (fun x hx => by rw [hs x hx]; omega), argAt_beyond (by omega)]
    rfl
  · intro hle
    have h2 : L.addPdfs name pdfs syss (some rs) sts = L.oneByOne name (pdfArgs pdfs syss (some rs) sts) := by
      unfold NLLH.addPdfs
      rw [if_neg (by rintro ⟨h1, h2⟩; cases h1), if_neg (by rintro ⟨s, h1, h2⟩; exact h2 (hs s h1).symm),
        if_neg (by rintro ⟨_, s, h1, h2⟩; exact h2 (ht s h1).symm)]
      rw [addPdfs_loop name L pdfs syss (some rs) sts pdfs.length le_rfl (fun x hx => (hs x hx).ge) (fun x hx => by cases hx; exact hle) (fun x hx => (ht x hx).ge),
        List.take_of_length_le (by simp [pdfArgs])]
    rw [h2, C94_addPdfs name L pdfs syss (some (rs.take pdfs.length)) sts hs (by intro x hx; cases hx; simp [hle]) ht (by intro h; cases h)]
    congr 1
    unfold pdfArgs
    apply List.map_congr_left
    rintro ⟨p, i⟩ hp
    have : i < pdfs.length := by
      have := List.mem_zipIdx hp
      simp at this; omega
    simp [List.getElem?_take, this]

/-- C94 fails for the statuses when groups and rates are given, whose number is then not checked: with too few of them, the
distributions that have one are added and then the call throws. -/
theorem C94_status_wrong (name : Nat → String) (L L' : NLLH σ α) (pdfs : List (BinnedED α)) (syss : List (List String))
    (rs : List Int) (sts : List NormStatus) (hs : syss.length = pdfs.length) (hr : rs.length = pdfs.length) (hlt : sts.length < pdfs.length)
    (hone : L.oneByOne name ((pdfArgs pdfs (some syss) (some rs) (some sts)).take sts.length) = (L', .ok ())) :
    L.addPdfs name pdfs (some syss) (some rs) (some sts) = (L', .throw .outOfRange) := by
  unfold NLLH.addPdfs
  rw [if_neg (by rintro ⟨h1, h2⟩; cases h1), if_neg (by rintro ⟨s, h1, h2⟩; cases h1; exact h2 hs.symm),
    if_neg (by rintro ⟨h, _⟩; exact h ⟨rfl, rfl⟩)]
  obtain ⟨k, hk⟩ : ∃ k, pdfs.length = sts.length + (k + 1) := ⟨pdfs.length - sts.length - 1, by omega⟩
  rw [← addPdfs_loop name L pdfs (some syss) (some rs) (some sts) sts.length (by omega) (fun x hx => by cases hx; omega)
    (fun x hx => by cases hx; omega) (fun x hx => by cases hx; exact le_rfl)] at hone
  rw [hk, List.range_add, Res.forLeft_append hone, List.range_succ_eq_map, List.map_cons, Res.forLeft_cons_throw]
  unfold NLLH.addPdfsStep
  rw [at_of_lt (show sts.length + 0 < pdfs.length by omega), argAt_of_lt (fun x hx => by cases hx; omega),
    argAt_of_lt (fun x hx => by cases hx; omega), argAt_beyond (by omega)]
  rfl

theorem addPdf_inv {name : Nat → String} {L L' : NLLH σ α} {c : PdfArgs α} (hm : ∃ log, PdfManager.Inv log L.pdfs)
    (h : L.addPdf name c.pdf c.groups c.rate c.status = .ok L') : ∃ log, PdfManager.Inv log L'.pdfs := by
  obtain ⟨log, hi⟩ := hm
  obtain ⟨m', hm', hi'⟩ := PdfManager.addPdf_succeeds hi c.pdf c.status
  unfold NLLH.addPdf at h
  obtain ⟨_, _, h⟩ := Res.bind_eq_ok.1 h
  obtain ⟨m, hm, h⟩ := Res.bind_eq_ok.1 h
  obtain ⟨s, hs, h⟩ := Res.bind_eq_ok.1 h
  cases h
  rw [hm'] at hm; cases hm
  exact ⟨_, hi'⟩

/-- **C94** (what is added): the lists are accepted exactly when every single call is, and then the likelihood is the one those
calls make; it is again one made by public calls, to which the other properties apply. -/
theorem C94_accepted {name : Nat → String} {C : FitSys σ α} {M : CMath α} {L : NLLH σ α} (h : NLLH.Reached name C M L) (calls : List (PdfArgs α))
    (L' : NLLH σ α) :
    (L.oneByOne name calls = (L', .ok ()) ↔
      Res.forFold (fun (L : NLLH σ α) c => L.addPdf name c.pdf c.groups c.rate c.status) L calls = .ok L') ∧
    (L.oneByOne name calls = (L', .ok ()) → NLLH.Reached name C M L') := by
  have key : ∀ (calls : List (PdfArgs α)) (L : NLLH σ α), NLLH.Reached name C M L →
    (L.oneByOne name calls = (L', .ok ()) ↔
      Res.forFold (fun (L : NLLH σ α) c => L.addPdf name c.pdf c.groups c.rate c.status) L calls = .ok L') ∧
    (L.oneByOne name calls = (L', .ok ()) → NLLH.Reached name C M L') := by
    intro calls
    induction calls with
    | nil =>
      intro L h
      simp only [NLLH.oneByOne, Res.forLeft, Res.forFold, Prod.mk.injEq, and_true, Res.pure_eq, Res.ok.injEq]
      exact ⟨trivial, fun e => e ▸ h⟩
    | cons c cs ih =>
      intro L h
      obtain ⟨log, hb⟩ := (NLLH.inv_of_reached h).built
      have hm : ∃ log, PdfManager.Inv log L.pdfs := ⟨log, PdfManager.inv_of_built hb⟩
      have hstep := fun L1 => NLLH.addPdfLeft_ok (name := name) (L := L) (L' := L1) hm c.pdf c.groups c.rate c.status
      cases hq : L.addPdf name c.pdf c.groups c.rate c.status with
      | ok L1 =>
        have h1 := (hstep L1).2 hq
        have := ih L1 (h.addPdf _ _ _ _ hq)
        unfold NLLH.oneByOne at this ⊢
        rw [Res.forLeft_cons_ok (f := fun (L : NLLH σ α) (c : PdfArgs α) => NLLH.addPdfLeft name L c.pdf c.groups c.rate c.status) h1,
          Res.forFold_cons_ok (f := fun (L : NLLH σ α) (c : PdfArgs α) => L.addPdf name c.pdf c.groups c.rate c.status) hq]
        exact this
      | throw e =>
        have hno : ∀ L1, L.oneByOne name (c :: cs) ≠ (L1, .ok ()) := by
          intro L1 h1
          unfold NLLH.oneByOne Res.forLeft at h1
          cases hg : NLLH.addPdfLeft name L c.pdf c.groups c.rate c.status with
          | mk a b =>
            cases b with
            | ok u => exact absurd ((hstep a).1 hg) (by rw [hq]; simp)
            | throw e => simp [hg] at h1
            | ub => simp [hg] at h1
        refine ⟨⟨fun h1 => absurd h1 (hno _), fun h1 => ?_⟩, fun h1 => absurd h1 (hno _)⟩
        simp [Res.forFold, hq] at h1
      | ub =>
        have hno : ∀ L1, L.oneByOne name (c :: cs) ≠ (L1, .ok ()) := by
          intro L1 h1
          unfold NLLH.oneByOne Res.forLeft at h1
          cases hg : NLLH.addPdfLeft name L c.pdf c.groups c.rate c.status with
          | mk a b =>
            cases b with
            | ok u => exact absurd ((hstep a).1 hg) (by rw [hq]; simp)
            | throw e => simp [hg] at h1
            | ub => simp [hg] at h1
        refine ⟨⟨fun h1 => absurd h1 (hno _), fun h1 => ?_⟩, fun h1 => absurd h1 (hno _)⟩
        simp [Res.forFold, hq] at h1
  exact key calls L h

/-- **C94** (splitting): two accepted lists are one. -/
theorem C94_append (name : Nat → String) (L L' : NLLH σ α) (xs ys : List (PdfArgs α)) (h : L.oneByOne name xs = (L', .ok ())) :
    L.oneByOne name (xs ++ ys) = L'.oneByOne name ys := Res.forLeft_append h

/-- One `AddSystematic` after the other, until one is refused. -/
def NLLH.systematicsOneByOne (name : Nat → String) (L : NLLH σ α) (calls : List (Nat × Option String)) : NLLH σ α × Res Unit :=
  Res.forLeft (fun (L : NLLH σ α) c => Res.keep L (L.addSystematic name c.1 c.2)) L calls

/-- **C94** (systematics): `AddSystematics` is `AddSystematic` of one after the other, each in the group at the same place; lists of
different lengths are refused and nothing is added. -/
theorem C94_systematics (name : Nat → String) (L : NLLH σ α) (ps : List Nat) (gs : List String) :
    L.addSystematics name ps none = L.systematicsOneByOne name (ps.map (·, none)) ∧
    (gs.length ≠ ps.length → L.addSystematics name ps (some gs) = (L, .throw .dimension)) ∧
    (gs.length = ps.length → L.addSystematics name ps (some gs) = L.systematicsOneByOne name (List.zip ps (gs.map some))) ∧
    (∀ (L' : NLLH σ α) (calls : List (Nat × Option String)) (e : Exc), L.systematicsOneByOne name calls = (L', .throw e) →
      ∃ k, k < calls.length ∧ L.systematicsOneByOne name (calls.take k) = (L', .ok ())) := by
  refine ⟨?_, ?_, ?_, ?_⟩
  · unfold NLLH.addSystematics NLLH.systematicsOneByOne
    rw [Res.forLeft_map]; rfl
  · intro h; unfold NLLH.addSystematics; simp only [if_pos h]
  · intro h
    unfold NLLH.addSystematics NLLH.systematicsOneByOne
    simp only [h, ne_eq, not_true_eq_false, if_false]
    have : List.zip ps (gs.map some) = (List.range ps.length).map (fun i => (ps.getD i 0, some (gs.getD i ""))) := by
      apply List.ext_getElem
      · simp [h]
      · intro i h1 h2
        simp at h1 h2
        simp [List.getD, h1, h2]
    rw [this, Res.forLeft_map]
    apply Res.forLeft_congr
    intro L i hi
    have hi : i < ps.length := by simpa using hi
    simp only [at_of_lt hi, at_of_lt (show i < gs.length by omega), Res.ok_bind, Res.pure_eq, List.getD,
      List.getElem?_eq_getElem hi, List.getElem?_eq_getElem (show i < gs.length by omega), Option.getD_some]
    rfl
  · intro L' calls e h
    obtain ⟨pre, x, post, s1, hl, h1, h2⟩ := Res.forLeft_stop h
    obtain ⟨_, rfl⟩ := Res.keep_throw.1 h2
    exact ⟨pre.length, by rw [hl]; simp, by rw [hl]; simp only [List.take_left]; exact h1⟩

/-- **C94** (a manager of binned distributions): `AddPdfs` of any manager made by public calls is accepted when the statuses, if given,
are as many as the distributions, and gives the manager that `AddPdf` of each, in order, gives; otherwise it is refused and
nothing is added. -/
theorem C94_manager {log : List (BinnedED α × NormStatus)} {m : PdfManager α} (h : PdfManager.Built log m) (pdfs : List (BinnedED α))
    (sts : Option (List NormStatus)) :
    ((∃ x, sts = some x ∧ x.length ≠ pdfs.length) → m.addPdfsLeft pdfs sts = (m, .throw .dimension)) ∧
    ((∀ x, sts = some x → x.length = pdfs.length) →
      ∃ m', m.addPdfsLeft pdfs sts = (m', .ok ()) ∧
        Res.forFold (fun (m : PdfManager α) (p : BinnedED α × NormStatus) => m.addPdf p.1 p.2) m
          (List.zip pdfs (sts.getD (List.replicate pdfs.length .indirect))) = .ok m' ∧
        PdfManager.Built (log ++ List.zip pdfs (sts.getD (List.replicate pdfs.length .indirect))) m') := by
  constructor
  · rintro ⟨x, hx, hl⟩
    unfold PdfManager.addPdfsLeft
    rw [if_pos ⟨x, hx, fun h => hl h.symm⟩]
  · intro hlen
    generalize hz : List.zip pdfs (sts.getD (List.replicate pdfs.length .indirect)) = zs
    have hzs : zs = (List.range pdfs.length).map (fun i => (pdfs.getD i ⟨"", .empty, ⟨[], []⟩⟩, (sts.bind (·[i]?)).getD .indirect)) := by
      rw [← hz]
      apply List.ext_getElem
      · cases sts with
        | none => simp
        | some x => simp [hlen x rfl]
      · intro i h1 h2
        simp at h1 h2
        cases sts with
        | none =>
          have h3 : i < pdfs.length := by simpa using h2
          simp [List.getD, h3]
        | some x =>
          have := hlen x rfl
          have h3 : i < pdfs.length := by simpa using h2
          simp [List.getD, h3, show i < x.length by omega]
    have loop : ∀ (zs : List (BinnedED α × NormStatus)) (log : List (BinnedED α × NormStatus)) (m : PdfManager α), PdfManager.Built log m →
        ∃ m', Res.forLeft (fun (m : PdfManager α) (p : BinnedED α × NormStatus) => m.addPdfLeft p.1 p.2) m zs = (m', .ok ()) ∧
          Res.forFold (fun (m : PdfManager α) (p : BinnedED α × NormStatus) => m.addPdf p.1 p.2) m zs = .ok m' ∧ PdfManager.Built (log ++ zs) m' := by
      intro zs
      induction zs with
      | nil => intro log m h; exact ⟨m, rfl, rfl, by simpa using h⟩
      | cons z zs ih =>
        intro log m h
        obtain ⟨m1, h1, _⟩ := PdfManager.addPdf_succeeds (PdfManager.inv_of_built h) z.1 z.2
        obtain ⟨m', h2, h3, h4⟩ := ih _ _ (h.addPdf z.1 z.2 h1)
        refine ⟨m', ?_, ?_, by simpa using h4⟩
        · rw [Res.forLeft_cons_ok (f := fun (m : PdfManager α) (p : BinnedED α × NormStatus) => m.addPdfLeft p.1 p.2) (PdfManager.addPdfLeft_ok h1)]
          exact h2
        · rw [Res.forFold_cons_ok (f := fun (m : PdfManager α) (p : BinnedED α × NormStatus) => m.addPdf p.1 p.2) h1]
          exact h3
    obtain ⟨m', h2, h3, h4⟩ := loop zs log m h
    refine ⟨m', ?_, h3, h4⟩
    have hi := PdfManager.inv_of_built h4
    have hreg : m'.registerParametersLeft = (m', .ok ()) := by
      have := PdfManager.register_ok hi.orig hi.status hi.norms hi.fit hi.alld
      rw [← hi.params] at this
      exact PdfManager.registerLeft_ok this
    unfold PdfManager.addPdfsLeft
    rw [if_neg (by rintro ⟨s, h1, h2⟩; exact h2 (hlen s h1).symm)]
    have hl : Res.forLeft (PdfManager.addPdfsStep pdfs sts) m (List.range pdfs.length) = (m', .ok ()) := by
      rw [← h2, hzs, Res.forLeft_map]
      apply Res.forLeft_congr
      intro m i hi
      have hi : i < pdfs.length := by simpa using hi
      unfold PdfManager.addPdfsStep
      cases sts with
      | none => simp [at_of_lt hi, List.getD, hi]
      | some x =>
        have hx : i < x.length := by have := hlen x rfl; omega
        simp [at_of_lt hi, at_of_lt hx, List.getD, hi, hx]
    rw [hl]
    exact hreg

/-! ### Examples -/

/-- Two distributions without groups, given together to a new likelihood. -/
example (a b : BinnedED ℚ) (M : CMath ℚ) : ∃ L', (NLLH.new (fun p => (p, (1 : ℚ))) : NLLH (Nat × ℚ) ℚ).addPdfs exSysName [a, b] none none (some [.direct, .indirect]) = (L', .ok ()) ∧
    L'.pdfs.orig = [a, b] ∧ L'.pdfs.status = [.direct, .indirect] := ⟨_, rfl, rfl, rfl⟩

/-- One generated rate for two distributions: the first is added, then the call throws. -/
example (a b : BinnedED ℚ) : ∃ L', (NLLH.new (fun p => (p, (1 : ℚ))) : NLLH (Nat × ℚ) ℚ).addPdfs exSysName [a, b] none (some [10]) none = (L', .throw .outOfRange) ∧
    L'.pdfs.orig = [a] ∧ L'.genRates.length = 1 := ⟨_, rfl, rfl, rfl⟩

/-- Systematics 0 in group "g" and 1 in no group. -/
example : ∃ L', (NLLH.new (fun p => (p, (1 : ℚ))) : NLLH (Nat × ℚ) ℚ).addSystematics exSysName [0, 1] (some ["g", ""]) = (L', .ok ()) ∧
    SMap.find L'.sys.groups "g" = some [0] ∧ SMap.find L'.sys.groups "" = some [1] := by
  refine ⟨_, rfl, ?_, ?_⟩ <;> decide +kernel

end Oxsx
