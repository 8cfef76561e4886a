import Verif.Lemmas.Header
import Verif.Lemmas.SchemaLayout
/-
C11, C12, C19: header text fields, variable record bookkeeping, header equality.
-/
namespace LibLAS
open Spec

/-- C11, VLR user id: accepted up to 16 characters, read back up to the first NUL, padded to exactly 16; nothing else
changes. Longer text throws and changes nothing. -/
theorem vlr_user_id (v : VLR) (t : List Byte) :
    (t.length ≤ 16 → (v.setUserId t).2 = .ok () ∧ (v.setUserId t).1.getUserId false = untilNul t ∧
      ((v.setUserId t).1.getUserId true).length = 16 ∧
      untilNul ((v.setUserId t).1.getUserId true) = untilNul t ∧
      (v.setUserId t).1 = { v with userId := (v.setUserId t).1.userId } ∧ (v.setUserId t).1.userId.length = 16) ∧
    (16 < t.length → v.setUserId t = (v, .throw .invalidArgument)) := by
  unfold VLR.setUserId VLR.getUserId
  constructor
  · intro h
    rw [if_neg (by omega)]
    have hl := padTo_length h
    refine ⟨rfl, ?_, ?_, ?_, rfl, hl⟩
    · simp [cstr_padTo, ← cstr_eq]
    · exact padded_length hl
    · show untilNul (padded 16 (padTo 16 t)) = _
      rw [padded_eq hl, cstr_padTo, ← cstr_eq, cstr_padTo, cstr_cstr, cstr_eq]
  · intro h
    rw [if_pos h]

/-- C11, VLR description, 32 characters. -/
theorem vlr_description (v : VLR) (t : List Byte) :
    (t.length ≤ 32 → (v.setDescription t).2 = .ok () ∧ (v.setDescription t).1.getDescription false = untilNul t ∧
      ((v.setDescription t).1.getDescription true).length = 32 ∧
      untilNul ((v.setDescription t).1.getDescription true) = untilNul t ∧
      (v.setDescription t).1 = { v with description := (v.setDescription t).1.description } ∧
      (v.setDescription t).1.description.length = 32) ∧
    (32 < t.length → v.setDescription t = (v, .throw .invalidArgument)) := by
  unfold VLR.setDescription VLR.getDescription
  constructor
  · intro h
    rw [if_neg (by omega)]
    have hl := padTo_length h
    refine ⟨rfl, ?_, ?_, ?_, rfl, hl⟩
    · simp [cstr_padTo, ← cstr_eq]
    · exact padded_length hl
    · show untilNul (padded 32 (padTo 32 t)) = _
      rw [padded_eq hl, cstr_padTo, ← cstr_eq, cstr_padTo, cstr_cstr, cstr_eq]
  · intro h
    rw [if_pos h]

private theorem field32 {t : List Byte} (h : t.length ≤ 32) :
    (padTo 32 ((cstr t).take 32)).length = 32 ∧ cstr (padTo 32 ((cstr t).take 32)) = untilNul t := by
  have h1 := cstr_length_le t
  have h2 : (cstr t).take 32 = cstr t := List.take_of_length_le (by omega)
  rw [h2]
  exact ⟨padTo_length (by omega), by rw [cstr_padTo, cstr_cstr, cstr_eq]⟩

/-- C11, header system id, 32 characters. -/
theorem header_system_id (h : Header) (t : List Byte) :
    (t.length ≤ 32 → (h.setSystemId t).2 = .ok () ∧ (h.setSystemId t).1.getSystemId false = untilNul t ∧
      ((h.setSystemId t).1.getSystemId true).length = 32 ∧
      untilNul ((h.setSystemId t).1.getSystemId true) = untilNul t ∧
      (h.setSystemId t).1 = { h with systemId := (h.setSystemId t).1.systemId } ∧
      (h.setSystemId t).1.systemId.length = 32) ∧
    (32 < t.length → h.setSystemId t = (h, .throw .invalidArgument)) := by
  unfold Header.setSystemId Header.getSystemId
  constructor
  · intro hl
    rw [if_neg (by omega)]
    obtain ⟨h1, h2⟩ := field32 hl
    refine ⟨rfl, ?_, ?_, ?_, rfl, h1⟩
    · simp [h2]
    · exact padded_length h1
    · show untilNul (padded 32 (padTo 32 ((cstr t).take 32))) = _
      rw [padded_eq h1, h2, ← cstr_eq, ← cstr_eq, cstr_padTo, cstr_cstr]
  · intro hl
    rw [if_pos hl]

/-- C11, header software id, 32 characters. -/
theorem header_software_id (h : Header) (t : List Byte) :
    (t.length ≤ 32 → (h.setSoftwareId t).2 = .ok () ∧ (h.setSoftwareId t).1.getSoftwareId false = untilNul t ∧
      ((h.setSoftwareId t).1.getSoftwareId true).length = 32 ∧
      untilNul ((h.setSoftwareId t).1.getSoftwareId true) = untilNul t ∧
      (h.setSoftwareId t).1 = { h with softwareId := (h.setSoftwareId t).1.softwareId } ∧
      (h.setSoftwareId t).1.softwareId.length = 32) ∧
    (32 < t.length → h.setSoftwareId t = (h, .throw .invalidArgument)) := by
  unfold Header.setSoftwareId Header.getSoftwareId
  constructor
  · intro hl
    rw [if_neg (by omega)]
    obtain ⟨h1, h2⟩ := field32 hl
    refine ⟨rfl, ?_, ?_, ?_, rfl, h1⟩
    · simp [h2]
    · exact padded_length h1
    · show untilNul (padded 32 (padTo 32 ((cstr t).take 32))) = _
      rw [padded_eq h1, h2, ← cstr_eq, ← cstr_eq, cstr_padTo, cstr_cstr]
  · intro hl
    rw [if_pos hl]

/-- The theorems apply to a text with an embedded NUL and to one of full width. -/
example : (VLR.new.setUserId (lit "abc" ++ [0] ++ lit "def")).1.getUserId false = lit "abc" ∧
    (VLR.new.setUserId (lit "LASF_Projection!")).1.getUserId false = lit "LASF_Projection!" := by decide +kernel

/-- C11: the file signature and version are validated; a rejected value changes nothing. -/
theorem header_signature_version (h : Header) (t : List Byte) (v : BitVec 8) :
    (t.take 4 = lit "LASF" → (h.setFileSignature t).2 = .ok () ∧
      (h.setFileSignature t).1 = { h with signature := lit "LASF" }) ∧
    (t.take 4 ≠ lit "LASF" → h.setFileSignature t = (h, .throw .invalidArgument)) ∧
    h.setVersionMajor v = (if v = 1 then ({ h with verMajor := v }, .ok ()) else (h, .throw .outOfRange)) ∧
    h.setVersionMinor v = (if v.toNat ≤ 3 then ({ h with verMinor := v }, .ok ()) else (h, .throw .outOfRange)) := by
  refine ⟨?_, ?_, ?_, ?_⟩
  · intro ht
    unfold Header.setFileSignature
    rw [if_neg (by simpa using ht), ht]
    exact ⟨rfl, by simp only; congr 1⟩
  · intro ht
    unfold Header.setFileSignature
    rw [if_pos ht]
  · unfold Header.setVersionMajor
    by_cases hv : v = 1
    · subst hv; rfl
    · have : ¬ v.toNat = 1 := fun hh => hv (BitVec.eq_of_toNat_eq (by simpa using hh))
      rw [if_pos (by omega), if_neg hv]
  · unfold Header.setVersionMinor
    by_cases hv : v.toNat ≤ 3
    · rw [if_neg (by omega), if_pos hv]
    · rw [if_pos (by omega), if_neg hv]

/-- One edit of the record list; the header after it and the outcome. -/
def Header.vlrEdit (h : Header) : VlrOp → Header × Outcome Unit
  | .add v => (h.addVLR v, .ok ())
  | .deleteAt i => h.deleteVLR i
  | .deleteBy name id => (h.deleteVLRs name id, .ok ())

/-- The header after a sequence of edits (exceptions are caught). -/
def Header.vlrRun (h : Header) (ops : List VlrOp) : Header := ops.foldl (fun h op => (h.vlrEdit op).1) h

/-- C12, one step: a deletion at a non-existent index throws and changes nothing; otherwise the list changes as
specified; no other field changes. -/
theorem vlr_edit_step (h : Header) (op : VlrOp) :
    (h.vlrEdit op).1 = { h with vlrs := (h.vlrEdit op).1.vlrs, recordsCount := (h.vlrEdit op).1.recordsCount } ∧
    (h.vlrEdit op).1.vlrs = vlrStep h.vlrs op ∧
    (∀ i, op = .deleteAt i → h.vlrs.length ≤ i.toNat → h.vlrEdit op = (h, .throw .outOfRange)) ∧
    ((∀ i, op = .deleteAt i → i.toNat < h.vlrs.length) → (h.vlrEdit op).2 = .ok ()) := by
  cases op with
  | add v =>
    exact ⟨rfl, rfl, fun i hi => VlrOp.noConfusion hi, fun _ => rfl⟩
  | deleteAt i =>
    unfold Header.vlrEdit Header.deleteVLR vlrStep
    dsimp only
    by_cases hi : i.toNat ≥ h.vlrs.length
    · rw [if_pos hi]
      refine ⟨rfl, ?_, fun _ _ _ => rfl, fun hh => absurd (hh i rfl) (by omega)⟩
      rw [List.take_of_length_le hi, List.drop_of_length_le (by omega), List.append_nil]
    · rw [if_neg hi]
      refine ⟨rfl, List.eraseIdx_eq_take_drop_succ _ _, ?_, fun _ => rfl⟩
      intro j hj hl
      cases hj
      omega
  | deleteBy name id =>
    refine ⟨rfl, ?_, fun i hi => VlrOp.noConfusion hi, fun _ => rfl⟩
    unfold Header.vlrEdit Header.deleteVLRs vlrStep VLR.same VLR.getUserId userIdOf
    simp only [Bool.false_and, Bool.false_eq_true, if_false, cstr_eq]
    apply List.filter_congr
    intro v _
    simp only [beq_eq_decide]

/-- C12: after any sequence of edits the records are those of the specification and the advertised count is their
number (modulo the 32-bit counter). -/
theorem vlr_bookkeeping (h : Header) (h0 : h.recordsCount = BitVec.ofNat 32 h.vlrs.length) (ops : List VlrOp) :
    (h.vlrRun ops).vlrs = ops.foldl vlrStep h.vlrs ∧
    (h.vlrRun ops).recordsCount = BitVec.ofNat 32 (h.vlrRun ops).vlrs.length ∧
    h.vlrRun ops = { h with vlrs := (h.vlrRun ops).vlrs, recordsCount := (h.vlrRun ops).recordsCount } := by
  induction ops generalizing h with
  | nil => exact ⟨rfl, h0, rfl⟩
  | cons op ops ih =>
    obtain ⟨h1, h2, -, -⟩ := vlr_edit_step h op
    have hc : (h.vlrEdit op).1.recordsCount = BitVec.ofNat 32 (h.vlrEdit op).1.vlrs.length := by
      cases op with
      | add v =>
        show h.recordsCount + 1 = BitVec.ofNat 32 (h.vlrs ++ [v]).length
        rw [h0, List.length_append, BitVec.ofNat_add]
        rfl
      | deleteAt i =>
        unfold Header.vlrEdit Header.deleteVLR
        dsimp only
        split
        · exact h0
        · rfl
      | deleteBy name id => rfl
    obtain ⟨i1, i2, i3⟩ := ih (h.vlrEdit op).1 hc
    refine ⟨?_, i2, ?_⟩
    · show ((h.vlrEdit op).1.vlrRun ops).vlrs = _
      rw [i1, h2]; rfl
    · have e : h.vlrRun (op :: ops) = (h.vlrEdit op).1.vlrRun ops := rfl
      rw [e]
      generalize hk : (h.vlrEdit op).1.vlrRun ops = k at i3 ⊢
      generalize (h.vlrEdit op).1 = g at h1 i3
      refine i3.trans ?_
      cases g
      cases h1
      rfl

/-- C12: below 2^32 records the count is exact and the block size is the sum of the record sizes, without reading
outside the list. -/
theorem vlr_count_and_block_size (h : Header) (h0 : h.recordsCount = BitVec.ofNat 32 h.vlrs.length)
    (hl : h.vlrs.length < 2 ^ 32) :
    h.recordsCount.toNat = h.vlrs.length ∧
    h.vlrBlockSize = .ok (BitVec.ofNat 32 (h.vlrs.map fun v => 54 + v.data.length).sum) := by
  have hc : h.recordsCount.toNat = h.vlrs.length := by rw [h0, BitVec.toNat_ofNat, Nat.mod_eq_of_lt hl]
  refine ⟨hc, ?_⟩
  unfold Header.vlrBlockSize
  rw [if_pos (by omega), hc, List.take_length]
  have : ∀ (l : List VLR) (acc : Nat),
      l.foldl (fun a v => a + BitVec.ofNat 32 v.totalSize) (BitVec.ofNat 32 acc) =
        BitVec.ofNat 32 (acc + (l.map fun v => 54 + v.data.length).sum) := by
    intro l
    induction l with
    | nil => intro acc; simp
    | cons v l ih =>
      intro acc
      rw [List.foldl_cons, ← BitVec.ofNat_add, ih]
      simp [VLR.totalSize]
      congr 1
      omega
  have h1 := this h.vlrs 0
  simp only [Nat.zero_add] at h1
  rw [← h1]; rfl

/-- The default header meets the hypothesis. -/
example : (Header.new 1 2020).recordsCount = BitVec.ofNat 32 (Header.new 1 2020).vlrs.length := rfl

/-- C12 fails if the count is set independently: the block size then reads past the end of the list. -/
theorem vlr_count_set_ub (h : Header) (hc : h.vlrs.length < h.recordsCount.toNat) : h.vlrBlockSize = .ub := by
  unfold Header.vlrBlockSize
  rw [if_neg (by omega)]

/-- C19 fails: no header object equals another one, in particular not its copy. -/
theorem header_never_equals_another (a b : Header.Obj) (h : a.addr ≠ b.addr) : Header.eqOp a b = false := by
  unfold Header.eqOp
  rw [if_neg (Ne.symm h), if_pos (show a.addr + 8 ≠ b.addr + 8 by omega)]
  cases Header.sameVec a.val.scale b.val.scale <;> cases Header.sameVec a.val.offset b.val.offset <;> rfl

/-- C19: what does hold: a header object equals itself. -/
theorem header_equals_itself_partial (a : Header.Obj) : Header.eqOp a a = true := by
  unfold Header.eqOp; rw [if_pos rfl]

/-- VLR comparison ignores the data: records that differ only in their data compare equal. -/
theorem vlr_equal_ignores_data (v : VLR) (d : List Byte) : VLR.equal v { v with data := d } = true := by
  simp [VLR.equal]

/-- Two variable records compare equal exactly if all their fields but the data agree. -/
theorem vlr_equal_iff (v w : VLR) : VLR.equal v w = true ↔ v = { w with data := v.data } := by
  obtain ⟨r, u, i, z, d, x⟩ := v
  obtain ⟨r', u', i', z', d', x'⟩ := w
  simp only [VLR.equal, Bool.and_eq_true, beq_iff_eq, VLR.mk.injEq, and_true, true_and]
  tauto

end LibLAS
