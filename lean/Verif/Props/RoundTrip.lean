import Verif.Lemmas.RoundTrip
import Verif.Spec.Crash
/-
C13, C14, C15, C20, C21, C22: files made by a writer and read by a reader.
-/
namespace LibLAS
open Spec

/-- An environment for examples: schema records cannot be parsed, buffers hold zeros. -/
def plainEnv : Env := ⟨fun _ => [0x41#8], fun _ => .throw .runtimeError, 0#8⟩

/-- Evaluating an example. -/
def Outcome.check {α : Type} (x : Outcome α) (p : α → Bool) : Bool :=
  match x with
  | .ok a => p a
  | _ => false

theorem Outcome.exists_of_check {α : Type} {x : Outcome α} {P : α → Prop} [DecidablePred P]
    (h : x.check (fun a => decide (P a)) = true) : ∃ a, x = .ok a ∧ P a := by
  cases x with
  | ok a => exact ⟨a, rfl, by simpa [Outcome.check] using h⟩
  | throw e => cases h
  | ub => cases h

/-! C13 -/

/-- Two records that agree in everything a getter shows. -/
def SameRecord (v w : VLR) : Prop :=
  w.reserved = v.reserved ∧ w.recordId = v.recordId ∧ w.recordSize = v.recordSize ∧ w.data = v.data ∧
  w.getUserId false = v.getUserId false ∧ w.getDescription false = v.getDescription false

theorem canon_same (v : VLR) : SameRecord v v.canon := by
  refine ⟨rfl, rfl, rfl, rfl, ?_, ?_⟩ <;>
  simp [VLR.canon, VLR.getUserId, VLR.getDescription, cstr_padTo, cstr_cstr]

/-- C13: records written at any place of a stream, read from that place into any header object, are the same records in
the same order (behind those the header object already had), and the record count grows by their number. -/
theorem vlrs_round_trip (vs : List VLR) (hv : ∀ v ∈ vs, StorableRecord v) (s : OStream) (hs : s.fail = false)
    (h : Header) (old : List Byte) (ho : old.length = 54) :
    ∃ s' i' h', s.writeAll (vs.flatMap HeaderWriter.vlrFields) = .ok s' ∧
      HeaderReader.readVLRLoop old vs.length ⟨s'.buf, s.pos, false, false⟩ h = .ok (i', h') ∧
      (∃ vs', h'.vlrs = h.vlrs ++ vs' ∧ List.Forall₂ SameRecord vs vs') ∧
      h'.recordsCount = h.recordsCount + BitVec.ofNat 32 vs.length := by
  obtain ⟨s', e1, e2, e3, e4⟩ := OStream.writeAll_ok (vs.flatMap HeaderWriter.vlrFields) s hs
  have hd : ∃ post, s'.buf.drop s.pos = vs.flatMap vlrBytes ++ post := by
    rw [e3, flatten_vlrFields]
    refine ⟨(overlay s.buf s.pos (vs.flatMap vlrBytes)).drop (s.pos + (vs.flatMap vlrBytes).length), ?_⟩
    by_cases h0 : vs.flatMap vlrBytes = []
    · rw [h0]; simp
    · conv_lhs => rw [← List.take_append_drop (vs.flatMap vlrBytes).length ((overlay _ _ _).drop _)]
      rw [List.drop_drop]
      congr 1
      have := slice_overlay_in (buf := s.buf) (bs := vs.flatMap vlrBytes) (p := s.pos) (off := s.pos)
        (k := (vs.flatMap vlrBytes).length) (by omega) (by omega)
      rw [Nat.sub_self, slice_self] at this
      exact this
  obtain ⟨post, hd⟩ := hd
  have := readVLRLoop_ok vs hv ⟨s'.buf, s.pos, false, false⟩ h old post rfl rfl ho hd
  refine ⟨s', _, _, e1, this, ⟨_, rfl, ?_⟩, rfl⟩
  clear this hd e3 e2 e1 e4 hv
  induction vs with
  | nil => exact List.Forall₂.nil
  | cons v vs ih => exact List.Forall₂.cons (canon_same v) ih

/-- The hypotheses of C13 are met by real records. -/
example : ∀ v ∈ [{ VLR.new with recordSize := 40 }, { VLR.new with data := [1, 2, 3], recordSize := 3, recordId := 7 }],
    StorableRecord v := by
  simp [StorableRecord, VLR.new]

/-- The hypothesis of C13 on the stored length is needed: a default-constructed record has stored length 0 but 40
bytes of data, and the record behind it is lost. -/
theorem default_vlr_corrupts : ∃ s',
    (OStream.onFile []).writeAll ([VLR.new, { VLR.new with recordSize := 40, recordId := 5 }].flatMap HeaderWriter.vlrFields) = .ok s' ∧
    ∃ x, HeaderReader.readVLRLoop (List.replicate 54 0#8) 2 ⟨s'.buf, 0, false, false⟩ (Header.new 1 2000) = .ok x ∧
    (x.2.vlrs.map VLR.recordId) ≠ [0, 5] :=
  ⟨_, rfl, Outcome.exists_of_check (by decide +kernel)⟩

/-! C15 -/

/-- C15, proved part: the data offset in the header object and in the file is the size of the header, of the variable
records, and of the padding (at most 2 bytes), plus two bytes for a version 1.0 file with less padding; point data
starts there. The constructor returning normally is a hypothesis; see `padding_undefined` for when it does not. -/
theorem data_offset_partial {env : Env} {h : Header} {w : Writer} (hs : StorableHeader h)
    (hmk : Writer.make env (OStream.onFile []) h = .ok w)
    (hsmall : h.headerSize.toNat + recordBytes w.hdr.vlrs + 4 < 2 ^ 31) :
    w.hdr.dataOffset.toNat = h.headerSize.toNat + recordBytes w.hdr.vlrs + w.hdr.padding.toNat +
      (if h.verMinor = 0 ∧ w.hdr.padding.toNat < 2 then 2 else 0) ∧
    w.hdr.padding.toNat ≤ 2 ∧
    fileNat w.ofs.buf 96 4 = w.hdr.dataOffset.toNat ∧ fileNat w.ofs.buf 94 2 = h.headerSize.toNat ∧
    fileNat w.ofs.buf 100 4 = w.hdr.vlrs.length ∧
    w.ofs.pos = w.hdr.dataOffset.toNat := by
  obtain ⟨pad, hf⟩ := new_file (StorableHeader.good hs) hs.size hmk hsmall
  have e := hf.hdr
  have hp : w.hdr.padding.toNat = pad := by
    have : w.hdr.padding = BitVec.ofNat 32 pad := by conv_lhs => rw [e]
    rw [this, BitVec.toNat_ofNat, Nat.mod_eq_of_lt]
    have := hf.pad_le; omega
  have hsz : w.hdr.Sized := sizedWith (StorableHeader.good hs).toSized (by rw [e]) (by rw [e]) (by rw [e]) (by rw [e])
  have hret : 5 ≤ w.hdr.byReturn.length := by rw [e]; exact hf.returns
  have hhs : w.hdr.headerSize = h.headerSize := by rw [e]
  have hrc : w.hdr.recordsCount = BitVec.ofNat 32 w.hdr.vlrs.length := by conv_lhs => rw [e]
  have fld : ∀ (n off : Nat) (v : BitVec (8 * n)), off + n ≤ 227 → slice (headerBytes w.hdr) off n = put n v →
      fileNat w.ofs.buf off n = v.toNat := by
    intro n off v hle hv
    unfold fileNat
    rw [slice_of_block hf.block hle, hv]
    have := got_put n v
    unfold got readScalar at this
    have h2 : memValue .little (8 * n) (put n v) = v := this
    rw [memValue_little] at h2
    have h3 := congrArg BitVec.toNat h2
    rw [BitVec.toNat_ofNat, Nat.mod_eq_of_lt] at h3
    · exact h3
    · have := leNat_lt (put n v)
      rw [put_length] at this
      rw [Nat.pow_mul]; exact this
  refine ⟨by rw [hp]; exact hf.dataOffset, by rw [hp]; exact hf.pad_le, ?_, ?_, ?_, hf.pos⟩
  · exact fld 4 96 w.hdr.dataOffset (by omega) (field_at hsz hret 10 _ rfl 96 4 rfl rfl)
  · rw [← hhs]; exact fld 2 94 w.hdr.headerSize (by omega) (field_at hsz hret 9 _ rfl 94 2 rfl rfl)
  · rw [fld 4 100 w.hdr.recordsCount (by omega) (field_at hsz hret 11 _ rfl 100 4 rfl rfl), hrc, BitVec.toNat_ofNat,
      Nat.mod_eq_of_lt]
    have := length_le_total w.hdr.vlrs
    rw [recordBytes_eq] at hsmall
    omega

/-- C15 does not hold as stated: in a version 1.0 file the data offset exceeds header, records and advertised
padding. -/
theorem data_offset_version0 : ∃ h w, StorableHeader h ∧ Writer.make plainEnv (OStream.onFile []) h = .ok w ∧
    w.hdr.dataOffset.toNat ≠ h.headerSize.toNat + recordBytes w.hdr.vlrs + w.hdr.padding.toNat := by
  refine ⟨{ Header.new 1 2000 with verMinor := 0 }, ?_⟩
  obtain ⟨w, h1, h2⟩ := Outcome.exists_of_check (x := Writer.make plainEnv (OStream.onFile []) { Header.new 1 2000 with verMinor := 0 })
    (P := fun w => w.hdr.dataOffset.toNat ≠ 227 + recordBytes w.hdr.vlrs + w.hdr.padding.toNat) (by decide +kernel)
  refine ⟨w, ?_, h1, h2⟩
  exact ⟨by decide +kernel, rfl, by decide +kernel, by decide +kernel, rfl, by decide, by decide, by decide +kernel, by intro v hv; simp [Header.new] at hv⟩

/-- Opening a writer with a header whose data offset leaves more than two bytes of padding reads past the end of a
two-byte string literal: undefined behaviour (here 3 bytes). -/
theorem padding_undefined : ∃ h, StorableHeader h ∧ Writer.make plainEnv (OStream.onFile []) h = .ub := by
  refine ⟨{ Header.new 1 2000 with dataOffset := 230 }, ?_, by decide +kernel⟩
  exact ⟨by decide +kernel, rfl, by decide +kernel, by decide +kernel, rfl, by decide, by decide, by decide +kernel, by intro v hv; simp [Header.new] at hv⟩

/-- The room for the header block is needed: a header size below 227 makes the records overwrite header fields. -/
theorem short_header_overwritten : ∃ h, ∃ w, Writer.make plainEnv (OStream.onFile []) h = .ok w ∧
    fileNat w.ofs.buf 104 1 ≠ h.schema.fmt.code.toNat := by
  refine ⟨{ Header.new 1 2000 with
      headerSize := 100
      dataOffset := 154
      recordsCount := 1
      vlrs := [{ VLR.new with data := [], reserved := 0xFFFF, userId := List.replicate 16 0xFF }] },
    Outcome.exists_of_check (by decide +kernel)⟩

end LibLAS
