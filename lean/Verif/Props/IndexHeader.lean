import Verif.Lemmas.IndexHead
import Verif.Props.IndexRecords
/-
C52: the header record of the spatial index.
-/
namespace LibLAS.Index
open Spec

/-- C52: whatever the header of an index says, its version, bounds, numbers of points and cells are read back from its record
exactly, and so are its texts up to 511 bytes. -/
theorem index_header {h : Info} (hf : InfoFits h) : loadInfo (headerRecord h) = .ok (some (keptInfo h)) := loadInfo_bytes hf rfl

/-- The record fits: its data are shorter than 65536 bytes, and its length is theirs. -/
theorem index_header_length (h : Info) : (headerRecord h).recordSize.toNat = (headerRecord h).data.length ∧ (headerRecord h).data.length ≤ 1612 := by
  have h1 : ∀ t, (putText t).length ≤ 514 := by
    intro t
    unfold putText
    simp [put_length]; omega
  have h2 : (putInfo h).length ≤ 1612 := by
    rw [putInfo_eq]
    unfold numBytes
    have p1 : ∀ n, (put8 n).length = 1 := fun n => put_length _ _
    have p8 : ∀ x : BitVec 64, (put 8 x).length = 8 := fun x => put_length _ _
    simp only [List.length_append, p1, p8, put32_length]
    have := h1 h.author
    have := h1 h.comment
    have := h1 h.date
    omega
  refine ⟨?_, h2⟩
  show (BitVec.ofNat 16 (putInfo h).length).toNat = (putInfo h).length
  rw [BitVec.toNat_ofNat, Nat.mod_eq_of_lt (by omega)]

theorem headerRecord_name (i : Info) : (headerRecord i).getUserId false = lit "liblas" := by
  unfold VLR.getUserId
  rw [show (headerRecord i).userId = padTo 16 (lit "liblas") from rfl]
  decide

/-- The record is one a file can hold. -/
theorem headerRecord_storable (i : Info) : StorableRecord (headerRecord i) ∧
    (headerRecord i).getDescription false = lit "LibLAS Index Header" ∧ (headerRecord i).reserved = 0xAABB := by
  have h1 : (headerRecord i).userId.length = 16 := by rw [show (headerRecord i).userId = padTo 16 (lit "liblas") from rfl]; decide
  have h2 : (headerRecord i).description = padTo 32 (lit "LibLAS Index Header") := rfl
  refine ⟨⟨h1, by rw [h2]; decide, (index_header_length i).1⟩, by unfold VLR.getDescription; rw [h2]; decide, rfl⟩

/-- C52, through a file: a file written with the header record of an index among its records has, when read, a record in the same place from which
the header of the index is read. -/
theorem index_header_file (env : Env) (today : BitVec 16 × BitVec 16) {h : Header} {w w' : Writer} {r : Reader}
    (hs : StorableHeader h) (hmk : Writer.make env (OStream.onFile []) h = .ok w)
    (hsmall : h.headerSize.toNat + recordBytes w.hdr.vlrs + 4 < 2 ^ 31)
    (hschema : NoSchema env w.hdr.vlrs) (h0 : 0 < h.dataRecordLength)
    (pts : List (List Byte)) (hp : ∀ p ∈ pts, h.dataRecordLength ≤ p.length) (hn : pts.length < 2 ^ 32)
    (hwr : w.writePoints pts = .ok w') (hr : Reader.make env today (IStream.onFile w'.close.buf) = .ok r)
    {i : Info} (hi : InfoFits i) {k : Nat} (hk : (callersRecords h.schema.isCustom h.vlrs)[k]? = some (headerRecord i)) :
    ∃ v, r.hdr.vlrs[k]? = some v ∧ v.getUserId false = lit "liblas" ∧ v.recordId = 42#16 ∧ loadInfo v = .ok (some (keptInfo i)) := by
  have key := written_records_partial env today hs hmk hsmall hschema h0 pts hp hn hwr hr
  have hk2 : (callersRecords h.schema.isCustom h.vlrs ++ referenceRecords h.schema.isCustom h.srs ++ schemaRecords env h.schema)[k]? = some (headerRecord i) := by
    have hlt := (List.getElem?_eq_some_iff.1 hk).1
    rw [List.append_assoc, List.getElem?_append_left hlt]; exact hk
  have hlen := key.length_eq
  have hlt := (List.getElem?_eq_some_iff.1 hk2).1
  have hsame := List.forall₂_iff_get.1 key
  refine ⟨r.hdr.vlrs[k], List.getElem?_eq_getElem (by omega), ?_⟩
  have := hsame.2 k hlt (by omega)
  simp only [List.get_eq_getElem] at this
  rw [(List.getElem?_eq_some_iff.1 hk2).2] at this
  refine ⟨?_, ?_, loadInfo_bytes hi ?_⟩
  · rw [this.2.2.2.2.1]; exact headerRecord_name i
  · rw [this.2.1]; rfl
  · rw [this.2.2.2.1]; rfl

/-- A header of an index of 6 points with 2 by 2 by 2 cells; the bounds are 0 to 2 and the author is longer than what is kept. -/
def sampleInfo : Info :=
  ⟨1, 2, List.replicate 600 65#8, lit "c", [], 0, 0x4000000000000000#64, 0, 0x4000000000000000#64, 0, 0x4000000000000000#64, 43, 6, 2, 2, 2⟩

example : InfoFits sampleInfo := by constructor <;> decide

/-- The author is cut, the rest is kept. -/
example : loadInfo (headerRecord sampleInfo) = .ok (some { sampleInfo with author := List.replicate 511 65#8 }) := by
  rw [index_header (by constructor <;> decide)]
  decide +kernel

/-- The same through a file. -/
example : ∃ b r v, session plainEnv [] { sampleHeader with recordsCount := 1, vlrs := [headerRecord sampleInfo] } [List.replicate 28 1#8] = .ok b ∧
    Reader.make plainEnv (1, 2000) (IStream.onFile b) = .ok r ∧ r.hdr.vlrs[0]? = some v ∧ loadInfo v = .ok (some (keptInfo sampleInfo)) := by
  have h := Outcome.exists_of_check (x := session plainEnv [] { sampleHeader with recordsCount := 1, vlrs := [headerRecord sampleInfo] } [List.replicate 28 1#8] >>= fun b =>
    Reader.make plainEnv (1, 2000) (IStream.onFile b)) (P := fun r => r.hdr.vlrs.map loadInfo = [.ok (some (keptInfo sampleInfo))]) (by decide +kernel)
  obtain ⟨r, h1, h2⟩ := h
  cases hb : session plainEnv [] { sampleHeader with recordsCount := 1, vlrs := [headerRecord sampleInfo] } [List.replicate 28 1#8] with
  | throw e => rw [hb] at h1; cases h1
  | ub => rw [hb] at h1; cases h1
  | ok b =>
    rw [hb] at h1
    refine ⟨b, r, ?_⟩
    cases hv : r.hdr.vlrs with
    | nil => rw [hv] at h2; simp at h2
    | cons v t =>
      rw [hv] at h2
      simp at h2
      exact ⟨v, rfl, h1, rfl, h2.1⟩

end LibLAS.Index
