import Verif.Lemmas.Bytes
/-
C01: multi-byte values are stored little-endian on every host.

Scalars of the file header and of variable records go through `write_n`/`read_n` (`writeScalar`, `readScalar`);
attributes of point records go through `endian_value` (`intToBits`, `bitsToInt`) and the record is then copied as a
byte vector (`writeByteVector`).
-/
namespace LibLAS
open Spec

/-- C01 (header and VLR scalars): on both byte orders the bytes put in the stream are the little-endian
bytes, and reading them back gives the value. -/
theorem scalar_little_endian (h : Host) (n : Nat) (v : BitVec (8 * n)) :
    writeScalar h n v = leBytes n v ∧ readScalar h (8 * n) (leBytes n v) = v := by
  constructor
  · cases h
    · rfl
    · simp [writeScalar, swapN, memBytes, leBytes]
  · cases h
    · simp only [readScalar, swapN, memValue_little, ofNat_leNat_leBytes]
    · simp only [readScalar, swapN, memValue_big, List.reverse_reverse, ofNat_leNat_leBytes]

example : writeScalar .big 2 (0x0102#16) = [0x02#8, 0x01#8] := by decide

/-- C01 (header and VLR scalars): what is read denotes the little-endian number, and storing what was loaded
restores the bytes, on both byte orders. -/
theorem scalar_store_load (h : Host) (bs : List Byte) :
    readScalar h (8 * bs.length) bs = BitVec.ofNat (8 * bs.length) (leNat bs) ∧
    writeScalar h bs.length (readScalar h (8 * bs.length) bs) = bs := by
  have hr : readScalar h (8 * bs.length) bs = BitVec.ofNat (8 * bs.length) (leNat bs) := by
    cases h
    · simp only [readScalar, swapN, memValue_little]
    · simp only [readScalar, swapN, memValue_big, List.reverse_reverse]
  refine ⟨hr, ?_⟩
  rw [hr, (scalar_little_endian h _ _).1, leBytes_ofNat_leNat]

example : readScalar .big 32 [0x44#8, 0x33#8, 0x22#8, 0x11#8] = 0x11223344#32 := by decide

/-- C01 (point record attributes, little-endian host): the stored bytes are the little-endian bytes for signed and
unsigned types, and loading gives back the value. -/
theorem attribute_little_endian_partial (s : Bool) (n : Nat) (v : BitVec (8 * n)) :
    intToBits .little s n v = leBytes n v ∧ bitsToInt .little (8 * n) s (leBytes n v) = v := by
  constructor
  · simp [intToBits, endianStore, storeForward_eq]
  · have := loadForward_eq (8 * n) s (leBytes n v) (by simp)
    simp only [bitsToInt, endianLoad, if_true, this, ofNat_leNat_leBytes]

example : intToBits .little true 4 (-2#32) = [0xFE#8, 0xFF#8, 0xFF#8, 0xFF#8] := by decide

/-- C01 (point record attributes, either host, either build option): loading what was stored is the identity, also
where the byte order is wrong. -/
theorem attribute_load_store (h : Host) (s : Bool) (n : Nat) (v : BitVec (8 * n)) :
    bitsToInt h (8 * n) s (intToBits h s n v) = v ∧ memValue h (8 * n) (intToBits h s n v) = v := by
  have hs := storeForward_eq s n v (Nat.le_refl _)
  have hl := loadForward_eq (8 * n) s (leBytes n v) (by simp)
  cases h
  · simp only [bitsToInt, endianLoad, intToBits, endianStore, if_true, hs, hl, memValue_little,
      ofNat_leNat_leBytes, and_self]
  · simp only [bitsToInt, endianLoad, intToBits, endianStore, reduceCtorEq, if_false, storeBackward,
      loadBackward, List.reverse_reverse, hs, hl, memValue_big, ofNat_leNat_leBytes, and_self]

example : bitsToInt .big 16 false (intToBits .big false 2 (0xA1B2#16)) = 0xA1B2#16 := by decide

/-- What C01 asks of the point attribute code: little-endian bytes on every host. -/
def AttributeStoreIsLittleEndian : Prop :=
  ∀ (h : Host) (s : Bool) (n : Nat) (v : BitVec (8 * n)), intToBits h s n v = leBytes n v

/-- C01 fails for point attributes on a big-endian host: `endian_value` stores most significant byte first there
(the loops are arithmetic, so reversing them on a big-endian host is wrong). -/
theorem attribute_store_not_little_endian_on_big_host : ¬ AttributeStoreIsLittleEndian := by
  intro h
  have := h .big false 2 (0x0102#16)
  revert this
  decide

/-- C01 also fails for whole point records on a big-endian host: the byte vector goes to the file reversed, so the
two errors do not cancel field by field (the first byte written is the last byte of the record). -/
theorem record_reversed_on_big_host (bs : List Byte) : writeByteVector .big bs = bs.reverse := rfl

/-- Records are nevertheless read back as written on the same kind of host. -/
theorem record_vector_round_trip (h : Host) (bs : List Byte) : readByteVector h (writeByteVector h bs) = bs := by
  cases h <;> simp [readByteVector, writeByteVector, swapN]

example : readByteVector .big (writeByteVector .big [1#8, 2#8, 3#8]) = [1#8, 2#8, 3#8] := by decide

end LibLAS
