import Verif.Spec.Bytes
import Verif.Spec.File
/-
LAS 1.2 public header block: what makes it unacceptable.
-/
namespace LibLAS.Spec

/-- A little-endian number of the file. -/
def fileNum (b : List Byte) (off k : Nat) : Nat := leNat (slice b off k)

/-- The header is not one the library supports: wrong signature, unknown version, point data inside the header, the
reserved compression bit set, or an unknown point format. -/
def Malformed (b : List Byte) : Prop :=
  slice b 0 4 ≠ [0x4c, 0x41, 0x53, 0x46] ∨
  fileNum b 24 1 ≠ 1 ∨ fileNum b 25 1 > 3 ∨
  fileNum b 96 4 < fileNum b 94 2 ∨
  fileNum b 104 1 / 64 % 2 = 1 ∨ fileNum b 104 1 % 64 > 3

end LibLAS.Spec
