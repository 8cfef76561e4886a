import Verif.Model.Basic
/-
A file as a list of bytes.
-/
namespace LibLAS.Spec

/-- The `k` bytes of a file at offset `off` (fewer if the file ends). -/
def slice (file : List Byte) (off k : Nat) : List Byte := (file.drop off).take k

/-- The whole `i`-th record of length `len` of the region starting at `off`. -/
def record (file : List Byte) (off len i : Nat) : List Byte := slice file (off + i * len) len

end LibLAS.Spec
