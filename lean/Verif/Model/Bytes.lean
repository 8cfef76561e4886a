import Verif.Model.Basic
/-
Byte-order code: include/liblas/detail/binary.hpp, include/liblas/detail/endian.hpp and the users of both
in include/liblas/detail/private_utility.hpp.
-/
namespace LibLAS

/-- Byte order of the machine the library is compiled for
(include/liblas/detail/endian.hpp:50-94 picks one of the two at compile time). -/
inductive Host where
  | little
  | big
  deriving DecidableEq, Repr

/-- include/liblas/detail/binary.hpp:61-66 (step), :95-99 and :124-128 (last byte, unsigned/signed).
`T` is a `w`-bit integer; the last byte is sign-extended when `T` is signed. Left shift of a negative value
is taken as the two's complement shift (C++20 rule; earlier standards leave it undefined). -/
def loadForward (w : Nat) (signed : Bool) : List Byte → BitVec w
  | [] => 0#w
  | [b] => if signed then b.signExtend w else b.setWidth w
  | b :: bs => b.setWidth w ||| (loadForward w signed bs <<< 8)

/-- include/liblas/detail/binary.hpp:69-74, :101-105, :130-134: the same loop walking from the last byte
to the first. -/
def loadBackward (w : Nat) (signed : Bool) (bs : List Byte) : BitVec w :=
  loadForward w signed bs.reverse

/-- include/liblas/detail/binary.hpp:77-81, :107-111, :136-140. `value >> 8` is arithmetic for signed `T`. -/
def storeForward {w : Nat} (signed : Bool) : (n : Nat) → BitVec w → List Byte
  | 0, _ => []
  | 1, v => [v.setWidth 8]
  | n + 2, v => v.setWidth 8 :: storeForward signed (n + 1) (if signed then v.sshiftRight 8 else v >>> 8)

/-- include/liblas/detail/binary.hpp:84-88, :113-117, :142-145. -/
def storeBackward {w : Nat} (signed : Bool) (n : Nat) (v : BitVec w) : List Byte :=
  (storeForward signed n v).reverse

/-- include/liblas/detail/binary.hpp:153-162 `load_dispatch` as called by `endian_value::load` (:207-210):
same tag -> forward, different tags -> backward. `native` is `native_endian_tag` (:47-51). -/
def endianLoad (native target : Host) (w : Nat) (signed : Bool) (bs : List Byte) : BitVec w :=
  if native = target then loadForward w signed bs else loadBackward w signed bs

/-- include/liblas/detail/binary.hpp:166-175 `store_dispatch` as called by `endian_value::store` (:212-215). -/
def endianStore (native target : Host) {w : Nat} (signed : Bool) (n : Nat) (v : BitVec w) : List Byte :=
  if native = target then storeForward signed n v else storeBackward signed n v

/-- The bytes of a `w = 8*n` bit object in the memory of a host: what `reinterpret_cast`/`memcpy` see. This is
the C++ object representation, not library code. -/
def memBytes (h : Host) {w : Nat} (n : Nat) (v : BitVec w) : List Byte :=
  let le := (List.range n).map fun i => v.extractLsb' (8 * i) 8
  match h with
  | .little => le
  | .big => le.reverse

/-- The value of a `w`-bit object whose memory bytes are `bs`: inverse of `memBytes`, used for
`*reinterpret_cast<T*>(p)`. -/
def memValue (h : Host) (w : Nat) (bs : List Byte) : BitVec w :=
  let le := match h with
    | .little => bs
    | .big => bs.reverse
  BitVec.ofNat w (le.foldr (fun b acc => b.toNat + 256 * acc) 0)

/-- include/liblas/detail/endian.hpp:102-124 `LIBLAS_SWAP_BYTES_N(p, n)`: reverse the `n` bytes at `p` on a
big-endian host, nothing on a little-endian host. -/
def swapN (h : Host) (bs : List Byte) : List Byte :=
  match h with
  | .little => bs
  | .big => bs.reverse

/-- `write_n<T>` for a scalar `T` (include/liblas/detail/private_utility.hpp:381-393) on a writable stream: the
object's memory bytes after `LIBLAS_SWAP_BYTES_N`. -/
def writeScalar (h : Host) {w : Nat} (n : Nat) (v : BitVec w) : List Byte :=
  swapN h (memBytes h n v)

/-- `read_n<T>` for a scalar `T` (include/liblas/detail/private_utility.hpp:286-299) when all `n` bytes are
available. -/
def readScalar (h : Host) (w : Nat) (bs : List Byte) : BitVec w :=
  memValue h w (swapN h bs)

/-- `write_n(stream, v.front(), v.size())` for a byte vector (`T = uint8_t`, `num` the vector length): the swap
macro reverses the whole vector on a big-endian host. Users: src/detail/writer/point.cpp, src/detail/writer/header.cpp. -/
def writeByteVector (h : Host) (bs : List Byte) : List Byte := swapN h bs

/-- `read_n(v.front(), stream, v.size())` for a byte vector. -/
def readByteVector (h : Host) (bs : List Byte) : List Byte := swapN h bs

/-- `intToBits<T>` (include/liblas/detail/private_utility.hpp:371-378): bytes stored at `&data[0] + index`. -/
def intToBits (h : Host) {w : Nat} (signed : Bool) (n : Nat) (v : BitVec w) : List Byte :=
  endianStore h .little signed n v

/-- `bitsToInt<T>` (include/liblas/detail/private_utility.hpp:360-369). -/
def bitsToInt (h : Host) (w : Nat) (signed : Bool) (bs : List Byte) : BitVec w :=
  endianLoad h .little w signed bs

end LibLAS
