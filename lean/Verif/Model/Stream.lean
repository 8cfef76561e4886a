import Verif.Model.Bytes
/-
`std::ostream` and `std::istream` as the library uses them (libstdc++ file streams on a little-endian host, release
build: `check_stream_state` in include/liblas/detail/private_utility.hpp:255-281 does nothing unless DEBUG).
This file models the standard library, not libLAS, except for `read_n` and `write_n`.
-/
namespace LibLAS

/-- The bytes of a file after writing `bs` at `pos`: a gap past the end is filled with zeros. -/
def overlay (buf : List Byte) (pos : Nat) (bs : List Byte) : List Byte :=
  if bs = [] then buf
  else buf.take pos ++ List.replicate (pos - buf.length) 0#8 ++ bs ++ buf.drop (pos + bs.length)

/-- An output file stream. `log` is a ghost variable: every write so far with its position, oldest first. -/
structure OStream where
  buf : List Byte
  pos : Nat
  fail : Bool
  log : List (Nat × List Byte)
  deriving DecidableEq, Repr

namespace OStream

/-- A stream just opened on a file holding `buf`. -/
def onFile (buf : List Byte) : OStream := ⟨buf, 0, false, []⟩

/-- `seekp(p, ios::beg)`: nothing on a failed stream. -/
def seek (s : OStream) (p : Nat) : OStream := if s.fail then s else { s with pos := p }

/-- `seekp(d, ios::end)`. -/
def seekEnd (s : OStream) (d : Nat) : OStream := if s.fail then s else { s with pos := s.buf.length + d }

/-- `write`. -/
def write (s : OStream) (bs : List Byte) : OStream :=
  if s.fail then s
  else { s with buf := overlay s.buf s.pos bs, pos := s.pos + bs.length, log := s.log ++ [(s.pos, bs)] }

/-- include/liblas/detail/private_utility.hpp:381-393 and :431-440 `write_n` on a little-endian host. -/
def writeN (s : OStream) (bs : List Byte) : Outcome OStream :=
  if s.fail then .throw .runtimeError else .ok (s.write bs)

/-- A sequence of `write_n` calls. -/
def writeAll (s : OStream) : List (List Byte) → Outcome OStream
  | [] => .ok s
  | bs :: rest => do
    let s ← s.writeN bs
    s.writeAll rest

end OStream

/-- An input file stream. -/
structure IStream where
  buf : List Byte
  pos : Nat
  eof : Bool
  fail : Bool
  deriving DecidableEq, Repr

namespace IStream

def onFile (buf : List Byte) : IStream := ⟨buf, 0, false, false⟩

/-- `clear()`. -/
def clear (s : IStream) : IStream := { s with eof := false, fail := false }

/-- `seekg(p, ios::beg)` since C++11: clears `eofbit`, then moves unless failed. -/
def seek (s : IStream) (p : Nat) : IStream :=
  if s.fail then { s with eof := false } else { s with eof := false, pos := p }

/-- `read(buffer, k)`: the bytes stored and the stream after it. A short read sets `eofbit | failbit`; on a stream
that is not `good()` nothing is read and `failbit` is set. -/
def read (s : IStream) (k : Nat) : List Byte × IStream :=
  if s.eof || s.fail then ([], { s with fail := true })
  else
    let got := (s.buf.drop s.pos).take k
    if got.length = k then (got, { s with pos := s.pos + k })
    else (got, { s with pos := s.pos + got.length, eof := true, fail := true })

/-- `read_n` (include/liblas/detail/private_utility.hpp:286-299, :333-352) into an object whose bytes were `old`:
throws on a stream already failed, otherwise overwrites a prefix of the object, all of it unless the read is short. -/
def readN (s : IStream) (old : List Byte) : Outcome (List Byte × IStream) :=
  if s.fail then .throw .runtimeError
  else
    let (got, s') := s.read old.length
    .ok (got ++ old.drop got.length, s')

end IStream

/-- Little-endian bytes of a scalar as `write_n` puts them on the stream. -/
def put {w : Nat} (n : Nat) (v : BitVec w) : List Byte := writeScalar .little n v

/-- The scalar whose object bytes are `bs`. -/
def got (w : Nat) (bs : List Byte) : BitVec w := readScalar .little w bs

end LibLAS
