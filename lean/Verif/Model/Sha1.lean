import Verif.Model.Basic
/-
The digest class of src/detail/sha1.cpp and include/liblas/detail/sha1.hpp. Release build: the asserts are absent.
-/
namespace LibLAS.Sha1

/-- include/liblas/detail/sha1.hpp:38: `Uint32`, a 32-bit `unsigned int`. -/
abbrev Word := BitVec 32

/-- include/liblas/detail/sha1.hpp:42-46: the fields. `unprocessed` is an `int` that stays between 0 and 64. -/
structure State where
  h0 : Word
  h1 : Word
  h2 : Word
  h3 : Word
  h4 : Word
  bytes : List Byte
  unprocessed : Nat
  size : Word
  deriving DecidableEq

/-- src/detail/sha1.cpp:50-63: the constructor. It leaves the 64 bytes of the block as they happen to be:
`junk`. -/
def make (junk : List Byte) : State :=
  { h0 := 0x67452301, h1 := 0xefcdab89, h2 := 0x98badcfe, h3 := 0x10325476, h4 := 0xc3d2e1f0,
    bytes := junk, unprocessed := 0, size := 0 }

/-- src/detail/sha1.cpp:33-36. -/
def lrot (x : Word) (bits : Nat) : Word := (x <<< bits) ||| (x >>> (32 - bits))

/-- src/detail/sha1.cpp:39-46, as the four bytes stored. -/
def bigEndian (num : Word) : List Byte :=
  [(num >>> 24).setWidth 8, (num >>> 16).setWidth 8, (num >>> 8).setWidth 8, num.setWidth 8]

/-- src/detail/sha1.cpp:88-91: one of the sixteen words of the block. The operands are promoted to `int`; a first byte
of 128 or more makes the sum negative before it is converted to `Uint32`, which is arithmetic modulo 2^32. -/
def wordAt (bytes : List Byte) (t : Nat) : Word :=
  (((bytes.getD (t*4) 0).setWidth 32 <<< 24) + ((bytes.getD (t*4 + 1) 0).setWidth 32 <<< 16))
    + ((bytes.getD (t*4 + 2) 0).setWidth 32 <<< 8) + (bytes.getD (t*4 + 3) 0).setWidth 32

/-- src/detail/sha1.cpp:88: `W[0]` to `W[15]`. -/
def copyBlock (bytes : List Byte) : List Word := (List.range 16).map (wordAt bytes)

/-- src/detail/sha1.cpp:92: `n` further words, each from the words before it. -/
def expand : Nat → List Word → List Word
  | 0, w => w
  | n + 1, w =>
    let t := w.length
    expand n (w ++ [lrot (w.getD (t-3) 0 ^^^ w.getD (t-8) 0 ^^^ w.getD (t-14) 0 ^^^ w.getD (t-16) 0) 1])

/-- src/detail/sha1.cpp:98-110: `K` and `f` of step `t`. -/
def choose (t : Nat) (b c d : Word) : Word × Word :=
  if t < 20 then (0x5a827999, (b &&& c) ||| ((b ^^^ 0xFFFFFFFF) &&& d))
  else if t < 40 then (0x6ed9eba1, b ^^^ c ^^^ d)
  else if t < 60 then (0x8f1bbcdc, (b &&& c) ||| (b &&& d) ||| (c &&& d))
  else (0xca62c1d6, b ^^^ c ^^^ d)

/-- The variables `a` to `e` of src/detail/sha1.cpp:80-86. -/
structure Vars where
  a : Word
  b : Word
  c : Word
  d : Word
  e : Word

/-- src/detail/sha1.cpp:96-119: one turn of the main loop. -/
def step (w : List Word) (v : Vars) (t : Nat) : Vars :=
  let (k, f) := choose t v.b v.c v.d
  let temp := lrot v.a 5 + f + v.e + w.getD t 0 + k
  { e := v.d, d := v.c, c := lrot v.b 30, b := v.a, a := temp }

/-- src/detail/sha1.cpp:81-120: the variables after the main loop. -/
def steps (s : State) : Vars :=
  let w := expand 64 (copyBlock s.bytes)
  (List.range 80).foldl (step w) ⟨s.h0, s.h1, s.h2, s.h3, s.h4⟩

/-- src/detail/sha1.cpp:75-130: `process`. -/
def process (s : State) : State :=
  let v := steps s
  { s with h0 := s.h0 + v.a, h1 := s.h1 + v.b, h2 := s.h2 + v.c, h3 := s.h3 + v.d, h4 := s.h4 + v.e, unprocessed := 0 }

/-- src/detail/sha1.cpp:141-157: the loop of `addBytes`; the first argument bounds the turns. `memcpy` outside the
block of 64 bytes is undefined. -/
def addLoop : Nat → State → List Byte → Outcome State
  | 0, _, _ => .ub
  | fuel + 1, s, data =>
    if data.length > 0 then
      let needed := 64 - s.unprocessed
      let toCopy := if data.length < needed then data.length else needed
      writeAt s.bytes s.unprocessed (data.take toCopy) >>= fun bytes =>
      let s := { s with bytes := bytes, unprocessed := s.unprocessed + toCopy }
      let s := if s.unprocessed = 64 then process s else s
      addLoop fuel s (data.drop toCopy)
    else .ok s

/-- src/detail/sha1.cpp:133-158: `addBytes`. The count is an `int`: at most 2^31 - 1 bytes in one call. -/
def addBytes (s : State) (data : List Byte) : Outcome State :=
  addLoop (data.length + 1) { s with size := s.size + BitVec.ofNat 32 data.length } data

/-- src/detail/sha1.cpp:161-192: `getDigest`; the digest and the state it leaves. -/
def getDigest (s : State) : Outcome (List Byte × State) :=
  let totalBitsL := s.size <<< 3
  let totalBitsH := s.size >>> 29
  addBytes s [0x80] >>= fun s =>
  let footer : List Byte := List.replicate 64 0
  (if s.unprocessed > 56 then addBytes s (footer.take (64 - s.unprocessed)) else .ok s) >>= fun s =>
  let neededZeros := 56 - s.unprocessed
  writeAt footer neededZeros (bigEndian totalBitsH) >>= fun footer =>
  writeAt footer (neededZeros + 4) (bigEndian totalBitsL) >>= fun footer =>
  addBytes s (footer.take (neededZeros + 8)) >>= fun s =>
  .ok (bigEndian s.h0 ++ bigEndian s.h1 ++ bigEndian s.h2 ++ bigEndian s.h3 ++ bigEndian s.h4, s)

/-- A call of the public interface (include/liblas/detail/sha1.hpp:51-52). -/
inductive Call where
  | add (data : List Byte)
  | digest

/-- Calls one after the other; the digests they return. Models a caller, not code. -/
def run : State → List Call → Outcome (List (List Byte))
  | _, [] => .ok []
  | s, .add data :: rest => addBytes s data >>= fun s => run s rest
  | s, .digest :: rest => getDigest s >>= fun r => run r.2 rest >>= fun ds => .ok (r.1 :: ds)

end LibLAS.Sha1
