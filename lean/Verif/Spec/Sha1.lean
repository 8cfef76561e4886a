import Verif.Model.Basic
/-
The secure hash algorithm SHA-1 as the standard (FIPS 180-4, sections 4.1.1, 4.2.1, 5.1.1, 5.2.1, 5.3.1, 6.1) states it,
for messages of whole bytes. It does not mention the code.
-/
namespace LibLAS.Spec.Sha1

/-- The number as `k` bytes, the most significant first. -/
def big (k n : Nat) : List Byte := (List.range k).map (fun i => BitVec.ofNat 8 (n / 256 ^ (k - 1 - i)))

/-- The number that bytes denote, the most significant first. -/
def num (bs : List Byte) : Nat := bs.foldl (fun n b => 256 * n + b.toNat) 0

/-- 5.1.1 for a length of `len` bytes, which is at most 2^61 for messages the standard allows: a one bit, zeros up to
eight bytes before the end of a block, the length in bits. -/
def padding (len : Nat) : List Byte :=
  [0x80] ++ List.replicate ((55 + 64 - len % 64) % 64) 0 ++ big 8 (8 * len)

/-- 4.1.1. -/
def f (t : Nat) (x y z : BitVec 32) : BitVec 32 :=
  if t ≤ 19 then (x &&& y) ^^^ (~~~x &&& z)
  else if t ≤ 39 then x ^^^ y ^^^ z
  else if t ≤ 59 then (x &&& y) ^^^ (x &&& z) ^^^ (y &&& z)
  else x ^^^ y ^^^ z

/-- 4.2.1. -/
def K (t : Nat) : BitVec 32 :=
  if t ≤ 19 then 0x5a827999 else if t ≤ 39 then 0x6ed9eba1 else if t ≤ 59 then 0x8f1bbcdc else 0xca62c1d6

/-- 5.2.1: word `j` of block `i` of a padded message. -/
def M (padded : List Byte) (i j : Nat) : BitVec 32 :=
  BitVec.ofNat 32 (num ((padded.drop (64 * i + 4 * j)).take 4))

/-- 6.1.2, step 1: the message schedule. -/
def W (m : Nat → BitVec 32) (t : Nat) : BitVec 32 :=
  if t ≤ 15 then m t
  else (W m (t - 3) ^^^ W m (t - 8) ^^^ W m (t - 14) ^^^ W m (t - 16)).rotateLeft 1
termination_by t

/-- A hash value: five words. -/
abbrev Five := BitVec 32 × BitVec 32 × BitVec 32 × BitVec 32 × BitVec 32

/-- 6.1.2, step 3. -/
def round (m : Nat → BitVec 32) (v : Five) (t : Nat) : Five :=
  match v with
  | (a, b, c, d, e) => (a.rotateLeft 5 + f t b c d + e + K t + W m t, a, b.rotateLeft 30, c, d)

/-- 6.1.2, steps 2 to 4: the next hash value. -/
def next (m : Nat → BitVec 32) (h : Five) : Five :=
  let v := (List.range 80).foldl (round m) h
  (h.1 + v.1, h.2.1 + v.2.1, h.2.2.1 + v.2.2.1, h.2.2.2.1 + v.2.2.2.1, h.2.2.2.2 + v.2.2.2.2)

/-- 5.3.1. -/
def initial : Five := (0x67452301, 0xefcdab89, 0x98badcfe, 0x10325476, 0xc3d2e1f0)

/-- 6.1.2: the hash value after all whole blocks of a padded message. -/
def hashValue (padded : List Byte) : Five := (List.range (padded.length / 64)).foldl (fun h i => next (M padded i) h) initial

/-- The digest of a padded message. -/
def out (h : Five) : List Byte :=
  big 4 h.1.toNat ++ big 4 h.2.1.toNat ++ big 4 h.2.2.1.toNat ++ big 4 h.2.2.2.1.toNat ++ big 4 h.2.2.2.2.toNat

/-- SHA-1 of a message. -/
def digest (message : List Byte) : List Byte := out (hashValue (message ++ padding message.length))

end LibLAS.Spec.Sha1
