import Verif.Spec.Dump
/-
The binary format of PostgreSQL's COPY (PostgreSQL documentation, "COPY", "Binary Format"), as a decoder.
-/
namespace LibLAS.Spec.Dump

/-- The number that bytes in network order denote. -/
def beNat (bs : List Byte) : Nat := bs.foldl (fun n b => 256 * n + b.toNat) 0

/-- The signed number that bytes in network order denote. -/
def beInt (bs : List Byte) : Int := if 2 * beNat bs < 256 ^ bs.length then beNat bs else (beNat bs : Int) - 256 ^ bs.length

/-- The fields of a tuple: each a length and that many bytes, or the length -1 for a null. -/
def copyFields : Nat → List Byte → Option (List (Option (List Byte)) × List Byte)
  | 0, bs => some ([], bs)
  | n + 1, bs =>
    if bs.length < 4 then none
    else if beInt (bs.take 4) = -1 then (copyFields n (bs.drop 4)).map fun (fs, rest) => (none :: fs, rest)
    else if (bs.length : Int) < 4 + beInt (bs.take 4) ∨ beInt (bs.take 4) < 0 then none
    else
      let len := (beInt (bs.take 4)).toNat
      (copyFields n (bs.drop (4 + len))).map fun (fs, rest) => (some ((bs.drop 4).take len) :: fs, rest)

/-- The tuples up to the trailer: each begins with the number of its fields; the trailer is the number -1. -/
def copyTuples : Nat → List Byte → Option (List (List (Option (List Byte))))
  | 0, _ => none
  | fuel + 1, bs =>
    if bs.length < 2 then none
    else if beInt (bs.take 2) = -1 then (if bs.length = 2 then some [] else none)
    else if beInt (bs.take 2) < 0 then none
    else
      match copyFields (beInt (bs.take 2)).toNat (bs.drop 2) with
      | none => none
      | some (fs, rest) => (copyTuples fuel rest).map (fs :: ·)

/-- The signature: `PGCOPY`, line feed, 255, carriage return, line feed, 0. -/
def copySignature : List Byte := ("PGCOPY\n".toList.map fun c => BitVec.ofNat 8 c.toNat) ++ [255, 13, 10, 0]

/-- The whole file: signature, no flags, no header extension, tuples. -/
def copyDecode (bs : List Byte) : Option (List (List (Option (List Byte)))) :=
  if bs.take 11 = copySignature ∧ beNat ((bs.drop 11).take 4) = 0 ∧ beNat ((bs.drop 15).take 4) = 0 ∧ 19 ≤ bs.length then
    copyTuples bs.length (bs.drop 19)
  else none

/-- The bytes of a field denote the number: eight bytes for doubles and Morton codes, four for integers. -/
def Denotes : Val → List Byte → Prop
  | .real x, bs => bs.length = 8 ∧ Fl.ofBits (BitVec.ofNat 64 (beNat bs)) = x
  | .bits v, bs => bs.length = 8 ∧ beNat bs = v.toNat
  | .int i, bs => bs.length = 4 ∧ beInt bs = i
  | .key x y, bs => bs.length = 8 ∧ Interleaves (beNat bs) x y

end LibLAS.Spec.Dump
