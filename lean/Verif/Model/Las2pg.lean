import Verif.Model.Reader
import Verif.Model.FloatText
import Verif.Model.Morton
/-
apps/las2pg.c: points as a dump for PostgreSQL's `COPY ... WITH BINARY`. The host is little-endian (the program is wrong on others: it writes
the first half of an eight-byte variable). Not modelled: the command line, messages, and files that cannot be written.
-/
namespace LibLAS.Las2pg

/-- The bytes of an object in the memory of the host, lowest first (platform). -/
def mem {w : Nat} (n : Nat) (v : BitVec w) : List Byte := memBytes .little n v

/-- `htons`, `htonl`, `htobe64` followed by `fwrite` of the object; `bigEndian_double` (apps/las2pg.c:219-240). -/
def swapped {w : Nat} (n : Nat) (v : BitVec w) : List Byte := (mem n v).reverse

/-- A value of four bytes after its length (`pgRow.varSize`, apps/las2pg.c:555-556, :606-611). -/
def field4 (v : BitVec 32) : List Byte := swapped 4 (4 : BitVec 32) ++ swapped 4 v

/-- A value of eight bytes after its length (`pgRow.vardSize`, apps/las2pg.c:553-554, :577-582). -/
def field8 (v : BitVec 64) : List Byte := swapped 4 (8 : BitVec 32) ++ swapped 8 v

/-- apps/las2pg.c:560-693: one letter of `--parse`; nothing is written for other letters. `var` is an `int`. The colour fetched for each letter
is dropped; classification is the whole byte (src/c_api.cpp:928-935). -/
def field (b : Build) (factorX factorY : Int) (index : BitVec 32) (p : Point) (c : Char) : Outcome (List Byte) := do
  let col ← Point.getColor b p
  match c with
  | 'k' => do
    let x ← Point.getRawX b p
    let y ← Point.getRawY b p
    let k ← Morton.code x y factorX factorY
    pure (field8 k)
  | 'x' => do let v ← Point.getX b p; pure (field8 v.toBits)
  | 'y' => do let v ← Point.getY b p; pure (field8 v.toBits)
  | 'z' => do let v ← Point.getZ b p; pure (field8 v.toBits)
  | 't' => do let v ← Point.getTime b p; pure (field8 v)
  | 'i' => do let v ← Point.getIntensity b p; pure (field4 (v.setWidth 32))
  | 'a' => do let v ← Point.getScanAngleRank p; pure (field4 (v.signExtend 32))
  | 'r' => do let v ← Point.getReturnNumber p; pure (field4 (v.setWidth 32))
  | 'c' => do let v ← Point.getClassification p; pure (field4 (v.flags.setWidth 32))
  | 'u' => do let v ← Point.getUserData p; pure (field4 (v.setWidth 32))
  | 'n' => do let v ← Point.getNumberOfReturns p; pure (field4 (v.setWidth 32))
  | 'R' => .ok (field4 (col.getRed.setWidth 32))
  | 'G' => .ok (field4 (col.getGreen.setWidth 32))
  | 'B' => .ok (field4 (col.getBlue.setWidth 32))
  | 'M' => .ok (field4 index)
  | 'p' => do let v ← Point.getPointSourceID b p; pure (field4 (v.setWidth 32))
  | 'e' => do let v ← Point.getFlightLineEdge p; pure (field4 (v.setWidth 32))
  | 'd' => do let v ← Point.getScanDirection p; pure (field4 (v.setWidth 32))
  | _ => .ok []

/-- apps/las2pg.c:558-701: the loop over the letters; after the terminating zero of an empty string the next character is outside it. -/
def letters (f : Char → Outcome (List Byte)) : List Char → Outcome (List Byte)
  | [] => .ub
  | [c] => f c
  | c :: rest => do
    let t ← f c
    let ts ← letters f rest
    pure (t ++ ts)

/-- The options: `--parse`, `--skip_invalid`, `--moffset`, `--check`. -/
structure Opts where
  parse : List Char
  skipInvalid : Bool
  global : Int × Int
  check : Option (Fl × Fl)

/-- apps/las2pg.c:540, apps/las2col.c:438: whether the point is to be written. -/
def accepted (skipInvalid : Bool) (p : Point) : Outcome Bool := if skipInvalid then p.isValid else .ok true

/-- apps/las2pg.c:537-704: the loop over the points, with the number of turns still allowed. An exception of the reader is caught in
`LASReader_GetNextPoint` (src/c_api.cpp:372-391), which returns NULL as it does at the end. -/
def pointLoop (b : Build) (o : Opts) (factorX factorY : Int) : Nat → Reader → BitVec 32 → Outcome (List Byte)
  | 0, _, _ => .ub
  | k + 1, r, index =>
    match r.readNext with
    | (r, .ok true) => do
      let p : Point := ⟨r.point, r.hdr.toP⟩
      let valid ← accepted o.skipInvalid p
      if !valid then pointLoop b o factorX factorY k r (index - 1)
      else
        let t ← letters (field b factorX factorY index p) o.parse
        let ts ← pointLoop b o factorX factorY k r (index + 1)
        pure (swapped 2 (BitVec.ofNat 16 o.parse.length) ++ t ++ ts)
    | (_, .ok false) => .ok []
    | (_, .throw _) => .ok []
    | (_, .ub) => .ub

/-- apps/las2pg.c:520: the eleven bytes of the signature. -/
def signature : List Byte := [0x50, 0x47, 0x43, 0x4f, 0x50, 0x59, 0x0a, 0xff, 0x0d, 0x0a, 0x00]

/-- apps/las2pg.c:482-515, apps/las2col.c:399-432: `--check`; the extents are those of the header. -/
def passes (h : Header) (global : Int × Int) : Option (Fl × Fl) → Bool
  | none => true
  | some (sx, sy) =>
    Morton.checkAxis sx h.toP.scale.x (Fl.ofBits h.min.x) (Fl.ofBits h.max.x) global.1 &&
    Morton.checkAxis sy h.toP.scale.y (Fl.ofBits h.min.y) (Fl.ofBits h.max.y) global.2

/-- apps/las2pg.c:267-715 `main`: the bytes written. An exit with an error is an exception here. -/
def main (env : Env) (today : BitVec 16 × BitVec 16) (b : Build) (o : Opts) (input : List Byte) : Outcome (List Byte) := do
  let r ← Reader.make env today (IStream.onFile input)
  let axes := r.hdr.toP
  if !passes r.hdr o.global o.check then .throw .runtimeError
  else
    let factorX ← Morton.factor axes.offset.x axes.scale.x o.global.1
    let factorY ← Morton.factor axes.offset.y axes.scale.y o.global.2
    let rows ← pointLoop b o factorX factorY (r.size + 1) r 0
    pure (signature ++ swapped 4 (0 : BitVec 32) ++ swapped 4 (0 : BitVec 32) ++ rows ++ swapped 2 (-1 : BitVec 16))

end LibLAS.Las2pg
