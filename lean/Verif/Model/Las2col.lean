import Verif.Model.Las2pg
import Verif.Model.Las2colThreads
/-
apps/las2col.c: what a reading thread does with a file. The threads are in Model/Las2colThreads. The host is little-endian. Not modelled: the
command line (`--moffset` is always refused there: `S64` scans for the letters `lld`, :568-575) and messages.
-/
namespace LibLAS.Las2col
open Las2pg (mem accepted passes)

/-- `entriesType`, apps/las2col.c:773-909: the size of an element of a column; zero (static storage) for a letter without a case. -/
def size : Char → Nat
  | 'k' | 'x' | 'y' | 'z' | 't' => 8
  | 'X' | 'Y' | 'Z' | 'M' => 4
  | 'i' | 'r' | 'n' | 'R' | 'G' | 'B' | 'p' | 'e' | 'd' => 2
  | 'a' | 'c' | 'u' => 1
  | _ => 0

/-- apps/las2col.c:450-493: the element of the column for the point. A letter without a case leaves `entries` zero, which is `ENTRY_x`, and the
function pointer NULL, which is called. The getters are called through pointers to functions of other return types; here they return what the
calling conventions in use make of it: the low bytes. -/
def element (b : Build) (factorX factorY : Int) (index : BitVec 32) (p : Point) (c : Char) : Outcome (List Byte) :=
  match c with
  | 'x' => do let v ← Point.getX b p; pure (mem 8 v.toBits)
  | 'y' => do let v ← Point.getY b p; pure (mem 8 v.toBits)
  | 'z' => do let v ← Point.getZ b p; pure (mem 8 v.toBits)
  | 't' => do let v ← Point.getTime b p; pure (mem 8 v)
  | 'X' => do let v ← Point.getX b p; let i ← Fl.toInt32 (Fl.div v p.hdr.scale.x); pure (mem 4 i)
  | 'Y' => do let v ← Point.getY b p; let i ← Fl.toInt32 (Fl.div v p.hdr.scale.y); pure (mem 4 i)
  | 'Z' => do let v ← Point.getZ b p; let i ← Fl.toInt32 (Fl.div v p.hdr.scale.z); pure (mem 4 i)
  | 'i' => do let v ← Point.getIntensity b p; pure (mem 2 v)
  | 'r' => do let v ← Point.getReturnNumber p; pure (mem 2 v)
  | 'n' => do let v ← Point.getNumberOfReturns p; pure (mem 2 v)
  | 'p' => do let v ← Point.getPointSourceID b p; pure (mem 2 v)
  | 'e' => do let v ← Point.getFlightLineEdge p; pure (mem 2 v)
  | 'd' => do let v ← Point.getScanDirection p; pure (mem 2 v)
  | 'a' => do let v ← Point.getScanAngleRank p; pure (mem 1 v)
  | 'c' => do let v ← Point.getClassification p; pure (mem 1 v.flags)
  | 'u' => do let v ← Point.getUserData p; pure (mem 1 v)
  | 'k' => do
    let x ← Point.getRawX b p
    let y ← Point.getRawY b p
    pure (mem 8 (Morton.codeCol x y factorX factorY))
  | 'R' => do let v ← Point.getColor b p; pure (mem 2 v.getRed)
  | 'G' => do let v ← Point.getColor b p; pure (mem 2 v.getGreen)
  | 'B' => do let v ← Point.getColor b p; pure (mem 2 v.getBlue)
  | 'M' => .ok (mem 4 index)
  | _ => .ub

/-- apps/las2col.c:448-495: the loop over the columns (a letter and its array); the elements are stored at `index`. -/
def store (f : Char → Outcome (List Byte)) (index : Nat) : List (Char × List Byte) → Outcome (List (Char × List Byte))
  | [] => .ok []
  | (c, values) :: rest => do
    let e ← f c
    let values ← writeAt values (index * size c) e
    let rest ← store f index rest
    pure ((c, values) :: rest)

/-- apps/las2col.c:434-501: the loop over the points, with the number of turns still allowed; `index` is an `unsigned int`, and is counted down
when a point is skipped. An exception of the reader is caught in `LASReader_GetNextPoint` (src/c_api.cpp:372-391), which returns NULL. -/
def pointLoop (b : Build) (skipInvalid : Bool) (factorX factorY : Int) : Nat → Reader → BitVec 32 → List (Char × List Byte) →
    Outcome (List (Char × List Byte))
  | 0, _, _, _ => .ub
  | k + 1, r, index, cols =>
    match r.readNext with
    | (r, .ok true) => do
      let p : Point := ⟨r.point, r.hdr.toP⟩
      let valid ← accepted skipInvalid p
      if !valid then pointLoop b skipInvalid factorX factorY k r (index - 1) cols
      else
        let cols ← store (element b factorX factorY index p) index.toNat cols
        pointLoop b skipInvalid factorX factorY k r (index + 1) cols
    | (_, .ok false) => .ok cols
    | (_, .throw _) => .ok cols
    | (_, .ub) => .ub

/-- apps/las2col.c:377-383: the arrays, from `malloc`; `junk` is what the memory holds. -/
def arrays (junk : Nat → Byte) (count : Nat) (parse : List Char) : List (Char × List Byte) :=
  parse.map fun c => (c, (List.range (size c * count)).map junk)

/-- apps/las2col.c:356-502 in `readFile`: the columns of a file, or `exit(1)`. The options are those of las2pg; the letters were turned into
entries in `main` (:767-915), where more than `NUM_OF_ENTRIES` of them, or none, lead outside arrays. -/
def readFile (env : Env) (today : BitVec 16 × BitVec 16) (b : Build) (o : Las2pg.Opts) (junk : Nat → Byte) (input : List Byte) :
    Outcome (Nat → List Byte) := do
  if o.parse = [] ∨ 21 < o.parse.length then .ub
  else
    let r ← Reader.make env today (IStream.onFile input)
    let axes := r.hdr.toP
    let factorX ← Morton.factor axes.offset.x axes.scale.x o.global.1
    let factorY ← Morton.factor axes.offset.y axes.scale.y o.global.2
    if !passes r.hdr o.global o.check then .throw .runtimeError
    else
      let cols ← pointLoop b o.skipInvalid factorX factorY (r.size + 1) r 0 (arrays junk r.hdr.pointCount.toNat o.parse)
      pure fun i => match cols[i]? with
        | some (_, values) => values
        | none => []

end LibLAS.Las2col
