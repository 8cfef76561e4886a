import Verif.Model.CApi
import Verif.Spec.Point
import Verif.Spec.Reading
/-
What a C program sees of the library: the stack of errors, the calls on points, the reading loop.
-/
namespace LibLAS.Spec
open CApi

/-- The calls on the error stack. -/
inductive ErrorCall where
  | push (e : Err)
  | pop
  | reset

/-- What the calls mean: the errors reported and neither popped nor reset, newest first. -/
def errorsMeant : List ErrorCall → List Err → List Err
  | [], st => st
  | .push e :: cs, st => errorsMeant cs (e :: st)
  | .pop :: cs, st => errorsMeant cs st.tail
  | .reset :: cs, _ => errorsMeant cs []

/-- The calls made, on the library's stack. -/
def errorsMade : List ErrorCall → Errors → Errors
  | [], st => st
  | .push e :: cs, st => errorsMade cs (pushError st e.code e.message e.method)
  | .pop :: cs, st => errorsMade cs (popError st)
  | .reset :: cs, st => errorsMade cs (resetErrors st)

/-- The texts of the errors pushed are C texts (no NUL inside). -/
def CText (e : Err) : Prop := 0#8 ∉ e.message ∧ 0#8 ∉ e.method

/-- The error is a failure reported by this function. -/
def FailureOf (method : String) (e : Err) : Prop := e.code = 3 ∧ e.method = lit method

/-- The C function for each attribute of a point. -/
def setterFor : SetOp → PointSet
  | .rawX v => .rawX v
  | .rawY v => .rawY v
  | .rawZ v => .rawZ v
  | .intensity v => .intensity v
  | .returnNumber v => .returnNumber v
  | .numberOfReturns v => .numberOfReturns v
  | .scanDirection v => .scanDirection v
  | .edge v => .flightLineEdge v
  | .classification c => .classification c.flags
  | .scanAngle v => .scanAngleRank v
  | .userData v => .userData v
  | .sourceId v => .pointSourceId v
  | .time v => .time v
  | .color c => .color c

/-- A C program that makes these calls on a point, every call returning `LE_None` and reporting nothing, is left with `q`. -/
def QuietCalls (b : Build) (what : Exc → List Byte) (st : Errors) : Point → List PointSet → Point → Prop
  | p, [], q => q = p
  | p, s :: ss, q => ∃ p', pointSet b what st (some p) s = .ok (.none, some p', st) ∧ QuietCalls b what st p' ss q

/-- `while ((p = LASReader_GetNextPoint(r)))` gets exactly these records, and no error is reported. -/
def ReadsAll (what : Exc → List Byte) (st : Errors) : Reader → List (List Byte) → Prop
  | r, [] => ∃ r', getNextPoint what st (some r) = .ok (none, some r', st)
  | r, p :: ps => ∃ r', getNextPoint what st (some r) = .ok (some p, some r', st) ∧ ReadsAll what st r' ps

/-- Points written one by one with `LASWriter_WritePoint`, every call returning `LE_None` and reporting nothing. -/
def WritesAll (what : Exc → List Byte) (st : Errors) : Writer → List (List Byte) → Writer → Prop
  | w, [], w' => w' = w
  | w, p :: ps, w' => ∃ v, writerWritePoint what st (some w) (some p) = .ok (.none, some v, st) ∧ WritesAll what st v ps w'

/-- A history of `Create` and `Destroy` calls in which `k` constructors threw. The allocator returns addresses that are not in
use. -/
inductive HandleHistory (what : Exc → List Byte) : Nat → Registry → Prop where
  | start : HandleHistory what 0 Registry.start
  | failed {k s} : HandleHistory what k s → HandleHistory what k (s.create what .notOpened).1
  | threw {k s} (e : Exc) : HandleHistory what k s → HandleHistory what (k + 1) (s.create what (.threw e)).1
  | created {k s a} : HandleHistory what k s → a ∉ s.alive → HandleHistory what k (s.create what (.object a)).1
  | destroyed {k s t} (h : Option Nat) : HandleHistory what k s → s.destroy h = .ok t → HandleHistory what k t

end LibLAS.Spec
