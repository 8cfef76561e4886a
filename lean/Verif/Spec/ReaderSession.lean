import Verif.Model.ReaderSession
import Verif.Spec.Reset
/-
Histories of a reader whose header is replaced.
-/
namespace LibLAS.Spec

/-- A call of the reading interface, a reset, or another header. -/
inductive HeaderCall where
  | op (o : ReadOp)
  | reset
  | setHeader (h : Header)

/-- The two headers say the same about where the points are. -/
structure SamePointPlace (g h : Header) : Prop where
  count : h.pointCount = g.pointCount
  offset : h.dataOffset = g.dataOffset
  length : h.dataRecordLength = g.dataRecordLength

/-- Transforms keep the length of the record, headers the place of the points. -/
def HeaderCall.Benign (g : Header) : HeaderCall → Prop
  | .op o => o.Benign
  | .reset => True
  | .setHeader h => SamePointPlace g h

/-- One call. -/
def headerStep (env : Env) (b : Build) (o : OpenReader) : HeaderCall → Outcome OpenReader
  | .op c => .ok { o with r := readStep o.r c }
  | .reset => o.reset env b
  | .setHeader h => o.setHeader b h

/-- A sequence of calls. -/
def headerRun (env : Env) (b : Build) : OpenReader → List HeaderCall → Outcome OpenReader
  | o, [] => .ok o
  | o, c :: cs =>
    match headerStep env b o c with
    | .ok o => headerRun env b o cs
    | .throw e => .throw e
    | .ub => .ub

/-- All bytes of the point in hand are zero. -/
def Blank (r : Reader) : Prop := ∀ x ∈ r.point, x = 0#8

end LibLAS.Spec
