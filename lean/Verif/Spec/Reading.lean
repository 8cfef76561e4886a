import Verif.Model.Reader
import Verif.Spec.File
/-
What a caller sees of reading a file point by point.
-/
namespace LibLAS.Spec

/-- Successive calls of `ReadNextPoint` deliver exactly these records and then report the end of the data. -/
def delivers : Reader → List (List Byte) → Prop
  | r, [] => r.readNext.2 = .ok false
  | r, p :: ps => r.readNext.2 = .ok true ∧ r.readNext.1.point = p ∧ delivers r.readNext.1 ps

/-- Successive calls of `ReadNextPoint` deliver these records (and perhaps more). -/
def deliversFirst : Reader → List (List Byte) → Prop
  | _, [] => True
  | r, p :: ps => r.readNext.2 = .ok true ∧ r.readNext.1.point = p ∧ deliversFirst r.readNext.1 ps

/-- The whole records `i, i+1, ..., i+k-1` of a file. -/
def recordsFrom (file : List Byte) (off len i k : Nat) : List (List Byte) :=
  (List.range k).map fun j => record file off len (i + j)

/-- The variable records hold no schema record, or the first one cannot be parsed (the exception being one that
`ReadVLRs` catches). -/
def NoSchema (env : Env) (vs : List VLR) : Prop := ∃ e, HeaderReader.schemaFromVLRs env vs = .throw e ∧ e.isRuntime = true

/-- A call of the reading interface. -/
inductive ReadOp where
  | next
  | at (n : Nat)
  | seek (n : Nat)
  | filters (fs : List (List Byte → Bool))
  | transforms (ts : List (List Byte → List Byte))

/-- The transforms set by a call keep the length of the record. -/
def ReadOp.Benign : ReadOp → Prop
  | .transforms ts => ∀ t ∈ ts, ∀ p : List Byte, (t p).length = p.length
  | _ => True

/-- The reader after a call, whatever the call reported. -/
def readStep (r : Reader) : ReadOp → Reader
  | .next => r.readNext.1
  | .at n => (r.readAt n).1
  | .seek n => (r.seek n).1
  | .filters fs => r.setFilters fs
  | .transforms ts => r.setTransforms ts

/-- The reader after a sequence of calls. -/
def readRun (r : Reader) (ops : List ReadOp) : Reader := ops.foldl readStep r

/-- What the transforms in force make of a record: each in turn, in the order given. -/
def transformed (r : Reader) (p : List Byte) : List Byte :=
  match r.xform with
  | none => p
  | some f => f p

end LibLAS.Spec
