import Verif.Model.HeaderTransforms
import Verif.Spec.Reset
/-
What a caller of a reader with header-changing transforms sees.
-/
namespace LibLAS.Moving
open LibLAS.Spec

/-- The calls of a program that reads on, possibly from another place. -/
inductive Turn where
  | next
  | seek (n : Nat)

/-- The same call on a reader without transforms. -/
def Turn.plain : Turn → ReadOp
  | .next => .next
  | .seek n => .seek n

/-- One call: the reader after it, the result, and after a successful read the point. -/
def turn (b : Build) (m : MReader) : Turn → MReader × (Outcome Bool × Option Hand)
  | .next => ((m.readNext b).1, ((m.readNext b).2, if (m.readNext b).2 = .ok true then some (m.readNext b).1.hand else none))
  | .seek n => ((m.seek n).1, ((m.seek n).2, none))

/-- What a caller sees of a sequence of calls. -/
def turns (b : Build) : MReader → List Turn → List (Outcome Bool × Option Hand)
  | _, [] => []
  | m, t :: ts => (turn b m t).2 :: turns b (turn b m t).1 ts

/-- The reader after a sequence of calls. -/
def after (b : Build) : MReader → List Turn → MReader
  | m, [] => m
  | m, t :: ts => after b (turn b m t).1 ts

/-- A report of the plain reader with the transforms applied to its point, as a point of the file's header; an exception of a
transform is that of the call (`out_of_range` becomes `false`). -/
def withTransforms (own : PHeader) (ts : List Transform) (x : Outcome Bool × Option (List Byte)) : Outcome Bool × Option Hand :=
  match x.2 with
  | none => (x.1, none)
  | some d =>
    match transformPoint own ts ⟨d, none⟩ with
    | (p, .ok ()) => (.ok true, some p)
    | (_, .throw .outOfRange) => (.ok false, none)
    | (_, .throw e) => (.throw e, none)
    | (_, .ub) => (.ub, none)

/-- What is asked of transforms on the records in question: a point they leave with the header of the reader keeps its length; a
point they leave with another header can be expressed again with the header of the reader (its coordinates fit); with filters
they do not fail (they are applied to a rejected last point, too). -/
structure Returns (b : Build) (own : PHeader) (len : Nat) (filtered : Bool) (some? : List Byte → Prop) (ts : List Transform) : Prop where
  succeed : filtered = true → ∀ d, some? d → (transformPoint own ts ⟨d, none⟩).2 = .ok ()
  stay : ∀ d, some? d → (transformPoint own ts ⟨d, none⟩).1.other = none → (transformPoint own ts ⟨d, none⟩).1.data.length = len
  back : ∀ d, some? d → ∀ h, (transformPoint own ts ⟨d, none⟩).1.other = some h →
    ∃ q, Point.setHeader b ⟨(transformPoint own ts ⟨d, none⟩).1.data, h⟩ own = .ok q ∧ q.data.length = len

/-- Transforms that change the header of a point say so. -/
def Announced (own : PHeader) (some? : List Byte → Prop) (ts : List Transform) : Prop :=
  ∀ d, some? d → (transformPoint own ts ⟨d, none⟩).1.other ≠ none → ∃ t ∈ ts, t.modifies = true

/-- The records that can come before the transforms: with filters any of the length (a filtered read can run past the end, C27),
without filters those of the file. -/
def Candidate (h : Header) (filtered : Bool) (f : List Byte) (d : List Byte) : Prop :=
  d.length = h.dataRecordLength ∧
    (filtered = false → ∃ i < h.pointCount.toNat, d = record f h.dataOffset.toNat h.dataRecordLength i)

/-- The point with the record and, if there is one, the header that a transform left. -/
def left (p : Point) (x : List Byte × Option PHeader) : Point := ⟨x.1, match x.2 with | some h => h | none => p.hdr⟩

/-- Transforms one after the other on a point that has a header: each gets the point the one before it left, with the header that
one gave it, and the first to fail ends the chain. -/
def chain : List Transform → Point → Point × Outcome Unit
  | [], p => (p, .ok ())
  | t :: ts, p =>
    match (t.run p).2 with
    | .ok () => chain ts (left p (t.run p).1)
    | .throw e => (left p (t.run p).1, .throw e)
    | .ub => (left p (t.run p).1, .ub)

end LibLAS.Moving
