import Verif.Spec.Point
import Verif.Model.Schema
/-
The dimensions of the LAS 1.2 point formats, and histories of schema edits.
-/
namespace LibLAS.Spec

/-- Name, byte offset and size in bits of the standard dimensions of formats 0 to 3 (LAS 1.2, point data records). -/
def stdDims : PointFormat → List (String × Nat × Nat)
  | .f0 => base
  | .f1 => base ++ [("Time", 20, 64)]
  | .f2 => base ++ [("Red", 20, 16), ("Green", 22, 16), ("Blue", 24, 16)]
  | .f3 => base ++ [("Time", 20, 64), ("Red", 28, 16), ("Green", 30, 16), ("Blue", 32, 16)]
  | _ => []
where
  base : List (String × Nat × Nat) :=
    [("X", 0, 32), ("Y", 4, 32), ("Z", 8, 32), ("Intensity", 12, 16), ("Return Number", 14, 3),
     ("Number of Returns", 14, 3), ("Scan Direction", 14, 1), ("Flightline Edge", 14, 1), ("Classification", 15, 8),
     ("Scan Angle Rank", 16, 8), ("User Data", 17, 8), ("Point Source ID", 18, 16)]

/-- All standard names. -/
def stdNames : List String := (stdDims .f3).map Prod.fst

/-- A list of dimensions a user may add: not marked as required, named differently from the standard dimensions and
from each other. -/
def UserDims (ds : List Dim) : Prop :=
  (∀ d ∈ ds, d.required = false ∧ d.name ∉ stdNames) ∧ (ds.map Dim.name).Nodup

/-- A dimension occupying a positive whole number of bytes. -/
def Aligned (d : Dim) : Prop := 0 < d.bitSize ∧ d.bitSize % 8 = 0

/-- Sizes in bytes of a list of whole-byte dimensions, added up. -/
def totalBytes (ds : List Dim) : Nat := (ds.map fun d => d.bitSize / 8).sum

/-- An edit of a schema through its public interface. -/
inductive SchemaOp where
  | add (d : Dim)
  | remove (d : Dim)
  | set (d : Dim)
  | format (f : PointFormat)
  deriving Repr

end LibLAS.Spec
