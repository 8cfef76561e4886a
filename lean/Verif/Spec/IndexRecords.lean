import Verif.Model.IndexQuery
import Verif.Spec.Index
/-
What is stored of the cells of an index in its data records, and what a reader of these records sees.
-/
namespace LibLAS.Spec
open Index

/-- A list of runs whose numbers fit into the bytes they are given. -/
def RunsFit (r : Runs) : Prop := r.length < 2 ^ 32 ∧ ∀ e ∈ r, e.1 < 2 ^ 32 ∧ e.2 < 2 ^ 8

def SubsFit (m : List (Nat × Runs)) : Prop := m.length < 2 ^ 32 ∧ ∀ e ∈ m, e.1 < 2 ^ 32 ∧ RunsFit e.2

/-- A cell whose numbers fit into the bytes they are given, and which is divided in z or into quarters but not both. -/
structure Fits (e : (Nat × Nat) × Cell) : Prop where
  x : e.1.1 < 2 ^ 32
  y : e.1.2 < 2 ^ 32
  num : e.2.numPoints < 2 ^ 32
  pts : RunsFit e.2.pts
  z : SubsFit e.2.zCells
  sub : SubsFit e.2.subCells
  one : e.2.zCells = [] ∨ e.2.subCells = []

/-- The number of bytes of a cell: 28 for its numbers, 8 for each part, 5 for each run. -/
def cellSize (c : Cell) : Nat :=
  28 + if c.zCells ≠ [] then (c.zCells.map fun s => 8 + 5 * s.2.length).sum
    else if c.subCells ≠ [] then (c.subCells.map fun s => 8 + 5 * s.2.length).sum
    else 5 * c.pts.length

/-- What a reader of the records meets: a cell begins; a run of points of a part of a cell. -/
inductive Seen where
  | cell
  | run (x y : Nat) (p : Place) (id n : Nat)
  deriving DecidableEq, Repr

/-- What is to be seen of a cell. -/
def seenOf (e : (Nat × Nat) × Cell) : List Seen :=
  .cell ::
    if e.2.zCells ≠ [] then e.2.zCells.flatMap fun s => s.2.map fun r => .run e.1.1 e.1.2 (.z s.1) r.1 r.2
    else if e.2.subCells ≠ [] then e.2.subCells.flatMap fun s => s.2.map fun r => .run e.1.1 e.1.2 (.sub s.1) r.1 r.2
    else e.2.pts.map fun r => .run e.1.1 e.1.2 .main r.1 r.2

/-- All that is to be seen: the cells with points, in order. -/
def contents (cs : List ((Nat × Nat) × Cell)) : List Seen := (cs.filter fun e => decide (e.2.numPoints ≠ 0)).flatMap seenOf

/-- The visitor that writes down what it sees. -/
def logger : Visitor (List Seen) where
  start s _ := s ++ [.cell]
  run s x y p id n := s ++ [.run x y p id n]
  full _ := false

/-- Everything seen in some data records, when these are read as queries read them. -/
def readAll : Nat → List VLR → Outcome (Option (List Seen))
  | _, [] => .ok (some [])
  | 0, _ => .ok none
  | fuel + 1, v :: rest =>
    (gather v rest).bind fun g =>
      match g with
      | none => .ok none
      | some g =>
        (walkCells logger g.bytes g.size (g.size + 1) [] 24).bind fun r =>
          if r.2 then (readAll fuel (rest.drop (g.used - 1))).bind fun l => .ok (l.map fun l => r.1 ++ l)
          else .ok none

/-- The data records of an index, among other records. -/
def indexRecords (vs : List VLR) : List VLR := vs.filter fun v => decide (v.getUserId false = lit "liblas" ∧ v.recordId = 43#16)

end LibLAS.Spec
