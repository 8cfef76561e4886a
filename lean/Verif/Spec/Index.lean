import Verif.Model.IndexBuild
/-
What the spatial index is meant to hold.
-/
namespace LibLAS.Spec
open Index

/-- The point ids a list of runs stands for: `(a, n)` stands for `a, a+1, ..., a+n-1`. -/
def ids (r : Runs) : List Nat := r.flatMap fun e => (List.range e.2).map (e.1 + ·)

/-- All the ids stored in a cell, in the cell itself or in its sub-cells. -/
def cellIds (c : Cell) : List Nat :=
  ids c.pts ++ c.zCells.flatMap (fun e => ids e.2) ++ c.subCells.flatMap (fun e => ids e.2)

/-- The point has the cell `xy`. -/
def inCell (g : Grid) (xy : Nat × Nat) (p : Pt) : Bool := decide (identifyCell g p = .ok (some xy))

/-- The positions of the points of `pts` which satisfy `f`, in order; the first point has position `n`. -/
def positions (f : Pt → Bool) : Nat → List Pt → List Nat
  | _, [] => []
  | n, p :: ps => if f p then n :: positions f (n + 1) ps else positions f (n + 1) ps

/-- A grid whose number of cells fits the temporary file (the library uses at most 250000 cells). -/
structure GridOK (g : Grid) : Prop where
  x : 0 < g.cellsX
  y : 0 < g.cellsY
  small : g.cellsX * g.cellsY < 2 ^ 29

/-- Every point has a cell, inside the matrix. -/
def Placed (g : Grid) (pts : List Pt) : Prop :=
  ∀ p ∈ pts, ∃ x y, identifyCell g p = .ok (some (x, y)) ∧ x < g.cellsX ∧ y < g.cellsY

/-- `c` lies between the finite bounds `lo` and `hi`, which are of a size where nothing overflows. -/
def Between (lo hi c : Fl) : Prop :=
  ∃ a b d : ℚ, lo = .fin a ∧ hi = .fin b ∧ c = .fin d ∧ a ≤ d ∧ d ≤ b ∧ |a| ≤ 2 ^ 1000 ∧ |b| ≤ 2 ^ 1000 ∧ 1 / 2 ^ 900 ≤ b - a

/-- Every point lies inside the bounds in x and y, and in z if cells are split in z. -/
def AllInside (g : Grid) (pts : List Pt) : Prop :=
  ∀ p ∈ pts, Between g.min.x g.max.x p.x ∧ Between g.min.y g.max.y p.y ∧ (1 < g.cellsZ → Between g.min.z g.max.z p.z)

/-- When the range from `lo` to `hi` is divided into `n` equal parts, `c` lies in part number `k` (from 0 on), up to
`n / 2^49` of a part. -/
def InPart (lo hi c : Fl) (n k : Nat) : Prop :=
  ∃ a b d : ℚ, lo = .fin a ∧ hi = .fin b ∧ c = .fin d ∧
    (k : ℚ) - n / 2 ^ 49 ≤ n * ((d - a) / (b - a)) ∧ n * ((d - a) / (b - a)) ≤ k + 1 + n / 2 ^ 49

/-- The whole numbers around the z values of some points: widened to hold each next one; a value outside the range of
a 16-bit number widens one end to the end of that range. -/
def zHull : Int × Int → List Fl → Int × Int
  | b, [] => b
  | (lo, hi), z :: zs =>
    if Fl.lt (.fin 32767) z then zHull (lo, 32767) zs
    else if Fl.lt z (.fin (-32768)) then zHull (-32768, hi) zs
    else zHull (if Fl.lt z (.fin lo) then Cell.toInt z.floor else lo, if Fl.lt (.fin hi) z then Cell.toInt z.ceil else hi) zs

/-- What can be seen of a cell: its id, the ids of the points in each of its parts, the number of points, the z range. -/
structure CellView where
  xy : Nat × Nat
  whole : List Nat
  zParts : List (Nat × List Nat)
  quarters : List (Nat × List Nat)
  count : Nat
  minZ : Int
  maxZ : Int
  deriving DecidableEq, Repr

def viewOf (e : (Nat × Nat) × Cell) : CellView :=
  ⟨e.1, ids e.2.pts, e.2.zCells.map fun p => (p.1, ids p.2), e.2.subCells.map fun p => (p.1, ids p.2), e.2.numPoints,
    e.2.minZ, e.2.maxZ⟩

/-- An index up to the places of the cells in the temporary file, which are of no interest once it is built. -/
def forgetOffsets (o : Outcome (Option (List ((Nat × Nat) × Cell)))) : Outcome (Option (List ((Nat × Nat) × Cell))) :=
  o.bind fun r => .ok (r.map fun l => l.map fun e => (e.1, { e.2 with fileOffset := 0 }))

end LibLAS.Spec
