import Verif.Lemmas.Point
import Verif.Spec.Morton
import Verif.Spec.Reading
/-
What programs that write points as binary numbers have to write. A letter stands for an attribute of the point; the
attribute is written as a number of a certain type. Nothing here mentions how the programs do it.
-/
namespace LibLAS.Spec.Dump

/-- What is read through the C interface: calls of `LASReader_GetNextPoint` deliver these records and then NULL, because the data
are at their end or cannot be read. -/
def gives : Reader → List (List Byte) → Prop
  | r, [] => r.readNext.2 = .ok false ∨ ∃ e, r.readNext.2 = .throw e
  | r, p :: ps => r.readNext.2 = .ok true ∧ r.readNext.1.point = p ∧ gives r.readNext.1 ps

/-- A file that opens, is long enough for a header, has a record long enough for its format and no readable schema record.
`ps` are its points. -/
structure Input (env : Env) (today : BitVec 16 × BitVec 16) (input : List Byte) (r₀ : Reader) (ps : List (List Byte)) : Prop where
  opens : Reader.make env today (IStream.onFile input) = .ok r₀
  points : gives r₀ ps
  long : 227 ≤ input.length
  schema : NoSchema env r₀.hdr.vlrs
  record : formatSize r₀.hdr.schema.fmt ≤ r₀.hdr.dataRecordLength

/-- The scan angle of the record (its seventeenth byte, a signed number) is at most 90 degrees to either side. -/
def AngleOk (p : List Byte) : Prop := -90 ≤ (p.getD 16 0).toInt ∧ (p.getD 16 0).toInt ≤ 90

instance (p : List Byte) : Decidable (AngleOk p) := by unfold AngleOk; infer_instance

/-- The points to write: all, or those with a sensible scan angle. -/
def wanted (skipInvalid : Bool) (ps : List (List Byte)) : List (List Byte) :=
  if skipInvalid then ps.filter fun p => decide (AngleOk p) else ps

/-- A number as written. -/
inductive Val where
  /-- A double. -/
  | real (x : Fl)
  /-- A double, known by its bits. -/
  | bits (v : BitVec 64)
  | int (i : Int)
  /-- A Morton code of two places. -/
  | key (x y : Nat)

/-- The whole part of a number: what is left when the digits behind the point are cut off. -/
def Whole (x : Fl) (t : Int) : Prop := ∃ q : ℚ, x = .fin q ∧ |(t : ℚ)| ≤ |q| ∧ |q| < |(t : ℚ)| + 1 ∧ 0 ≤ (t : ℚ) * q

/-- What a letter stands for, in a point with attributes `a` and coordinates `x`, `y`, `z`, written as number `row`. `fx` and `fy` are what is
added to raw coordinates for Morton codes, of which 31 binary digits count. -/
def means (a : Attrs) (x y z : Fl) (fx fy : Int) (row : Nat) : Char → Option Val
  | 'x' => some (.real x)
  | 'y' => some (.real y)
  | 'z' => some (.real z)
  | 't' => some (.bits a.time)
  | 'i' => some (.int a.intensity.toNat)
  | 'a' => some (.int a.scanAngle.toInt)
  | 'r' => some (.int a.returnNumber)
  | 'c' => some (.int a.classification.flags.toNat)
  | 'u' => some (.int a.userData.toNat)
  | 'n' => some (.int a.numberOfReturns)
  | 'R' => some (.int a.color.c0.toNat)
  | 'G' => some (.int a.color.c1.toNat)
  | 'B' => some (.int a.color.c2.toNat)
  | 'M' => some (.int row)
  | 'p' => some (.int a.sourceId.toNat)
  | 'e' => some (.int a.edge)
  | 'd' => some (.int a.scanDirection)
  | 'k' => some (.key ((a.rawX.toInt + fx) % 2 ^ 31).toNat ((a.rawY.toInt + fy) % 2 ^ 31).toNat)
  | _ => none

/-- The letters that mean something. -/
def alphabet : List Char := ['x', 'y', 'z', 't', 'i', 'a', 'r', 'c', 'u', 'n', 'R', 'G', 'B', 'M', 'p', 'e', 'd', 'k']

/-- The value of a letter for the record `p` of a file with header `h`; the attributes and coordinates are those that the library
reports. -/
def Value (b : Build) (h : PHeader) (p : List Byte) (fx fy : Int) (row : Nat) (c : Char) (v : Val) : Prop :=
  ∃ a x y z, Point.observe b ⟨p, h⟩ = .ok a ∧ Point.getX b ⟨p, h⟩ = .ok x ∧ Point.getY b ⟨p, h⟩ = .ok y ∧ Point.getZ b ⟨p, h⟩ = .ok z ∧
    means a x y z fx fy row c = some v

end LibLAS.Spec.Dump
