import Verif.Spec.Dump
/-
Column files: the values of one attribute for all points, as numbers in memory order (lowest byte first).
-/
namespace LibLAS.Spec.Dump

/-- The bytes an element of a column has. -/
def width : Char → Nat
  | 'x' | 'y' | 'z' | 't' | 'k' => 8
  | 'X' | 'Y' | 'Z' | 'M' => 4
  | 'a' | 'c' | 'u' => 1
  | _ => 2

/-- The bytes denote the number. Integers are known up to a multiple of what the width can count: readers may take them as signed or not. -/
def Little : Val → List Byte → Prop
  | .real x, bs => Fl.ofBits (BitVec.ofNat 64 (leNat bs)) = x
  | .bits v, bs => leNat bs = v.toNat
  | .int i, bs => (leNat bs : Int) = i % 256 ^ bs.length
  | .key x y, bs => Interleaves (leNat bs) x y

/-- The letters of columns: those of `alphabet` and `X`, `Y`, `Z`. -/
def letters : List Char := ['X', 'Y', 'Z'] ++ alphabet

/-- What a letter stands for: `X`, `Y` and `Z` are the whole parts of the quotients of coordinates and scales. -/
def ColValue (b : Build) (h : PHeader) (p : List Byte) (fx fy : Int) (row : Nat) (c : Char) (v : Val) : Prop :=
  match c with
  | 'X' => ∃ x t, Point.getX b ⟨p, h⟩ = .ok x ∧ Whole (Fl.div x h.scale.x) t ∧ v = .int t
  | 'Y' => ∃ x t, Point.getY b ⟨p, h⟩ = .ok x ∧ Whole (Fl.div x h.scale.y) t ∧ v = .int t
  | 'Z' => ∃ x t, Point.getZ b ⟨p, h⟩ = .ok x ∧ Whole (Fl.div x h.scale.z) t ∧ v = .int t
  | c => Value b h p fx fy row c v

/-- The value of the letter fits 32 bits, if the letter is `X`, `Y` or `Z`. -/
def Fits (b : Build) (h : PHeader) (p : List Byte) (c : Char) : Prop :=
  c ∈ ['X', 'Y', 'Z'] → ∃ t, ColValue b h p 0 0 0 c (.int t) ∧ -(2 ^ 31) ≤ t ∧ t < 2 ^ 31

/-- A column: one element of the right width for every point, in order. -/
def Column (b : Build) (h : PHeader) (ps : List (List Byte)) (fx fy : Int) (c : Char) (bytes : List Byte) : Prop :=
  ∃ values : List (List Byte), bytes = values.flatten ∧ values.length = ps.length ∧
    ∀ j p bs, ps[j]? = some p → values[j]? = some bs → bs.length = width c ∧ ∃ v, ColValue b h p fx fy j c v ∧ Little v bs

end LibLAS.Spec.Dump
