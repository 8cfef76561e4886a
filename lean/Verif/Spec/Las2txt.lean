import Verif.Spec.Point
import Verif.Model.Float
import Mathlib.Data.Rat.Defs
import Mathlib.Algebra.Order.Field.Rat
/-
What a line of text says about a point. Numbers are read the way everybody reads decimals; nothing here mentions how the
text is produced.
-/
namespace LibLAS.Spec.Text

/-- The number that a string of digits denotes. -/
def numeral (t : List Char) : Nat := t.foldl (fun n c => 10 * n + (c.toNat - '0'.toNat)) 0

/-- Only digits, at least one. -/
def Digits (t : List Char) : Prop := t ≠ [] ∧ ∀ c ∈ t, '0' ≤ c ∧ c ≤ '9'

/-- Digits without superfluous zeros in front. -/
def Plain (t : List Char) : Prop := Digits t ∧ (t.head? = some '0' → t = ['0'])

/-- The text is the integer `v` in decimal notation. -/
def ShowsInt (v : Int) (t : List Char) : Prop :=
  ∃ ds, t = (if v < 0 then ['-'] else []) ++ ds ∧ Plain ds ∧ numeral ds = v.natAbs

/-- The text denotes the rational `v` with exactly `p` decimals. -/
def Decimal (p : Nat) (v : ℚ) (t : List Char) : Prop :=
  ∃ (neg : Bool) (i f : List Char), t = (if neg then ['-'] else []) ++ i ++ (if p = 0 then [] else '.' :: f) ∧ Plain i ∧
    f.length = p ∧ (∀ c ∈ f, '0' ≤ c ∧ c ≤ '9') ∧ v = (if neg then -1 else 1) * (numeral (i ++ f) / 10 ^ p : ℚ)

/-- The text is `x` with `p` decimals, at most half a unit of the last decimal away from it. -/
def ShowsReal (p : Nat) (x : Fl) (t : List Char) : Prop :=
  match x with
  | .nan => t = "nan".toList
  | .inf n => t = if n then "-inf".toList else "inf".toList
  | .fin q => ∃ v : ℚ, Decimal p v t ∧ |v - q| ≤ 1 / 2 / 10 ^ p ∧ (t.head? = some '-' ↔ q < 0)

/-- The text of a letter: the attribute it stands for (the help text of the program), nothing for an unknown letter.
`px`, `py`, `pz`, `pt` are the numbers of decimals, `index` is the number of the point. -/
def Shows (a : Attrs) (x y z time : Fl) (px py pz pt : Nat) (index : Nat) (c : Char) (t : List Char) : Prop :=
  match c with
  | 'x' => ShowsReal px x t
  | 'y' => ShowsReal py y t
  | 'z' => ShowsReal pz z t
  | 'X' => ShowsInt a.rawX.toInt t
  | 'Y' => ShowsInt a.rawY.toInt t
  | 'Z' => ShowsInt a.rawZ.toInt t
  | 't' => ShowsReal pt time t
  | 'i' => ShowsInt a.intensity.toNat t
  | 'a' => ShowsInt a.scanAngle.toInt t
  | 'r' => ShowsInt a.returnNumber t
  | 'c' => ShowsInt (a.classification.flags.toNat % 32 : Nat) t
  | 'C' => String.ofList t = className (a.classification.flags.toNat % 32)
  | 'u' => ShowsInt a.userData.toNat t
  | 'n' => ShowsInt a.numberOfReturns t
  | 'R' => ShowsInt a.color.c0.toNat t
  | 'G' => ShowsInt a.color.c1.toNat t
  | 'B' => ShowsInt a.color.c2.toNat t
  | 'M' => ShowsInt (index % 2 ^ 32 : Nat) t
  | 'p' => ShowsInt a.sourceId.toNat t
  | 'e' => ShowsInt a.edge t
  | 'd' => ShowsInt a.scanDirection t
  | _ => t = []

/-- A line: one text per letter, the delimiter between them, a line end. -/
def Line (show1 : Char → List Char → Prop) (parse delimiter line : List Char) : Prop :=
  ∃ fields : List (List Char), List.Forall₂ show1 parse fields ∧ line = delimiter.intercalate fields ++ ['\n']

/-- The headings of the columns. -/
def headings : List (Char × String) :=
  [('x', "X"), ('y', "Y"), ('z', "Z"), ('X', "Raw X"), ('Y', "Raw Y"), ('Z', "Raw Z"), ('t', "Time"), ('i', "Intensity"),
   ('a', "Scan Angle"), ('r', "Return Number"), ('n', "Number of Returns"), ('c', "Classification"),
   ('C', "Classification Name"), ('u', "User Data"), ('p', "Point Source ID"), ('e', "Flight Line Edge"),
   ('d', "Scan Direction"), ('R', "Red"), ('G', "Green"), ('B', "Blue"), ('M', "ID")]

/-- The heading of a letter, in quotes. -/
def Heading (c : Char) (t : List Char) : Prop :=
  t = match headings.lookup c with
    | some s => '"' :: s.toList ++ ['"']
    | none => []

/-- What decimals a user asked for: three or four numbers, or by the scale of the header when every scale is the double
nearest to a negative power of ten. Times have 8 decimals unless asked otherwise. -/
def Decimals (sx sy sz : Fl) (px py pz pt : Nat) : Option (List (BitVec 32)) → Prop
  | some l => l.map BitVec.toNat = [px, py, pz, pt] ∨ (l.map BitVec.toNat = [px, py, pz] ∧ pt = 8)
  | none => pt = 8 ∧ ∀ s k, (s, k) ∈ [(sx, px), (sy, py), (sz, pz)] → 1 ≤ k ∧ k ≤ 300 ∧ s = Fl.ofRat (1 / 10 ^ k)

/-- The delimiter: a comma unless one is given; a backslash followed by `t` or `n` means tab or newline. -/
def Delimiter (asked : Option (List Char)) (d : List Char) : Prop :=
  asked = none ∧ d = [','] ∨ asked = some ['\\', 't'] ∧ d = ['\t'] ∨ asked = some ['\\', 'n'] ∧ d = ['\n'] ∨
    asked = some d ∧ d ≠ ['\\', 't'] ∧ d ≠ ['\\', 'n']

/-- The library function is exact where the logarithm is an integer: at the doubles nearest to negative powers of ten. -/
def ExactLog10 (log10 : Fl → Fl) : Prop := ∀ k : Nat, 1 ≤ k → k ≤ 300 → log10 (Fl.ofRat (1 / 10 ^ k)) = .fin (-(k : ℚ))

/-- The characters numbers are written with. -/
def numberChar (c : Char) : Bool := ('0' ≤ c && c ≤ '9') || c == '-' || c == '.' || c == 'n' || c == 'a' || c == 'i' || c == 'f'

/-- Text as a table: cut at line ends, each line cut at the delimiter. -/
def table (d : Char) (text : List Char) : List (List (List Char)) := (text.splitOn '\n').dropLast.map (fun l => l.splitOn d)

/-- Conditions on the scale and offset of an axis, and a number of decimals, under which printing loses nothing: the scale
is neither tiny nor huge, the offset not too large in units of the scale, and either the last decimal is finer than the scale,
or the scale is the double nearest to the unit of the last decimal and the offset is close to a multiple of that. -/
def FineEnough (scale offset : Fl) (p : Nat) : Prop :=
  ∃ s o : ℚ, scale = .fin s ∧ offset = .fin o ∧ 1 / 2 ^ 1000 ≤ |s| ∧ |s| ≤ 2 ^ 900 ∧ |o| ≤ 2 ^ 45 * |s| ∧
    (1 / 10 ^ p ≤ 4 / 5 * |s| ∨ (p ≤ 300 ∧ scale = Fl.ofRat (1 / 10 ^ p) ∧ ∃ k : ℤ, |o - k / 10 ^ p| ≤ 3 / 10 * |s|))

end LibLAS.Spec.Text
