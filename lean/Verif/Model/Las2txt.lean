import Verif.Model.Reader
import Verif.Model.FloatText
import Mathlib.Data.Nat.Digits.Defs
/-
apps/las2txt.cpp: points as lines of text. Text is a list of characters; the streams have the classic locale.
Not modelled: `--header`, `--verbose`, the messages.
-/
namespace LibLAS.Las2txt

/-- Decimal digits (`operator<<` of an unsigned integer; platform). -/
def natText (n : Nat) : List Char := if n = 0 then ['0'] else (Nat.digits 10 n).reverse.map Nat.digitChar

/-- `operator<<` of a signed integer (platform). -/
def intText (i : Int) : List Char := if i < 0 then '-' :: natText i.natAbs else natText i.natAbs

/-- Zeros in front, up to `k` characters. -/
def padZeros (k : Nat) (t : List Char) : List Char := List.replicate (k - t.length) '0' ++ t

/-- `operator<<` of a `double` in fixed notation with precision `p`, correctly rounded (platform). A NaN of either sign is
`nan` and a zero of either sign has no sign. -/
def fixedText (p : Nat) : Fl → List Char
  | .nan => ['n', 'a', 'n']
  | .inf n => if n then ['-', 'i', 'n', 'f'] else ['i', 'n', 'f']
  | .fin q =>
    let ds := padZeros (p + 1) (natText (Fl.rne (|q| * 10 ^ p)).toNat)
    let k := ds.length - p
    (if q < 0 then ['-'] else []) ++ ds.take k ++ (if p = 0 then [] else '.' :: ds.drop k)

/-- apps/las2txt.cpp:377, `boost::array<uint32_t, 4> precisions`. -/
structure Precisions where
  x : BitVec 32
  y : BitVec 32
  z : BitVec 32
  t : BitVec 32

/-- apps/las2txt.cpp:44-126: the label of a letter; nothing for other letters. -/
def label (c : Char) : List Char :=
  match c with
  | 'x' => "\"X\"".toList
  | 'y' => "\"Y\"".toList
  | 'z' => "\"Z\"".toList
  | 'X' => "\"Raw X\"".toList
  | 'Y' => "\"Raw Y\"".toList
  | 'Z' => "\"Raw Z\"".toList
  | 't' => "\"Time\"".toList
  | 'i' => "\"Intensity\"".toList
  | 'a' => "\"Scan Angle\"".toList
  | 'r' => "\"Return Number\"".toList
  | 'c' => "\"Classification\"".toList
  | 'C' => "\"Classification Name\"".toList
  | 'u' => "\"User Data\"".toList
  | 'n' => "\"Number of Returns\"".toList
  | 'R' => "\"Red\"".toList
  | 'G' => "\"Green\"".toList
  | 'B' => "\"Blue\"".toList
  | 'M' => "\"ID\"".toList
  | 'p' => "\"Point Source ID\"".toList
  | 'e' => "\"Flight Line Edge\"".toList
  | 'd' => "\"Scan Direction\"".toList
  | _ => []

/-- apps/las2txt.cpp:152-252: the text of one letter for the point. `col` is the colour fetched before the loop (:149). -/
def field (b : Build) (pr : Precisions) (index : BitVec 32) (p : Point) (col : Color) (c : Char) : Outcome (List Char) :=
  match c with
  | 'x' => do let v ← Point.getX b p; pure (fixedText pr.x.toNat v)
  | 'y' => do let v ← Point.getY b p; pure (fixedText pr.y.toNat v)
  | 'z' => do let v ← Point.getZ b p; pure (fixedText pr.z.toNat v)
  | 'X' => do let v ← Point.getRawX b p; pure (intText v.toInt)
  | 'Y' => do let v ← Point.getRawY b p; pure (intText v.toInt)
  | 'Z' => do let v ← Point.getRawZ b p; pure (intText v.toInt)
  | 't' => do let v ← Point.getTime b p; pure (fixedText pr.t.toNat (Fl.ofBits v))
  | 'i' => do let v ← Point.getIntensity b p; pure (natText v.toNat)
  | 'a' => do let v ← Point.getScanAngleRank p; pure (intText v.toInt)
  | 'r' => do let v ← Point.getReturnNumber p; pure (natText v.toNat)
  | 'c' => do let v ← Point.getClassification p; pure (natText v.getClass.toNat)
  | 'C' => do let v ← Point.getClassification p; let s ← v.getClassName; pure s.toList
  | 'u' => do let v ← Point.getUserData p; pure (natText v.toNat)
  | 'n' => do let v ← Point.getNumberOfReturns p; pure (natText v.toNat)
  | 'R' => .ok (natText col.getRed.toNat)
  | 'G' => .ok (natText col.getGreen.toNat)
  | 'B' => .ok (natText col.getBlue.toNat)
  | 'M' => .ok (natText index.toNat)
  | 'p' => do let v ← Point.getPointSourceID b p; pure (natText v.toNat)
  | 'e' => do let v ← Point.getFlightLineEdge p; pure (natText v.toNat)
  | 'd' => do let v ← Point.getScanDirection p; pure (natText v.toNat)
  | _ => .ok []

/-- apps/las2txt.cpp:41-141, :149-266: the loop over the letters. After the terminating zero of an empty string the next
character is outside it. -/
def letters (f : Char → Outcome (List Char)) (delimiter : List Char) : List Char → Outcome (List Char)
  | [] => .ub
  | [c] => do let t ← f c; pure (t ++ ['\n'])
  | c :: rest => do
    let t ← f c
    let ts ← letters f delimiter rest
    pure (t ++ delimiter ++ ts)

/-- apps/las2txt.cpp:34-137 `GetLabels`. -/
def getLabels (parse delimiter : List Char) : Outcome (List Char) := letters (fun c => .ok (label c)) delimiter parse

/-- apps/las2txt.cpp:139-270 `GetPointString`. -/
def getPointString (b : Build) (parse delimiter : List Char) (p : Point) (pr : Precisions) (index : BitVec 32) :
    Outcome (List Char) := do
  let col ← Point.getColor b p
  letters (field b pr index p col) delimiter parse

/-- apps/las2txt.cpp:322-334: the loop over the points, with the number of turns still allowed. -/
def pointLoop (b : Build) (parse delimiter : List Char) (pr : Precisions) : Nat → Reader → BitVec 32 → Outcome (List Char)
  | 0, _, _ => .ub
  | k + 1, r, i =>
    match r.readNext with
    | (r, .ok true) => do
      let t ← getPointString b parse delimiter ⟨r.point, r.hdr.toP⟩ pr i
      let ts ← pointLoop b parse delimiter pr k r (i + 1)
      pure (t ++ ts)
    | (_, .ok false) => .ok []
    | (_, .throw e) => .throw e
    | (_, .ub) => .ub

/-- The fractional part of `std::modf` (both zeros are 0). -/
def frac : Fl → Fl
  | .fin q => .fin (q - (if 0 ≤ q then ⌊q⌋ else ⌈q⌉))
  | .inf _ => .fin 0
  | .nan => .nan

/-- `std::fabs`. -/
def fabs : Fl → Fl
  | .fin q => .fin |q|
  | .inf _ => .inf false
  | .nan => .nan

/-- `static_cast<uint32_t>` of a non-negative double: undefined for NaN and values that do not fit. -/
def toUInt32 : Fl → Outcome (BitVec 32)
  | .fin q => if 0 ≤ q ∧ q < 2 ^ 32 then .ok (BitVec.ofNat 32 ⌊q⌋.toNat) else .ub
  | _ => .ub

/-- src/utility.cpp:736-746 `GetStreamPrecision`; `log10` is the function of the platform's library. -/
def streamPrecision (log10 : Fl → Fl) (scale : Fl) : Outcome (BitVec 32) :=
  toUInt32 (fabs (Fl.floor (log10 (frac scale))))

/-- The command line. -/
structure Opts where
  parse : List Char
  delimiter : Option (List Char)
  labels : Bool
  precision : Option (List (BitVec 32))
  filters : List (List Byte → Bool)

/-- apps/las2txt.cpp:371, :560-577: the delimiter; the two-character texts for tab and newline are replaced. -/
def delimiterOf : Option (List Char) → List Char
  | none => [',']
  | some d => if d = ['\\', 't'] then ['\t'] else if d = ['\\', 'n'] then ['\n'] else d

/-- apps/las2txt.cpp:506-558: from the option (its numbers already parsed) or from the header. -/
def choosePrecisions (log10 : Fl → Fl) (h : PHeader) : Option (List (BitVec 32)) → Outcome Precisions
  | some [x, y, z] => .ok ⟨x, y, z, 8⟩
  | some [x, y, z, t] => .ok ⟨x, y, z, t⟩
  | some _ => .throw .runtimeError
  | none => do
    let x ← streamPrecision log10 h.scale.x
    let y ← streamPrecision log10 h.scale.y
    let z ← streamPrecision log10 h.scale.z
    pure ⟨x, y, z, 8⟩

/-- apps/las2txt.cpp:360-606 `main`, with apps/las2txt.cpp:282-339 `write_points`: the text written. The file is opened
twice, once for its header. There are no transforms. -/
def main (env : Env) (today : BitVec 16 × BitVec 16) (b : Build) (log10 : Fl → Fl) (o : Opts) (input : List Byte) :
    Outcome (List Char) := do
  let r0 ← Reader.make env today (IStream.onFile input)
  let pr ← choosePrecisions log10 r0.hdr.toP o.precision
  let delimiter := delimiterOf o.delimiter
  let r ← Reader.make env today (IStream.onFile input)
  let r := (r.setFilters o.filters).setTransforms []
  let head ← if o.labels then getLabels o.parse delimiter else .ok []
  let body ← pointLoop b o.parse delimiter pr (r.size + 1) r 0
  pure (head ++ body)

end LibLAS.Las2txt
