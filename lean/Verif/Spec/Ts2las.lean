import Verif.Spec.Point
import Verif.Spec.Kernel
import Verif.Spec.Bytes
/-
A TerraScan file: a header of 56 bytes and the shots. Two layouts of a shot: 20 bytes in version 20020715, 16 bytes in the other
versions; four bytes of time and four bytes of colour follow if the header says so.
-/
namespace LibLAS.Spec.TerraScan

/-- What the header of the file says. -/
structure Survey where
  headerSize : BitVec 32
  version : BitVec 32
  units : BitVec 32
  origin : Vec3 (BitVec 64)
  time : BitVec 32
  color : BitVec 32
  deriving DecidableEq, Repr

/-- A shot. `color` are the four bytes of colour in the order of the file; `flag`, `mark` and `line` have no counterpart in LAS. -/
structure Shot where
  x : BitVec 32
  y : BitVec 32
  z : BitVec 32
  code : BitVec 8
  echo : BitVec 8
  flag : BitVec 8
  mark : BitVec 8
  line : BitVec 16
  intensity : BitVec 16
  time : BitVec 32
  color : BitVec 8 × BitVec 8 × BitVec 8 × BitVec 8
  deriving DecidableEq, Repr

/-- The versions of the format. -/
def known (v : BitVec 32) : Prop :=
  v = 970404 ∨ v = 20010129 ∨ v = 20010712 ∨ (20020715 ≤ v.toInt ∧ v.toInt < 20051231)

instance (v : BitVec 32) : Decidable (known v) := by unfold known; infer_instance

/-- The header in the file, with the number of shots. -/
def surveyBytes (f : Survey) (n : Nat) : List Byte :=
  leBytes 4 f.headerSize ++ leBytes 4 f.version ++ leBytes 4 (970401 : BitVec 32) ++ lit "CXYZ" ++
    leBytes 4 (BitVec.ofNat 32 n) ++ leBytes 4 f.units ++ leBytes 8 f.origin.x ++ leBytes 8 f.origin.y ++ leBytes 8 f.origin.z ++
    leBytes 4 f.time ++ leBytes 4 f.color

/-- A shot in the file. In the short layout echo and intensity share 16 bits, the echo the upper two, and the line has 8 bits. -/
def shotBytes (f : Survey) (s : Shot) : List Byte :=
  (if f.version = 20020715 then
    leBytes 4 s.x ++ leBytes 4 s.y ++ leBytes 4 s.z ++ [s.code, s.echo, s.flag, s.mark] ++ leBytes 2 s.line ++ leBytes 2 s.intensity
  else
    [s.code] ++ leBytes 1 s.line ++ leBytes 2 (BitVec.ofNat 16 (2 ^ 14 * s.echo.toNat + s.intensity.toNat)) ++
      leBytes 4 s.x ++ leBytes 4 s.y ++ leBytes 4 s.z) ++
  (if f.time ≠ 0 then leBytes 4 s.time else []) ++
  (if f.color ≠ 0 then [s.color.1, s.color.2.1, s.color.2.2.1, s.color.2.2.2] else [])

/-- The number of bytes of a shot without time and colour. -/
def coreSize (f : Survey) : Nat := if f.version = 20020715 then 20 else 16

/-- The short layout has room for 4 echoes and 14 bits of intensity. -/
def Fits (f : Survey) (s : Shot) : Prop := f.version = 20020715 ∨ (s.echo.toNat < 4 ∧ s.intensity.toNat < 2 ^ 14)

instance (f : Survey) (s : Shot) : Decidable (Fits f s) := by unfold Fits; infer_instance

/-- The whole file; anything may follow the shots. -/
def fileBytes (f : Survey) (shots : List Shot) (rest : List Byte) : List Byte :=
  surveyBytes f shots.length ++ (shots.map (shotBytes f)).flatten ++ rest

/-- The LAS format with room for what the shots have. -/
def format (f : Survey) : PointFormat :=
  match decide (f.time ≠ 0), decide (f.color ≠ 0) with
  | true, true => .f3
  | true, false => .f1
  | false, true => .f2
  | false, false => .f0

/-- Return number and number of returns by echo: 0 only echo, 1 first of many, 3 last of many, 2 intermediate (and everything
else). The number of returns of a first of many is not known: 0. -/
def returns (echo : BitVec 8) : Nat × Nat :=
  match echo.toNat with
  | 0 => (1, 1)
  | 1 => (1, 0)
  | 3 => (2, 2)
  | _ => (2, 3)

/-- The number of 1/5000 seconds as a number of seconds, up to 15 significant digits. -/
def Seconds (t : BitVec 32) (bits : BitVec 64) : Prop :=
  ∃ q : ℚ, Fl.ofBits bits = .fin q ∧ |q - t.toNat / 5000| ≤ (t.toNat / 5000 : ℚ) / 10 ^ 15

/-- The attributes of the point made of a shot. Red is the first byte of the colour, green the third, blue the second. -/
structure Shown (f : Survey) (s : Shot) (a : Attrs) : Prop where
  x : a.rawX = s.x
  y : a.rawY = s.y
  z : a.rawZ = s.z
  intensity : a.intensity = s.intensity
  returns : (a.returnNumber, a.numberOfReturns) = TerraScan.returns s.echo
  classification : a.classification = ⟨s.code⟩
  time : if f.time ≠ 0 then Seconds s.time a.time else a.time = 0
  color : if f.color ≠ 0 then a.color.c0.toNat = s.color.1.toNat ∧ a.color.c1.toNat = s.color.2.2.1.toNat ∧
      a.color.c2.toNat = s.color.2.1.toNat
    else a.color = ⟨0, 0, 0⟩
  rest : a.scanDirection = 0 ∧ a.edge = 0 ∧ a.scanAngle = 0 ∧ a.userData = 0 ∧ a.sourceId = 0

/-- The coordinate of a point as the library shows it, in units of the survey, is within 1/16 of a unit from the coordinate
of the shot less the origin. -/
def Placed (units : BitVec 32) (origin : ℚ) (raw : BitVec 32) (c : Fl) : Prop :=
  ∃ q : ℚ, c = .fin q ∧ |q * units.toInt - (raw.toInt - origin)| ≤ 1 / 16

/-- All the coordinates of an axis are placed, if the header has a unit and an ordinary origin. -/
def AxisPlaced (units : BitVec 32) (origin scale offset : BitVec 64) : Prop :=
  ∀ g : ℚ, Fl.ofBits origin = .fin g → |g| ≤ 2 ^ 44 → units ≠ 0 →
    ∀ raw, Placed units g raw (coordinate (Fl.ofBits scale) (Fl.ofBits offset) raw)

/-- What the header of the LAS file says about `n` shots. Bounds and counts by return are left at zero. -/
structure Tells (f : Survey) (n : Nat) (h : Header) : Prop where
  version : h.verMajor = 1 ∧ h.verMinor = 2
  fmt : h.schema.fmt = format f
  recLen : h.dataRecordLength = formatSize (format f)
  count : h.pointCount.toNat = n
  x : AxisPlaced f.units f.origin.x h.scale.x h.offset.x
  y : AxisPlaced f.units f.origin.y h.scale.y h.offset.y
  z : AxisPlaced f.units f.origin.z h.scale.z h.offset.z
  bounds : h.min = ⟨0, 0, 0⟩ ∧ h.max = ⟨0, 0, 0⟩
  returns : h.byReturn.take 5 = [0, 0, 0, 0, 0]

end LibLAS.Spec.TerraScan
