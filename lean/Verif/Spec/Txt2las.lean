import Verif.Spec.Las2txt
import Verif.Spec.Kernel
import Verif.Model.Txt2las
/-
What a line of text says about a point, read in the direction text to point, and what is required of the library's number
scanner.
-/
namespace LibLAS.Spec.Text

/-- Characters at which a number in a line ends. -/
def stop (c : Char) : Bool := c == ' ' || c == ',' || c == '\t' || c == '\r' || c == '\n'

/-- Blank, comma and tab: the characters between columns. -/
def between (c : Char) : Bool := c == ' ' || c == ',' || c == '\t'

/-- The text ends here or goes on with one of the characters that end a number. -/
def Ends (t : List Char) : Prop := ∀ c u, t = c :: u → stop c = true

/-- `sscanf` reads the plain numbers: an `int`, a `float` (integers up to 2^24 are floats), a `double` (the nearest one to the
decimal). And where a `#`, a quote or nothing but the line end comes first, it reads nothing. -/
structure Scans (sc : Txt2las.Scan) : Prop where
  d : ∀ {v : ℤ} {t rest : List Char}, ShowsInt v t → -2 ^ 31 ≤ v → v < 2 ^ 31 → Ends rest → sc.d (t ++ rest) = .ok (some v)
  f : ∀ {v : ℤ} {t rest : List Char}, ShowsInt v t → |v| ≤ 2 ^ 24 → Ends rest → sc.f (t ++ rest) = some (.fin v)
  lf : ∀ {p : Nat} {w : ℚ} {t rest : List Char}, Decimal p w t → Ends rest → sc.lf (t ++ rest) = some (Fl.ofRat w)
  none_d : ∀ {c : Char} {t : List Char}, c = '#' ∨ c = '"' ∨ (c = '\n' ∧ t = []) → sc.d (c :: t) = .ok none
  none_lf : ∀ {c : Char} {t : List Char}, c = '#' ∨ c = '"' ∨ (c = '\n' ∧ t = []) → sc.lf (c :: t) = none

/-- The text begins with these columns: before each any number of blanks, commas and tabs, but at least one between two; the
last one ends where a number ends. What comes behind is not restricted. -/
inductive Columns : List (List Char) → List Char → Prop
  | nil (rest : List Char) : Columns [] rest
  | cons {gap field rest : List Char} {fields : List (List Char)} : (∀ c ∈ gap, between c = true) → field ≠ [] →
      (∀ c ∈ field, stop c = false) → Ends rest → (fields ≠ [] → ∃ c u, rest = c :: u ∧ between c = true) →
      Columns fields rest → Columns (field :: fields) (gap ++ field ++ rest)

/-- What the text of a column says about a point: the number is the attribute that the letter stands for. A coordinate is a
decimal whose nearest double the setter of the coordinate turns into the stored integer, a time is the nearest double (the
negative zero is left out). `s` is a column that is skipped. -/
def Says (scale offset : Vec3 Fl) (c : Char) (t : List Char) (a : Attrs) : Prop :=
  match c with
  | 'x' => ∃ p w, Decimal p w t ∧ Point.descaled (Fl.ofRat w) scale.x offset.x = .ok a.rawX
  | 'y' => ∃ p w, Decimal p w t ∧ Point.descaled (Fl.ofRat w) scale.y offset.y = .ok a.rawY
  | 'z' => ∃ p w, Decimal p w t ∧ Point.descaled (Fl.ofRat w) scale.z offset.z = .ok a.rawZ
  | 's' => True
  | 't' => ∃ p w, Decimal p w t ∧ a.time = (Fl.ofRat w).toBits ∧ (Fl.ofRat w = .fin 0 → t.head? ≠ some '-')
  | 'i' => ShowsInt a.intensity.toNat t
  | 'a' => ShowsInt a.scanAngle.toInt t
  | 'n' => ShowsInt a.numberOfReturns t
  | 'r' => ShowsInt a.returnNumber t
  | 'c' => ShowsInt a.classification.flags.toNat t
  | 'u' => ShowsInt a.userData.toNat t
  | 'p' => ShowsInt a.sourceId.toNat t
  | 'e' => ShowsInt a.edge t
  | 'd' => ShowsInt a.scanDirection t
  | 'R' => ShowsInt a.color.c0.toNat t
  | 'G' => ShowsInt a.color.c1.toNat t
  | 'B' => ShowsInt a.color.c2.toNat t
  | _ => False

/-- The values a point can have. -/
def Possible (a : Attrs) : Prop := a.returnNumber < 8 ∧ a.numberOfReturns < 8 ∧ a.scanDirection < 2 ∧ a.edge < 2

/-- The text of a column is a number that the attribute can have. -/
def Fits (scale offset : Vec3 Fl) (c : Char) (t : List Char) : Prop := ∃ a, Possible a ∧ Says scale offset c t a

/-- A line with a column for every letter, each with a number that fits. -/
def Row (scale offset : Vec3 Fl) (letters : List Char) (fields : List (List Char)) (line : List Char) : Prop :=
  Columns fields line ∧ List.Forall₂ (Fits scale offset) letters fields

/-- A line without numbers: `#` or a quote comes first, or nothing at all. -/
def Comment (line : List Char) : Prop :=
  ∃ gap rest, line = gap ++ rest ++ ['\n'] ∧ (∀ c ∈ gap, between c = true) ∧ (∀ c u, rest = c :: u → c = '#' ∨ c = '"')

/-- A line of a file as `fgets` with a buffer of 512 sees it. -/
def OneLine (line : List Char) : Prop :=
  ∃ t, line = t ++ ['\n'] ∧ t.length ≤ 510 ∧ '\n' ∉ t ∧ '\x00' ∉ t

/-- The lines of a text: comments, which are skipped, and rows, whose columns are `rows`. -/
inductive Content (scale offset : Vec3 Fl) (letters : List Char) : List (List Char) → List (List (List Char)) → Prop
  | nil : Content scale offset letters [] []
  | row {line : List Char} {lines : List (List Char)} {fields : List (List Char)} {rows : List (List (List Char))} : OneLine line →
      Row scale offset letters fields line → Content scale offset letters lines rows →
      Content scale offset letters (line :: lines) (fields :: rows)
  | comment {line : List Char} {lines : List (List Char)} {rows : List (List (List Char))} : OneLine line → Comment line →
      (∃ c cs, letters = c :: cs ∧ c ∈ ['x', 'y', 'z', 'r']) → Content scale offset letters lines rows →
      Content scale offset letters (line :: lines) rows

/-- The format that has room for the letters. -/
def formatOf (letters : List Char) : PointFormat :=
  if 'R' ∈ letters ∨ 'G' ∈ letters ∨ 'B' ∈ letters then if 't' ∈ letters then .f3 else .f2
  else if 't' ∈ letters then .f1 else .f0

/-- What txt2las can be asked for: the three coordinates are among the letters, no letter except `s` twice, identifiers of
at most 30 characters. -/
structure Asked (o : Txt2las.Opts) : Prop where
  x : 'x' ∈ o.parse
  y : 'y' ∈ o.parse
  z : 'z' ∈ o.parse
  once : (o.parse.filter (· ≠ 's')).Nodup
  system : ∀ t, o.systemId = some t → (cstr t).length ≤ 30
  software : ∀ t, o.softwareId = some t → (cstr t).length ≤ 30

/-- Scale or offset of the options as numbers. -/
def numbers (v : Vec3 (BitVec 64)) : Vec3 Fl := ⟨Fl.ofBits v.x, Fl.ofBits v.y, Fl.ofBits v.z⟩

/-- An identifier of the new header: the one asked for, or else the library's. -/
def idOr (default : List Byte) : Option (List Byte) → List Byte
  | some t => cstr t
  | none => default

/-- The number that the header of the new file has as a bound at the stored coordinate `raw`: the coordinate, or, when the stored integer is
negative, the one of the next integer. -/
def bound (s o : Fl) (raw : BitVec 32) : Fl := coordinate s o (if raw.toInt < 0 then raw + 1 else raw)

/-- The two bounds of an axis in the header belong to the lowest and the highest stored coordinate. -/
def BoundsAt (s o : Fl) (raws : List (BitVec 32)) (lo hi : BitVec 64) : Prop :=
  (∃ m ∈ raws, (∀ r ∈ raws, m.toInt ≤ r.toInt) ∧ Fl.ofBits lo = bound s o m) ∧
  (∃ m ∈ raws, (∀ r ∈ raws, r.toInt ≤ m.toInt) ∧ Fl.ofBits hi = bound s o m)

/-- What the header of the new file tells about points with these attributes. -/
structure Tells (o : Txt2las.Opts) (as : List Attrs) (h : Header) : Prop where
  fmt : h.schema.fmt = formatOf o.parse
  recLen : h.dataRecordLength = formatSize (formatOf o.parse)
  scale : h.scale = o.scale
  offset : h.offset = o.offset
  count : h.pointCount.toNat = as.length
  returns : h.byReturn.take 5 = (List.range 5).map fun i => tally as fun a => a.returnNumber == i + 1
  x : OrdinaryAxis (numbers o.scale).x (numbers o.offset).x →
    BoundsAt (numbers o.scale).x (numbers o.offset).x (as.map (·.rawX)) h.min.x h.max.x
  y : OrdinaryAxis (numbers o.scale).y (numbers o.offset).y →
    BoundsAt (numbers o.scale).y (numbers o.offset).y (as.map (·.rawY)) h.min.y h.max.y
  z : OrdinaryAxis (numbers o.scale).z (numbers o.offset).z →
    BoundsAt (numbers o.scale).z (numbers o.offset).z (as.map (·.rawZ)) h.min.z h.max.z
  system : h.getSystemId false = idOr (lit "libLAS") o.systemId
  software : h.getSoftwareId false = idOr (lit "libLAS 1.8.2") o.softwareId
  day : h.doy = o.doy
  year : h.year = o.year

/-- The attributes are those of the row: each column is the attribute of its letter, and attributes without a letter are zero. -/
def RowIs (o : Txt2las.Opts) (fields : List (List Char)) (a : Attrs) : Prop :=
  List.Forall₂ (fun c t => Says (numbers o.scale) (numbers o.offset) c t a) o.parse fields ∧
    ∀ c ∈ "ianrcupedtRGB".toList, c ∉ o.parse → Says (numbers o.scale) (numbers o.offset) c ['0'] a

end LibLAS.Spec.Text
