import Verif.Model.Bytes
import Verif.Model.Classification
import Verif.Model.Float
/-
src/point.cpp, include/liblas/point.hpp.
-/
namespace LibLAS

/-- include/liblas/version.hpp:89-98 `PointFormatName` (without the `ePointFormatUnknown` marker). -/
inductive PointFormat where
  | f0 | f1 | f2 | f3 | f4 | f5
  deriving DecidableEq, Repr

/-- A triple of per-axis values (scale or offset). -/
structure Vec3 (α : Type) where
  x : α
  y : α
  z : α
  deriving DecidableEq, Repr

/-- What a point uses of its header (src/point.cpp calls `GetDataRecordLength`, `GetDataFormatId`, `GetScaleX..Z`,
`GetOffsetX..Z` and `GetSchema().GetDimension("Time"|"Red")`). -/
structure PHeader where
  fmt : PointFormat
  recLen : Nat
  hasTimeDim : Bool
  hasRedDim : Bool
  scale : Vec3 Fl
  offset : Vec3 Fl
  deriving DecidableEq, Repr

/-- How the library was built: byte order of the host and the CMake option `WITH_ENDIANAWARE`
(CMakeLists.txt:296-298, macro `LIBLAS_ENDIAN_AWARE`). -/
structure Build where
  host : Host
  endianAware : Bool
  deriving DecidableEq, Repr

/-- include/liblas/point.hpp: `m_data` and `*m_header` (a non-null header; the null case falls back to a default
header and is not modelled). -/
structure Point where
  data : List Byte
  hdr : PHeader
  deriving DecidableEq, Repr

namespace Point

/-- src/point.cpp:66-73 constructor: a zeroed record of the header's record length. -/
def new (h : PHeader) : Point := ⟨List.replicate h.recLen 0#8, h⟩

/-- The load used by the integer and double getters, e.g. src/point.cpp:465-472: `bitsToInt` when
`LIBLAS_ENDIAN_AWARE`, otherwise `*reinterpret_cast<T*>(&m_data[0] + pos)`. -/
def getInt (b : Build) (p : Point) (pos n : Nat) (signed : Bool) : Outcome (BitVec (8 * n)) := do
  let bs ← readAt p.data pos n
  if b.endianAware then pure (bitsToInt b.host (8 * n) signed bs) else pure (memValue b.host (8 * n) bs)

/-- The store used by the integer and double setters: `intToBits`, e.g. src/point.cpp:506-513. -/
def setInt (b : Build) (p : Point) (pos n : Nat) (signed : Bool) (v : BitVec (8 * n)) : Outcome Point := do
  let d ← writeAt p.data pos (intToBits b.host signed n v)
  pure { p with data := d }

/-- `m_data[pos]` read, `std::vector::operator[]` unchecked. -/
def getByte (p : Point) (pos : Nat) : Outcome Byte :=
  match p.data[pos]? with
  | some x => .ok x
  | none => .ub

/-- `m_data[pos] = v`. -/
def setByte (p : Point) (pos : Nat) (v : Byte) : Outcome Point := do
  let d ← writeAt p.data pos [v]
  pure { p with data := d }

/-- src/point.cpp:459-473 -/
def getRawX (b : Build) (p : Point) : Outcome (BitVec 32) := getInt b p 0 4 true
/-- src/point.cpp:475-489 -/
def getRawY (b : Build) (p : Point) : Outcome (BitVec 32) := getInt b p 4 4 true
/-- src/point.cpp:491-505 -/
def getRawZ (b : Build) (p : Point) : Outcome (BitVec 32) := getInt b p 8 4 true
/-- src/point.cpp:507-513 -/
def setRawX (b : Build) (p : Point) (v : BitVec 32) : Outcome Point := setInt b p 0 4 true v
/-- src/point.cpp:515-521 -/
def setRawY (b : Build) (p : Point) (v : BitVec 32) : Outcome Point := setInt b p 4 4 true v
/-- src/point.cpp:523-529 -/
def setRawZ (b : Build) (p : Point) (v : BitVec 32) : Outcome Point := setInt b p 8 4 true v
/-- src/point.cpp:531-546 -/
def getIntensity (b : Build) (p : Point) : Outcome (BitVec 16) := getInt b p 12 2 false
/-- src/point.cpp:549-557 -/
def setIntensity (b : Build) (p : Point) (v : BitVec 16) : Outcome Point := setInt b p 12 2 false v
/-- src/point.cpp:559-567 -/
def getScanFlags (p : Point) : Outcome Byte := getByte p 14
/-- src/point.cpp:569-577 -/
def setScanFlags (p : Point) (v : Byte) : Outcome Point := setByte p 14 v

/-- src/point.cpp:579-589 -/
def getReturnNumber (p : Point) : Outcome (BitVec 16) := do
  let f ← getByte p 14
  pure ((f &&& 0x07#8).setWidth 16)

/-- The read-modify-write of the flag byte shared by the four setters: `flags &= ~mask;
flags |= mask & (static_cast<uint8_t>(num) << sh)` (src/point.cpp:591-603 and following). -/
def setFlagBits (p : Point) (mask : Byte) (sh : Nat) (num : BitVec 16) : Outcome Point := do
  let f ← getByte p 14
  setByte p 14 ((f &&& ~~~mask) ||| (mask &&& (num.setWidth 8 <<< sh)))

/-- src/point.cpp:591-603 -/
def setReturnNumber (p : Point) (num : BitVec 16) : Outcome Point := setFlagBits p 0x07#8 0 num
/-- src/point.cpp:605-617 -/
def getNumberOfReturns (p : Point) : Outcome (BitVec 16) := do
  let f ← getByte p 14
  pure (((f >>> 3) &&& 0x07#8).setWidth 16)
/-- src/point.cpp:619-633 -/
def setNumberOfReturns (p : Point) (num : BitVec 16) : Outcome Point := setFlagBits p 0x38#8 3 num
/-- src/point.cpp:650-659 -/
def getScanDirection (p : Point) : Outcome (BitVec 16) := do
  let f ← getByte p 14
  pure (((f >>> 6) &&& 0x01#8).setWidth 16)
/-- src/point.cpp:635-648 -/
def setScanDirection (p : Point) (dir : BitVec 16) : Outcome Point := setFlagBits p 0x40#8 6 dir
/-- src/point.cpp:677-687 -/
def getFlightLineEdge (p : Point) : Outcome (BitVec 16) := do
  let f ← getByte p 14
  pure (((f >>> 7) &&& 0x01#8).setWidth 16)
/-- src/point.cpp:661-675 -/
def setFlightLineEdge (p : Point) (edge : BitVec 16) : Outcome Point := setFlagBits p 0x80#8 7 edge

/-- src/point.cpp:690-698 -/
def getClassification (p : Point) : Outcome Classification := do
  let f ← getByte p 15
  pure ⟨f⟩
/-- src/point.cpp:700-722 (the three overloads store the same byte) -/
def setClassification (p : Point) (c : Classification) : Outcome Point := setByte p 15 c.flags
/-- src/point.cpp:733-740 (an `int8_t`, kept as its bit pattern) -/
def getScanAngleRank (p : Point) : Outcome (BitVec 8) := getByte p 16
/-- src/point.cpp:724-732 -/
def setScanAngleRank (p : Point) (v : BitVec 8) : Outcome Point := setByte p 16 v
/-- src/point.cpp:742-748 -/
def getUserData (p : Point) : Outcome (BitVec 8) := getByte p 17
/-- src/point.cpp:750-756 -/
def setUserData (p : Point) (v : BitVec 8) : Outcome Point := setByte p 17 v
/-- src/point.cpp:758-774 -/
def getPointSourceID (b : Build) (p : Point) : Outcome (BitVec 16) := getInt b p 18 2 false
/-- src/point.cpp:776-782 -/
def setPointSourceID (b : Build) (p : Point) (v : BitVec 16) : Outcome Point := setInt b p 18 2 false v

/-- src/point.cpp:784-803. The time is kept as the 64-bit pattern of the double. -/
def setTime (b : Build) (p : Point) (t : BitVec 64) : Outcome Point :=
  if p.hdr.fmt = .f0 ∨ p.hdr.fmt = .f2 then .throw .invalidFormat else setInt b p 20 8 false t

/-- src/point.cpp:805-834 -/
def getTime (b : Build) (p : Point) : Outcome (BitVec 64) :=
  if p.hdr.fmt = .f0 ∨ p.hdr.fmt = .f2 then .ok 0 else getInt b p 20 8 false

/-- src/point.cpp:835-896 -/
def getColor (b : Build) (p : Point) : Outcome Color :=
  if p.hdr.fmt = .f0 ∨ p.hdr.fmt = .f1 then .ok Color.black
  else do
    let pos := if p.hdr.fmt = .f3 then 28 else 20
    let r ← getInt b p pos 2 false
    let g ← getInt b p (pos + 2) 2 false
    let bl ← getInt b p (pos + 4) 2 false
    pure ⟨r, g, bl⟩

/-- src/point.cpp:898-941. The second test compares `m_data.size()` with the enumerator `ePointFormat0 = 0`, so it
throws on an empty record. -/
def setColor (b : Build) (p : Point) (c : Color) : Outcome Point :=
  if p.hdr.fmt = .f0 ∨ p.hdr.fmt = .f1 then .throw .invalidFormat
  else if p.data.length = 0 ∨ p.hdr.fmt = .f1 then .throw .invalidFormat
  else do
    let pos := if p.hdr.fmt = .f3 then 28 else 20
    let p ← setInt b p pos 2 false c.getRed
    let p ← setInt b p (pos + 2) 2 false c.getGreen
    setInt b p (pos + 4) 2 false c.getBlue

/-- include/liblas/detail/private_utility.hpp:67-69 `sround`. -/
def sround (r : Fl) : Fl :=
  if Fl.lt (.fin 0) r then Fl.floor (Fl.add r (.fin (1/2))) else Fl.ceil (Fl.sub r (.fin (1/2)))

/-- `GetX`: `(v * scale) + offset` (src/point.cpp:385-392). -/
def scaled (raw : BitVec 32) (scale offset : Fl) : Fl := Fl.add (Fl.mul (Fl.ofInt32 raw) scale) offset

/-- `SetX`: `static_cast<int32_t>(sround((value - offset) / scale))` (src/point.cpp:413-426). -/
def descaled (value scale offset : Fl) : Outcome (BitVec 32) :=
  Fl.toInt32 (sround (Fl.div (Fl.sub value offset) scale))

/-- src/point.cpp:385-392 -/
def getX (b : Build) (p : Point) : Outcome Fl := do
  let v ← getRawX b p
  pure (scaled v p.hdr.scale.x p.hdr.offset.x)
/-- src/point.cpp:394-400 -/
def getY (b : Build) (p : Point) : Outcome Fl := do
  let v ← getRawY b p
  pure (scaled v p.hdr.scale.y p.hdr.offset.y)
/-- src/point.cpp:402-411 -/
def getZ (b : Build) (p : Point) : Outcome Fl := do
  let v ← getRawZ b p
  pure (scaled v p.hdr.scale.z p.hdr.offset.z)
/-- src/point.cpp:413-426 -/
def setX (b : Build) (p : Point) (x : Fl) : Outcome Point := do
  let v ← descaled x p.hdr.scale.x p.hdr.offset.x
  setRawX b p v
/-- src/point.cpp:428-442 -/
def setY (b : Build) (p : Point) (y : Fl) : Outcome Point := do
  let v ← descaled y p.hdr.scale.y p.hdr.offset.y
  setRawY b p v
/-- src/point.cpp:444-457 -/
def setZ (b : Build) (p : Point) (z : Fl) : Outcome Point := do
  let v ← descaled z p.hdr.scale.z p.hdr.offset.z
  setRawZ b p v

/-- src/point.cpp:92-97 `SetCoordinates`. -/
def setCoordinates (b : Build) (p : Point) (x y z : Fl) : Outcome Point := do
  let p ← setX b p x
  let p ← setY b p y
  setZ b p z

/-- The literal `0.00001` of src/point.cpp:104 rounded to a double. -/
def eqEpsilon : Fl := Fl.ofRat (1 / 100000)

/-- `dx <= epsilon && dx >= -epsilon`. -/
def within (eps d : Fl) : Bool := Fl.le d eps && Fl.le (Fl.neg eps) d

/-- src/point.cpp:99-129 `Point::equal`. -/
def equal (b : Build) (p q : Point) : Outcome Bool := do
  let px ← getX b p
  let qx ← getX b q
  let py ← getY b p
  let qy ← getY b q
  let pz ← getZ b p
  let qz ← getZ b q
  pure (within eqEpsilon (Fl.sub px qx) && within eqEpsilon (Fl.sub py qy) && within eqEpsilon (Fl.sub pz qz))

/-- src/point.cpp:131-159 `Validate`: throws unless every member is in range. `eScanAngleRankMin/Max` are -90 and 90
(include/liblas/point.hpp:100-104). -/
def validate (p : Point) : Outcome Bool := do
  let rn ← getReturnNumber p
  let nr ← getNumberOfReturns p
  let sd ← getScanDirection p
  let fe ← getFlightLineEdge p
  let ar ← getScanAngleRank p
  if rn.toNat > 7 || nr.toNat > 7 || sd.toNat > 1 || fe.toNat > 1 || ar.toInt < -90 || ar.toInt > 90 then
    .throw .invalidPointData
  else pure true

/-- src/point.cpp:161-180 `IsValid`. -/
def isValid (p : Point) : Outcome Bool := do
  let ar ← getScanAngleRank p
  let fe ← getFlightLineEdge p
  let sd ← getScanDirection p
  let nr ← getNumberOfReturns p
  let rn ← getReturnNumber p
  if ar.toInt < -90 || ar.toInt > 90 then pure false
  else if fe.toNat > 1 then pure false
  else if sd.toNat > 1 then pure false
  else if nr.toNat > 7 then pure false
  else if rn.toNat > 7 then pure false
  else pure true

/-- `compare_distance<double>` (include/liblas/detail/private_utility.hpp:225-237), `epsilon()` is 2^-52. -/
def compareDistance (a e : Fl) : Bool := within (.fin (1 / 2 ^ 52)) (Fl.sub a e)

/-- The scaling test of src/point.cpp:213-222. -/
def sameScaling (a b : PHeader) : Bool :=
  compareDistance a.scale.x b.scale.x && compareDistance a.scale.y b.scale.y &&
  compareDistance a.scale.z b.scale.z && compareDistance a.offset.x b.offset.x &&
  compareDistance a.offset.y b.offset.y && compareDistance a.offset.z b.offset.z

/-- The copy branch of `SetHeader`, src/point.cpp:226-264: a fresh record filled through the accessors. -/
def copyInto (b : Build) (p : Point) (h : PHeader) : Outcome Point := do
  let q : Point := ⟨List.replicate h.recLen 0#8, h⟩
  let x ← getX b p
  let q ← setX b q x
  let y ← getY b p
  let q ← setY b q y
  let z ← getZ b p
  let q ← setZ b q z
  let i ← getIntensity b p
  let q ← setIntensity b q i
  let f ← getScanFlags p
  let q ← setScanFlags q f
  let c ← getClassification p
  let q ← setClassification q c
  let a ← getScanAngleRank p
  let q ← setScanAngleRank q a
  let u ← getUserData p
  let q ← setUserData q u
  let s ← getPointSourceID b p
  let q ← setPointSourceID b q s
  let q ← if h.hasTimeDim then do let t ← getTime b p; setTime b q t else pure q
  if h.hasRedDim then do let c ← getColor b p; setColor b q c else pure q

/-- Sum of the bytes of the record as accumulated by `std::accumulate(..., 0)` into an `int` and stored in a
`uint32_t` (src/point.cpp:202); at most 65535 bytes of at most 255, so no overflow. -/
def byteSum (d : List Byte) : Nat := (d.map BitVec.toNat).sum

/-- src/point.cpp:182-288 `SetHeader` for a non-null header. An exception part way leaves the point changed; that
intermediate state is not modelled (the outcome carries no point). -/
def setHeader (b : Build) (p : Point) (h : PHeader) : Outcome Point :=
  if byteSum p.data = 0 then .ok ⟨List.replicate h.recLen 0#8, h⟩
  else
    let rescale := !(sameScaling h p.hdr)
    do
      let q ← if h.recLen ≠ p.data.length then copyInto b p h else pure p
      if rescale then do
        -- `GetX()` uses the header the point has at this moment: the new one after the copy branch, else the old
        let x ← getX b q
        let y ← getY b q
        let z ← getZ b q
        let q := { q with hdr := h }
        let q ← setX b q x
        let q ← setY b q y
        setZ b q z
      else pure { q with hdr := h }

end Point
end LibLAS
