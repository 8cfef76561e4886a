import Verif.Model.Schema
/-
src/variablerecord.cpp, src/header.cpp, src/spatialreference.cpp (the part that only moves variable records).
Text is a list of bytes (`std::string` of `char`).
-/
namespace LibLAS

/-- `std::string(array.begin(), array.end()).c_str()`: the text up to the first NUL. -/
def cstr (bs : List Byte) : List Byte := bs.takeWhile (· != 0#8)

/-- `tmp.resize(n, 0)` for `tmp.size() <= n`. -/
def padTo (n : Nat) (bs : List Byte) : List Byte := bs ++ List.replicate (n - bs.length) 0#8

/-- The bytes of an ASCII literal. -/
def lit (s : String) : List Byte := s.toList.map fun c => BitVec.ofNat 8 c.toNat

/-- include/liblas/variablerecord.hpp:136-141. -/
structure VLR where
  reserved : BitVec 16
  userId : List Byte
  recordId : BitVec 16
  recordSize : BitVec 16
  description : List Byte
  data : List Byte
  deriving DecidableEq, Repr

namespace VLR

/-- src/variablerecord.cpp:59-67 default constructor. -/
def new : VLR where
  reserved := 0xAABB#16
  userId := List.replicate 16 0#8
  recordId := 0#16
  recordSize := 0#16
  description := List.replicate 32 0#8
  data := List.replicate 40 0#8

/-- src/variablerecord.cpp:107-121 `GetUserId(pad)`. -/
def getUserId (v : VLR) (pad : Bool) : List Byte :=
  let t := cstr v.userId
  if pad && t.length < 16 then padTo 16 t else t

/-- src/variablerecord.cpp:123-134 `SetUserId`: object after the call and outcome. -/
def setUserId (v : VLR) (id : List Byte) : VLR × Outcome Unit :=
  if id.length > 16 then (v, .throw .invalidArgument)
  else ({ v with userId := padTo 16 id }, .ok ())

/-- src/variablerecord.cpp:156-170 `GetDescription(pad)`. -/
def getDescription (v : VLR) (pad : Bool) : List Byte :=
  let t := cstr v.description
  if pad && t.length < 32 then padTo 32 t else t

/-- src/variablerecord.cpp:172-180 `SetDescription`. -/
def setDescription (v : VLR) (text : List Byte) : VLR × Outcome Unit :=
  if text.length > 32 then (v, .throw .invalidArgument)
  else ({ v with description := padTo 32 text }, .ok ())

/-- src/variablerecord.cpp:202-212 `GetTotalSize`. -/
def totalSize (v : VLR) : Nat := 2 + 16 + 2 + 2 + 32 + v.data.length

/-- src/variablerecord.cpp:193-200 `equal`: the data are not compared. -/
def equal (v w : VLR) : Bool :=
  v.recordId == w.recordId && v.userId == w.userId && v.description == w.description &&
    v.reserved == w.reserved && v.recordSize == w.recordSize

/-- src/header.cpp:597-605 `SameVLRs`. -/
def same (name : List Byte) (id : BitVec 16) (v : VLR) : Bool := v.getUserId false == name && v.recordId == id

/-- src/spatialreference.cpp:189-219 `IsGeoVLR`. -/
def isGeo (v : VLR) : Bool :=
  let uid := cstr (v.getUserId true)
  (uid == lit "LASF_Projection" && (v.recordId == 34735#16 || v.recordId == 34736#16 || v.recordId == 34737#16)) ||
  (uid == lit "liblas" && v.recordId == 2112#16)

/-- src/schema.cpp:570-584 `IsSchemaVLR`. -/
def isSchema (v : VLR) : Bool := v.getUserId false == lit "liblas" && v.recordId == 7#16

end VLR

/-- include/liblas/header.hpp:401-430. Doubles are their IEEE bit patterns (nothing in the modelled code computes with
them here). The extent is modelled by its six values as seen through `GetMinX` ... `GetMaxZ`. `srs` is the list of
variable records held by `m_srs` (build without GDAL and libgeotiff). -/
structure Header where
  signature : List Byte
  sourceId : BitVec 16
  reserved : BitVec 16
  guid : List Byte
  verMajor : BitVec 8
  verMinor : BitVec 8
  systemId : List Byte
  softwareId : List Byte
  doy : BitVec 16
  year : BitVec 16
  headerSize : BitVec 16
  dataOffset : BitVec 32
  recordsCount : BitVec 32
  pointCount : BitVec 32
  byReturn : List (BitVec 32)
  scale : Vec3 (BitVec 64)
  offset : Vec3 (BitVec 64)
  max : Vec3 (BitVec 64)
  min : Vec3 (BitVec 64)
  vlrs : List VLR
  srs : List VLR
  compressed : Bool
  padding : BitVec 32
  schema : Schema
  deriving DecidableEq, Repr

namespace Header

/-- The bit pattern of the double 1.0. -/
def one : BitVec 64 := 0x3FF0000000000000#64

/-- src/header.cpp:77-80 and :553-595 default header, with the day and year of the clock as parameters. The schema
is that of format 3 (`Schema.make .f3` does not throw). -/
def new (doy year : BitVec 16) : Header where
  signature := lit "LASF"
  sourceId := 0
  reserved := 0
  guid := List.replicate 16 0#8
  verMajor := 1
  verMinor := 2
  systemId := padTo 32 (lit "libLAS")
  softwareId := padTo 32 (lit "libLAS 1.8.2")
  doy := doy
  year := year
  headerSize := 227
  dataOffset := 227
  recordsCount := 0
  pointCount := 0
  byReturn := List.replicate 7 0
  scale := ⟨one, one, one⟩
  offset := ⟨0, 0, 0⟩
  max := ⟨0, 0, 0⟩
  min := ⟨0, 0, 0⟩
  vlrs := []
  srs := []
  compressed := false
  padding := 0
  schema := match Schema.make .f3 with
    | .ok s => s
    | _ => ⟨.f3, 0, 0, 0, []⟩

/-- src/header.cpp:193-199 `SetFileSignature`: the first four characters are compared. -/
def setFileSignature (h : Header) (v : List Byte) : Header × Outcome Unit :=
  if v.take 4 ≠ lit "LASF" then (h, .throw .invalidArgument)
  else ({ h with signature := padTo 4 (cstr (v.take 4)) }, .ok ())

/-- src/header.cpp:240-246 `SetVersionMajor`. -/
def setVersionMajor (h : Header) (v : BitVec 8) : Header × Outcome Unit :=
  if 1 > v.toNat ∨ v.toNat > 1 then (h, .throw .outOfRange) else ({ h with verMajor := v }, .ok ())

/-- src/header.cpp:253-261 `SetVersionMinor`. -/
def setVersionMinor (h : Header) (v : BitVec 8) : Header × Outcome Unit :=
  if v.toNat > 3 then (h, .throw .outOfRange) else ({ h with verMinor := v }, .ok ())

/-- src/header.cpp:263-277 `GetSystemId(pad)`. -/
def getSystemId (h : Header) (pad : Bool) : List Byte :=
  let t := cstr h.systemId
  if pad && t.length < 32 then padTo 32 t else t

/-- src/header.cpp:279-286 `SetSystemId`: zero fill, then `strncpy(dst, v.c_str(), 32)`, which stops at a NUL. -/
def setSystemId (h : Header) (v : List Byte) : Header × Outcome Unit :=
  if v.length > 32 then (h, .throw .invalidArgument)
  else ({ h with systemId := padTo 32 ((cstr v).take 32) }, .ok ())

/-- src/header.cpp:288-301 `GetSoftwareId(pad)`. -/
def getSoftwareId (h : Header) (pad : Bool) : List Byte :=
  let t := cstr h.softwareId
  if pad && t.length < 32 then padTo 32 t else t

/-- src/header.cpp:303-311 `SetSoftwareId`. -/
def setSoftwareId (h : Header) (v : List Byte) : Header × Outcome Unit :=
  if v.length > 32 then (h, .throw .invalidArgument)
  else ({ h with softwareId := padTo 32 ((cstr v).take 32) }, .ok ())

/-- src/header.cpp:524-528 `AddVLR`. -/
def addVLR (h : Header) (v : VLR) : Header :=
  { h with vlrs := h.vlrs ++ [v], recordsCount := h.recordsCount + 1 }

/-- src/header.cpp:540-550 `DeleteVLR(index)`. -/
def deleteVLR (h : Header) (i : BitVec 32) : Header × Outcome Unit :=
  if i.toNat ≥ h.vlrs.length then (h, .throw .outOfRange)
  else
    let l := h.vlrs.eraseIdx i.toNat
    ({ h with vlrs := l, recordsCount := BitVec.ofNat 32 l.length }, .ok ())

/-- src/header.cpp:608-617 `DeleteVLRs(name, id)`: `erase`/`remove_if`. -/
def deleteVLRs (h : Header) (name : List Byte) (id : BitVec 16) : Header :=
  let l := h.vlrs.filter fun v => !(VLR.same name id v)
  { h with vlrs := l, recordsCount := BitVec.ofNat 32 l.length }

/-- src/header.cpp:621-636 `SetGeoreference`. -/
def setGeoreference (h : Header) : Header :=
  let h' := h.deleteVLRs (lit "LASF_Projection") 34735
  let h' := h'.deleteVLRs (lit "LASF_Projection") 34736
  let h' := h'.deleteVLRs (lit "LASF_Projection") 34737
  h.srs.foldl addVLR h'

/-- src/header.cpp:643-646 `SetSRS` with a reference built from a list of records (src/spatialreference.cpp:97-103,
:163-179). -/
def setSRS (h : Header) (vs : List VLR) : Header := { h with srs := vs.filter VLR.isGeo }

/-- src/header.cpp:359-370 `GetVLRBlockSize`: loops to the advertised count; `m_vlrs[i]` past the end is undefined. -/
def vlrBlockSize (h : Header) : Outcome (BitVec 32) :=
  if h.recordsCount.toNat ≤ h.vlrs.length then
    .ok ((h.vlrs.take h.recordsCount.toNat).foldl (fun acc v => acc + BitVec.ofNat 32 v.totalSize) 0)
  else .ub

/-- src/header.cpp:393-396 `SetDataFormatId`. -/
def setDataFormatId (h : Header) (f : PointFormat) : Header × Outcome Unit :=
  ({ h with schema := (h.schema.setDataFormatId f).1 }, (h.schema.setDataFormatId f).2)

/-- src/header.cpp:398-402. -/
def dataRecordLength (h : Header) : Nat := h.schema.dataRecordLength

/-- src/header.cpp:419-425 `SetPointRecordsByReturnCount`: `at(index)`. -/
def setByReturn (h : Header) (i : Nat) (v : BitVec 32) : Header × Outcome Unit :=
  if i < h.byReturn.length then ({ h with byReturn := h.byReturn.set i v }, .ok ()) else (h, .throw .outOfRange)

/-- src/header.cpp:654-684 `SetSchema`: re-adds X, Y and Z (their scale and offset attributes are not modelled, so
the dimensions themselves are unchanged). A missing X throws after the assignment; a missing Y or Z dereferences an
empty optional. -/
def setSchema (h : Header) (s : Schema) : Header × Outcome Unit :=
  match s.getDimension "X" with
  | none => ({ h with schema := s }, .throw .liblasError)
  | some x =>
    let s := s.addDimension x
    match s.getDimension "Y" with
    | none => ({ h with schema := s }, .ub)
    | some y =>
      let s := s.addDimension y
      match s.getDimension "Z" with
      | none => ({ h with schema := s }, .ub)
      | some z => ({ h with schema := s.addDimension z }, .ok ())

/-- A header object in memory. -/
structure Obj where
  addr : Nat
  val : Header
  deriving DecidableEq, Repr

/-- `detail::Point<double>::equal`, include/liblas/detail/private_utility.hpp:172-177. -/
def sameVec (a b : Vec3 (BitVec 64)) : Bool :=
  Point.compareDistance (Fl.ofBits a.x) (Fl.ofBits b.x) && Point.compareDistance (Fl.ofBits a.y) (Fl.ofBits b.y) &&
    Point.compareDistance (Fl.ofBits a.z) (Fl.ofBits b.z)

/-- src/header.cpp:158-185 `operator==`. `m_signature`, `m_systemId` and `m_softwareId` are `char` arrays: `!=`
compares their addresses, i.e. the object address plus the member offset. The fields after them are compared by
value here (the extent and the schema have their own, looser, comparisons; see the bounds and schema models). -/
def eqOp (a b : Obj) : Bool :=
  if b.addr = a.addr then true
  else if !sameVec a.val.scale b.val.scale then false
  else if !sameVec a.val.offset b.val.offset then false
  else if a.addr + 8 ≠ b.addr + 8 then false
  else if a.val.sourceId ≠ b.val.sourceId then false
  else if a.val.reserved ≠ b.val.reserved then false
  else if a.val.guid ≠ b.val.guid then false
  else if a.val.verMajor ≠ b.val.verMajor then false
  else if a.val.verMinor ≠ b.val.verMinor then false
  else if a.addr + 34 ≠ b.addr + 34 then false
  else if a.addr + 66 ≠ b.addr + 66 then false
  else if a.val.doy ≠ b.val.doy then false
  else if a.val.year ≠ b.val.year then false
  else if a.val.headerSize ≠ b.val.headerSize then false
  else if a.val.dataOffset ≠ b.val.dataOffset then false
  else if a.val.recordsCount ≠ b.val.recordsCount then false
  else if a.val.pointCount ≠ b.val.pointCount then false
  else if a.val.byReturn ≠ b.val.byReturn then false
  else if a.val.max ≠ b.val.max ∨ a.val.min ≠ b.val.min then false
  else if a.val.compressed ≠ b.val.compressed then false
  else if a.val.padding ≠ b.val.padding then false
  else decide (a.val.schema = b.val.schema)

end Header
end LibLAS
