import Verif.Model.Header
import Verif.Model.Stream
/-
src/detail/writer/header.cpp, src/detail/writer/point.cpp, src/detail/writer/writer.cpp, src/writer.cpp.
Little-endian host; release build (no asserts); no LASzip, GDAL or libgeotiff.
-/
namespace LibLAS

/-- What the modelled code takes from unmodelled libraries: the XML text of a schema (`Schema::GetPTree` and
`write_xml`), the schema parsed from such a text (`Schema(std::vector<VariableRecord>)`, which throws some exception
when it cannot parse) and the content of uninitialised `char` buffers. -/
structure Env where
  xml : Schema → List Byte
  parse : List Byte → Outcome Schema
  junk : Byte

/-- `PointFormatName` as stored in the file. -/
def PointFormat.code : PointFormat → BitVec 8
  | .f0 => 0 | .f1 => 1 | .f2 => 2 | .f3 => 3 | .f4 => 4 | .f5 => 5

/-- src/schema.cpp:752-782 `GetVLR`. -/
def Schema.getVLR (env : Env) (s : Schema) : Outcome VLR :=
  let data := env.xml s
  if data.length > 65535 then .throw .runtimeError
  else .ok { reserved := 0xAABB#16
             userId := padTo 16 (lit "liblas")
             recordId := 7
             recordSize := BitVec.ofNat 16 data.length
             description := padTo 32 (lit "http://liblas.org/schema/")
             data := data }

namespace HeaderWriter

/-- src/detail/writer/header.cpp:114-124: the schema record of a custom schema. -/
def prepareSchemaVLR (env : Env) (h : Header) : Outcome Header :=
  if h.schema.isCustom then do
    let h := h.deleteVLRs (lit "liblas") 7
    let v ← h.schema.getVLR env
    pure (h.addVLR v)
  else .ok h

/-- src/detail/writer/header.cpp:110-142: the variable records of a new file. -/
def prepareVLRs (env : Env) (h : Header) : Outcome Header := do
  let h := h.deleteVLRs (lit "liblas") 2112
  let h := h.setGeoreference
  let h ← prepareSchemaVLR env h
  if h.compressed then .throw .configError
  else pure (h.deleteVLRs (lit "laszip encoded") 22204)

/-- src/detail/writer/header.cpp:144-173: the new padding from the existing one, the block size of the variable records
and the padding of the header. `abs` of the most negative `int32_t` is undefined. -/
def choosePadding (existing vlr padding : BitVec 32) : Outcome (BitVec 32) :=
  if existing.slt 0 then
    if existing = BitVec.intMin 32 then .ub
    else if (-existing).slt vlr then .ok 0
    else .ok (-existing - vlr)
  else if padding ≤ existing then .ok existing
  else .ok (padding + existing)

/-- src/detail/writer/header.cpp:144-177: padding and data offset. -/
def prepareOffset (h : Header) : Outcome Header := do
  let vlr ← h.vlrBlockSize
  let hs := h.headerSize.setWidth 32
  let pad ← choosePadding (h.dataOffset - (vlr + hs)) vlr h.padding
  pure { h with padding := pad, dataOffset := hs + vlr + pad }

/-- src/detail/writer/header.cpp:198-211: the project id is written with its first three fields byte-swapped. -/
def guidBytes (g : List Byte) : List Byte :=
  [3, 2, 1, 0, 5, 4, 7, 6, 8, 9, 10, 11, 12, 13, 14, 15].map fun i => g.getD i 0#8

/-- src/detail/writer/header.cpp:180-299: the `write_n` calls for the public header block. -/
def fields (h : Header) : List (List Byte) :=
  [h.signature] ++
  (if h.verMinor = 0 then [put 4 (h.reserved.setWidth 32)] else [put 2 h.sourceId, put 2 h.reserved]) ++
  [guidBytes h.guid, put 1 h.verMajor, put 1 h.verMinor, h.getSystemId true, h.getSoftwareId true,
   put 2 h.doy, put 2 h.year, put 2 h.headerSize, put 4 h.dataOffset, put 4 h.recordsCount,
   put 1 (if h.compressed then h.schema.fmt.code ||| 0x80 else h.schema.fmt.code),
   put 2 (BitVec.ofNat 16 h.dataRecordLength), put 4 h.pointCount,
   (h.byReturn.take 5).flatMap (put 4),
   put 8 h.scale.x, put 8 h.scale.y, put 8 h.scale.z, put 8 h.offset.x, put 8 h.offset.y, put 8 h.offset.z,
   put 8 h.max.x, put 8 h.min.x, put 8 h.max.y, put 8 h.min.y, put 8 h.max.z, put 8 h.min.z]

/-- src/detail/writer/header.cpp:352-367: the `write_n` calls for one variable record. -/
def vlrFields (v : VLR) : List (List Byte) :=
  [put 2 v.reserved, v.getUserId true, put 2 v.recordId, put 2 v.recordSize, v.getDescription true] ++
  (if v.data.length > 0 then [v.data] else [])

/-- src/detail/writer/header.cpp:337-350: a data offset too small for the records is raised and rewritten. -/
def raiseOffset (s : OStream) (h : Header) (required : BitVec 32) : Outcome (OStream × Header) :=
  if (h.dataOffset - required).slt 0 then do
    let h := { h with dataOffset := required }
    let s := s.seek 96
    let s ← s.writeN (put 4 h.dataOffset)
    pure (s.seek h.headerSize.toNat, h)
  else .ok (s, h)

/-- src/detail/writer/header.cpp:328-371 `WriteVLRs`. -/
def writeVLRs (s : OStream) (h : Header) : Outcome (OStream × Header) := do
  let s := s.seek h.headerSize.toNat
  let vlr ← h.vlrBlockSize
  let (s, h) ← raiseOffset s h (vlr + h.headerSize.setWidth 32)
  let s ← s.writeAll ((h.vlrs.take h.recordsCount.toNat).flatMap vlrFields)
  pure (s, h)

/-- src/detail/writer/header.cpp:305-309: the padding is written relative to the end of the stream and taken from a
two-byte literal. -/
def writePadding (s : OStream) (h : Header) : Outcome OStream :=
  if 0 < h.padding.toNat then do
    let vlr ← h.vlrBlockSize
    let s := s.seekEnd (h.headerSize.setWidth 32 + vlr).toNat
    if h.padding.toNat ≤ 2 then s.writeN (List.replicate h.padding.toNat 0#8)
    else .ub
  else .ok s

/-- src/detail/writer/header.cpp:389-397: make room for the two signature bytes. -/
def roomForSignature (s : OStream) (h : Header) (required : BitVec 32) : Outcome (OStream × Header) :=
  if (h.dataOffset - required).slt 2 then do
    let h := { h with dataOffset := h.dataOffset + 2 }
    let s := s.seek 96
    let s ← s.writeN (put 4 h.dataOffset)
    pure (s, h)
  else .ok (s, h)

/-- src/detail/writer/header.cpp:378-409 `WriteLAS10PadSignature`. -/
def writePadSignature (s : OStream) (h : Header) : Outcome (OStream × Header) :=
  if h.verMinor.toNat > 0 then .ok (s, h)
  else do
    let vlr ← h.vlrBlockSize
    let (s, h) ← roomForSignature s h (vlr + h.headerSize.setWidth 32)
    let s := s.seek (h.dataOffset - 2).toNat
    let s ← s.writeAll [[0xCC#8], [0xDD#8]]
    pure (s, h)

/-- The final `seekp` of src/detail/writer/header.cpp:315-324. -/
def finalSeek (s : OStream) (count : BitVec 32) (h : Header) : OStream :=
  if count ≠ 0 then s.seekEnd 0 else s.seek h.dataOffset.toNat

/-- The 31 public fields. The copy of five per-return counts (src/detail/writer/header.cpp:263-270) reads past a
vector that is shorter (`SetPointRecordsByReturnCount` never shrinks it). -/
def writeFields (s : OStream) (h : Header) : Outcome OStream :=
  if h.byReturn.length < 5 then .ub else s.writeAll (fields h)

/-- src/detail/writer/header.cpp:144-326: what `write` does on an empty stream once the variable records are known. Result:
stream, `m_pointCount`, header. -/
def writeRest (s : OStream) (count : BitVec 32) (h : Header) : Outcome (OStream × BitVec 32 × Header) := do
  let h ← prepareOffset h
  let s ← writeFields s h
  let (s, h) ← writeVLRs s h
  let s ← writePadding s h
  let (s, h) ← writePadSignature s h
  pure (finalSeek s count h, count, h)

/-- src/detail/writer/header.cpp:74-326 `write` on an empty stream. -/
def writeNew (env : Env) (s : OStream) (count : BitVec 32) (h : Header) : Outcome (OStream × BitVec 32 × Header) := do
  let h ← prepareVLRs env h
  writeRest s count h

/-- src/detail/writer/header.cpp:74-326 `write` in append mode. -/
def writeAppend (s : OStream) (h : Header) : Outcome (OStream × BitVec 32 × Header) := do
  let s ← writeFields (s.seek 0) h
  pure (finalSeek s h.pointCount h, h.pointCount, h)

/-- src/detail/writer/header.cpp:74-326 `write`, split at the append-mode flag. `begin != end` and `end != 0` together
mean that the stream is not empty; on a failed stream both positions are -1. -/
def write (env : Env) (s : OStream) (count : BitVec 32) (h : Header) : Outcome (OStream × BitVec 32 × Header) :=
  let s := s.seekEnd 0
  if s.fail = false ∧ s.pos ≠ 0 then writeAppend s h else writeNew env s count h

end HeaderWriter

/-- An open writer (`liblas::Writer` over `detail::WriterImpl`). -/
structure Writer where
  ofs : OStream
  hdr : Header
  count : BitVec 32
  deriving DecidableEq, Repr

namespace Writer

/-- src/writer.cpp:58-68 constructor and src/detail/writer/writer.cpp:66-73 `WriteHeader`. `m_pointCount` starts
at 0 (:57-63). -/
def make (env : Env) (s : OStream) (h : Header) : Outcome Writer := do
  let (s, c, h) ← HeaderWriter.write env s 0 h
  pure ⟨s, h, c⟩

/-- src/writer.cpp:106-110, src/detail/writer/writer.cpp:90-97, src/detail/writer/point.cpp:89-94. `data.front()` of
an empty record and reading past the end of a short record are undefined. -/
def writePoint (w : Writer) (data : List Byte) : Outcome Writer :=
  if data = [] then .ub
  else if w.ofs.fail then .throw .runtimeError
  else if data.length < w.hdr.dataRecordLength then .ub
  else .ok { w with ofs := w.ofs.write (data.take w.hdr.dataRecordLength), count := w.count + 1 }

/-- Several points. -/
def writePoints (w : Writer) : List (List Byte) → Outcome Writer
  | [] => .ok w
  | d :: ds => do
    let w ← w.writePoint d
    w.writePoints ds

/-- src/detail/writer/writer.cpp:75-88 `UpdatePointCount(count)`. -/
def updatePointCount (w : Writer) (count : BitVec 32) : Writer :=
  let out := if count ≠ 0 then count else w.count
  let w := { w with hdr := { w.hdr with pointCount := out } }
  if w.ofs.fail then w
  else { w with ofs := (w.ofs.seek 107).write (put 4 out) }

/-- src/detail/writer/writer.cpp:99-112 destructor: the stream left behind. -/
def close (w : Writer) : OStream := (w.updatePointCount w.count).ofs

end Writer
end LibLAS
