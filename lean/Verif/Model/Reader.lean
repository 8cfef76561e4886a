import Verif.Model.Writer
/-
src/detail/reader/header.cpp, src/detail/reader/reader.cpp, src/reader.cpp.
Little-endian host; release build; no LASzip, GDAL or libgeotiff.
-/
namespace LibLAS

namespace HeaderReader

/-- A scalar read with `read_n` into a variable of `n` bytes and `w = 8 * n` bits holding zero. On a short read the untouched
bytes would be those of the variable's previous value; the next `read_n` then throws, so only the last field of the
header could show the difference (there `old` is explicit). -/
def readScalar (s : IStream) (w n : Nat) : Outcome (BitVec w × IStream) := do
  let (bs, s) ← s.readN (List.replicate n 0#8)
  pure (got w bs, s)

/-- Five per-return counts, src/detail/reader/header.cpp:238-243. -/
def readReturns : Nat → Nat → IStream → Header → Outcome (IStream × Header)
  | 0, _, s, h => pure (s, h)
  | k + 1, i, s, h => do
    let (c, s) ← readScalar s 32 4
    match h.setByReturn i c with
    | (h, .ok ()) => readReturns k (i + 1) s h
    | (_, .throw e) => .throw e
    | (_, .ub) => .ub

/-- Run a setter, dropping the header on an exception (the constructor of the reader fails). -/
def set (x : Header × Outcome Unit) : Outcome Header :=
  match x with
  | (h, .ok ()) => .ok h
  | (_, .throw e) => .throw e
  | (_, .ub) => .ub

/-- src/detail/reader/header.cpp:186-220. -/
def formatOf (n : BitVec 8) : Outcome PointFormat :=
  if n = 0 then .ok .f0 else if n = 1 then .ok .f1 else if n = 2 then .ok .f2
  else if n = 3 then .ok .f3 else if n = 4 then .ok .f4 else if n = 5 then .ok .f5
  else .throw .domainError

/-- src/detail/reader/header.cpp:166-182: compression from the two high bits. -/
def compressionOf (n : BitVec 8) : Outcome Bool :=
  let b7 := (n &&& 0x80) >>> 7
  let b6 := (n &&& 0x40) >>> 6
  if b7 = 0 ∧ b6 = 0 then .ok false
  else if b7 ≠ 0 ∧ b6 = 0 then .ok true
  else .throw .domainError

/-- src/detail/reader/header.cpp:372-376: the data of one record. -/
def readVLRData (s : IStream) (len : Nat) : Outcome (List Byte × IStream) :=
  if len > 0 then s.readN (List.replicate len 0#8) else .ok ([], s)

/-- The loop of `ReadVLRs`, src/detail/reader/header.cpp:366-390: a 54-byte header, then the data.
`old` is the content of the `VLRHeader` variable before the read (uninitialised at first). -/
def readVLRLoop (old : List Byte) : Nat → IStream → Header → Outcome (IStream × Header)
  | 0, s, h => pure (s, h)
  | k + 1, s, h => do
    let (vh, s) ← s.readN old
    let len := got 16 ((vh.drop 20).take 2)
    let (data, s) ← readVLRData s len.toNat
    let v := VLR.new
    let v := { v with reserved := got 16 (vh.take 2) }
    let v := (v.setUserId ((vh.drop 2).take 16)).1
    let v := (v.setDescription ((vh.drop 22).take 32)).1
    let v := { v with recordSize := len, recordId := got 16 ((vh.drop 18).take 2), data := data }
    readVLRLoop vh k s (h.addVLR v)

/-- `Schema(std::vector<VariableRecord> const&)`, src/schema.cpp:545-568: the first schema record is parsed. -/
def schemaFromVLRs (env : Env) (vs : List VLR) : Outcome Schema :=
  match vs.find? VLR.isSchema with
  | none => .throw .runtimeError
  | some v => env.parse v.data

/-- `catch (std::runtime_error const&)` catches these (include/liblas/exception.hpp:52-107: the liblas classes derive
from `std::runtime_error`). -/
def _root_.LibLAS.Exc.isRuntime : Exc → Bool
  | .runtimeError | .invalidFormat | .invalidPointData | .liblasError | .configError => true
  | .invalidArgument | .outOfRange | .domainError => false

/-- src/detail/reader/header.cpp:399-409: the schema of the header's point format. -/
def defaultSchema (h : Header) : Outcome Header := do
  let sch ← Schema.make h.schema.fmt
  set (h.setSchema sch)

/-- src/detail/reader/header.cpp:394-410: the schema from the variable records, or the default one. -/
def adoptSchema (env : Env) (h : Header) : Outcome Header :=
  match schemaFromVLRs env h.vlrs with
  | .ub => .ub
  | .throw e => if e.isRuntime then defaultSchema h else .throw e
  | .ok sch =>
    match h.setSchema sch with
    | (h, .ok ()) => .ok h
    | (_, .ub) => .ub
    | (h, .throw e) => if e.isRuntime then defaultSchema h else .throw e

/-- src/detail/reader/header.cpp:346-423 `ReadVLRs`. -/
def readVLRs (env : Env) (s : IStream) (h : Header) : Outcome (IStream × Header) := do
  let s := if s.eof then s.clear else s
  let s := s.seek h.headerSize.toNat
  let count := h.recordsCount.toNat
  let (s, h) ← readVLRLoop (List.replicate 54 env.junk) count s { h with recordsCount := 0 }
  let h := h.setSRS h.vlrs
  let h ← adoptSchema env h
  pure (s, h)

/-- src/detail/reader/header.cpp:270-272. -/
def readVLRsIfAny (env : Env) (s : IStream) (h : Header) : Outcome (IStream × Header) :=
  if h.recordsCount.toNat > 0 then readVLRs env s h else .ok (s, h)

/-- The "extra" dimension of src/detail/reader/header.cpp:286-297: `(record_length - len) * 8` is an `int` converted to
`size_t`. -/
def extraBits (recordLength len : Nat) : Nat := (((recordLength : Int) - len) * 8 % 2 ^ 64).toNat

/-- src/detail/reader/header.cpp:284-299. -/
def addExtra (h : Header) (recordLength : Nat) : Outcome Header :=
  if h.dataRecordLength ≠ recordLength then do
    let d ← Dim.make "extra" (extraBits recordLength h.dataRecordLength)
    let d := { d with required := false, active := true }
    set (h.setSchema (h.schema.addDimension d))
  else pure h

/-- src/detail/reader/header.cpp:66-299 `ReadHeader` on the header object `h`. -/
def readHeader (env : Env) (s : IStream) (h : Header) : Outcome (IStream × Header) := do
  let s := s.seek 0
  let (sig, s) ← s.readN (List.replicate 4 env.junk)
  let h ← set (h.setFileSignature sig)
  let (v, s) ← readScalar s 16 2
  let h := { h with sourceId := v }
  let (v, s) ← readScalar s 16 2
  let h := { h with reserved := v }
  let (g, s) ← s.readN (List.replicate 16 0#8)
  let h := { h with guid := g }
  let (v, s) ← readScalar s 8 1
  let h ← set (h.setVersionMajor v)
  let (v, s) ← readScalar s 8 1
  let h ← set (h.setVersionMinor v)
  let (t, s) ← s.readN (List.replicate 32 env.junk)
  let h ← set (h.setSystemId t)
  let (t, s) ← s.readN (List.replicate 32 env.junk)
  let h ← set (h.setSoftwareId t)
  let (v, s) ← readScalar s 16 2
  let h := { h with doy := v }
  let (v, s) ← readScalar s 16 2
  let h := { h with year := v }
  let (v, s) ← readScalar s 16 2
  let h := { h with headerSize := v }
  let (v, s) ← readScalar s 32 4
  if v.toNat < h.headerSize.toNat then .throw .runtimeError else
  let h := { h with dataOffset := v }
  let (v, s) ← readScalar s 32 4
  let h := { h with recordsCount := v }
  let (n, s) ← readScalar s 8 1
  let c ← compressionOf n
  let h := { h with compressed := c }
  let f ← formatOf (n &&& 0x3f)
  let h ← set (h.setDataFormatId f)
  let (rl, s) ← readScalar s 16 2
  let (v, s) ← readScalar s 32 4
  let h := { h with pointCount := v }
  let (s, h) ← readReturns 5 0 s h
  let (x, s) ← readScalar s 64 8
  let (y, s) ← readScalar s 64 8
  let (z, s) ← readScalar s 64 8
  let h := { h with scale := ⟨x, y, z⟩ }
  let (x, s) ← readScalar s 64 8
  let (y, s) ← readScalar s 64 8
  let (z, s) ← readScalar s 64 8
  let h := { h with offset := ⟨x, y, z⟩ }
  let (x1, s) ← readScalar s 64 8
  let (x2, s) ← readScalar s 64 8
  let (y1, s) ← readScalar s 64 8
  let (y2, s) ← readScalar s 64 8
  let (z1, s) ← readScalar s 64 8
  let (z2, s) ← readScalar s 64 8
  let h := { h with max := ⟨x1, y1, z1⟩, min := ⟨x2, y2, z2⟩ }
  let (s, h) ← readVLRsIfAny env s h
  let vlr ← h.vlrBlockSize
  let h := { h with padding := h.dataOffset - (h.headerSize.setWidth 32 + vlr) }
  let s := if s.eof then s.clear else s
  let s := s.seek h.dataOffset.toNat
  let h ← addExtra h rl.toNat
  pure (s, h)

end HeaderReader

/-- An open reader (`liblas::Reader` over `detail::ReaderImpl`). `m_size` and `m_current` are `uint32_t`; `current`
would wrap only after 2^32 records. `point` is the record of `m_point`. Filters are one predicate on the record (the
conjunction of all filters, which must be pure); transforms one function that keeps the length of the record. -/
structure Reader where
  ifs : IStream
  hdr : Header
  size : Nat
  current : Nat
  recordSize : Nat
  point : List Byte
  filter : Option (List Byte → Bool)
  xform : Option (List Byte → List Byte)

namespace Reader

/-- src/detail/reader/reader.cpp:79-89 `ReaderImpl::Reset`. -/
def implReset (r : Reader) : Reader :=
  { r with
    ifs := r.ifs.clear.seek 0
    current := 0
    size := r.hdr.pointCount.toNat
    recordSize := r.hdr.schema.byteSize }

/-- src/reader.cpp:63-72, :176-184 and src/detail/reader/reader.cpp:127-143: open a stream. The new point has only
zero bytes, so `SetHeader` gives it a zeroed record of the header's length (src/point.cpp:204-211). -/
def make (env : Env) (today : BitVec 16 × BitVec 16) (s : IStream) : Outcome Reader := do
  let s := if s.eof then s.clear else s
  let (s, h) ← HeaderReader.readHeader env s (Header.new today.1 today.2)
  if h.compressed then .throw .runtimeError
  else pure (implReset ⟨s, h, 0, 0, 0, List.replicate h.dataRecordLength 0#8, none, none⟩)

/-- What a point sees of its header. -/
def _root_.LibLAS.Header.toP (h : Header) : PHeader where
  fmt := h.schema.fmt
  recLen := h.dataRecordLength
  hasTimeDim := (h.schema.getDimension "Time").isSome
  hasRedDim := (h.schema.getDimension "Red").isSome
  scale := ⟨Fl.ofBits h.scale.x, Fl.ofBits h.scale.y, Fl.ofBits h.scale.z⟩
  offset := ⟨Fl.ofBits h.offset.x, Fl.ofBits h.offset.y, Fl.ofBits h.offset.z⟩

/-- src/reader.cpp:181-184 `Reset`: the header is read again into the same header object, to which the point's header
pointer already refers. -/
def reset (env : Env) (b : Build) (r : Reader) : Outcome Reader := do
  let s := if r.ifs.eof then r.ifs.clear else r.ifs
  let (s, h) ← HeaderReader.readHeader env s r.hdr
  if h.compressed then .throw .runtimeError
  else do
    let p ← Point.setHeader b ⟨r.point, h.toP⟩ h.toP
    pure (implReset { r with ifs := s, hdr := h, point := p.data })

/-- src/reader.cpp:186-189, src/detail/reader/reader.cpp:284-287 `SetFilters`, with the loop of `FilterPoint`
(:105-123): every filter must accept. -/
def setFilters (r : Reader) (fs : List (List Byte → Bool)) : Reader :=
  { r with filter := if fs = [] then none else some fun p => fs.all fun f => f p }

/-- src/reader.cpp:196-199, src/detail/reader/reader.cpp:294-308 `SetTransforms`, with the loop of `TransformPoint`
(:91-102): each transform in turn. `bNeedHeaderCheck` is not modelled: transforms keep the point's header. -/
def setTransforms (r : Reader) (ts : List (List Byte → List Byte)) : Reader :=
  { r with xform := if ts = [] then none else some fun p => ts.foldl (fun p t => t p) p }

/-- src/detail/reader/reader.cpp:105-123 `FilterPoint`. -/
def accepts (r : Reader) : Bool :=
  match r.filter with
  | none => true
  | some f => f r.point

/-- src/detail/reader/reader.cpp:91-102 `TransformPoint` under the `!m_transforms.empty()` test. -/
def transform (r : Reader) : Reader :=
  match r.xform with
  | none => r
  | some f => { r with point := f r.point }

/-- `read_n(m_point->GetData().front(), m_ifs, m_record_size)`: undefined if the record is empty or shorter than
`m_record_size`. -/
def readRecord (r : Reader) : Reader × Outcome Unit :=
  if r.point = [] then (r, .ub)
  else if r.ifs.fail then (r, .throw .runtimeError)
  else if r.point.length < r.recordSize then (r, .ub)
  else
    let (got, s) := r.ifs.read r.recordSize
    ({ r with ifs := s, point := got ++ r.point.drop got.length }, .ok ())

/-- One read inside `ReadNextPoint` (src/detail/reader/reader.cpp:170-180, :190-200, :206-216): `++m_current` after a
successful read, `runtime_error` turned into `out_of_range`. -/
def readCounted (r : Reader) : Reader × Outcome Unit :=
  match r.readRecord with
  | (r, .ok ()) => ({ r with current := r.current + 1 }, .ok ())
  | (r, .throw .runtimeError) => (r, .throw .outOfRange)
  | (r, o) => (r, o)

/-- The `while` loop of src/detail/reader/reader.cpp:202-221. Result: `bLastPoint`. Each round either stops or
consumes from the stream; the fuel is the number of rounds still allowed, see `skip`. -/
def skipLoop : Nat → Reader → Reader × Outcome Bool
  | 0, r => (r, .ub)
  | fuel + 1, r =>
    if r.accepts then (r, .ok false)
    else
      match r.readCounted with
      | (r, .ok ()) => if r.current = r.size then (r, .ok true) else skipLoop fuel r
      | (r, .throw e) => (r, .throw e)
      | (r, .ub) => (r, .ub)

/-- Rounds of the loop: every successful read either takes at least one byte or marks the stream failed, after which
the next read throws. -/
def skip (r : Reader) : Reader × Outcome Bool := skipLoop (r.ifs.buf.length + 3) r

/-- src/detail/reader/reader.cpp:188-221 and :224-233: what happens after a point the filters reject. -/
def afterReject (r : Reader) : Reader × Outcome Unit :=
  match r.readCounted with
  | (r, .throw e) => (r, .throw e)
  | (r, .ub) => (r, .ub)
  | (r, .ok ()) =>
    match r.skip with
    | (r, .throw e) => (r, .throw e)
    | (r, .ub) => (r, .ub)
    | (r, .ok last) => if last then (r.transform, .throw .outOfRange) else (r.transform, .ok ())

/-- src/detail/reader/reader.cpp:151-234 `ReaderImpl::ReadNextPoint`. -/
def implReadNext (r : Reader) : Reader × Outcome Unit :=
  let r := if r.current = 0 then { r with ifs := r.ifs.clear.seek r.hdr.dataOffset.toNat } else r
  if r.current ≥ r.size then (r, .throw .outOfRange)
  else
    match r.readCounted with
    | (r, .throw e) => (r, .throw e)
    | (r, .ub) => (r, .ub)
    | (r, .ok ()) => if r.accepts then (r.transform, .ok ()) else r.afterReject

/-- `catch (std::out_of_range const&)` giving `false`. -/
def catchRange (x : Reader × Outcome Unit) : Reader × Outcome Bool :=
  match x with
  | (r, .ok ()) => (r, .ok true)
  | (r, .throw .outOfRange) => (r, .ok false)
  | (r, .throw e) => (r, .throw e)
  | (r, .ub) => (r, .ub)

/-- src/reader.cpp:112-124. -/
def readNext (r : Reader) : Reader × Outcome Bool := catchRange r.implReadNext

/-- src/detail/reader/reader.cpp:236-264 `ReaderImpl::ReadPointAt`. -/
def implReadAt (r : Reader) (n : Nat) : Reader × Outcome Unit :=
  if r.size = n then (r, .throw .outOfRange)
  else if r.size < n then (r, .throw .runtimeError)
  else
    let r := { r with ifs := r.ifs.clear.seek (n * r.hdr.dataRecordLength + r.hdr.dataOffset.toNat) }
    match r.readRecord with
    | (r, .ok ()) => (r.transform, .ok ())
    | (r, o) => (r, o)

/-- src/reader.cpp:126-142. -/
def readAt (r : Reader) (n : Nat) : Reader × Outcome Bool :=
  if r.hdr.pointCount.toNat ≤ n then (r, .throw .outOfRange) else catchRange (r.implReadAt n)

/-- src/detail/reader/reader.cpp:266-282 `ReaderImpl::Seek`. -/
def implSeek (r : Reader) (n : Nat) : Reader × Outcome Unit :=
  if r.size = n then (r, .throw .outOfRange)
  else if r.size < n then (r, .throw .runtimeError)
  else ({ r with ifs := r.ifs.clear.seek (n * r.hdr.dataRecordLength + r.hdr.dataOffset.toNat), current := n }, .ok ())

/-- src/reader.cpp:144-157 (release build: the assert is absent). -/
def seek (r : Reader) (n : Nat) : Reader × Outcome Bool := catchRange (r.implSeek n)

/-- src/reader.cpp:159-174 `operator[]`. -/
def index (r : Reader) (n : Nat) : Reader × Outcome (List Byte) :=
  if r.hdr.pointCount.toNat ≤ n then (r, .throw .outOfRange)
  else
    match r.readAt n with
    | (r, .ok true) => (r, .ok r.point)
    | (r, .ok false) => (r, .throw .outOfRange)
    | (r, .throw e) => (r, .throw e)
    | (r, .ub) => (r, .ub)

end Reader
end LibLAS
