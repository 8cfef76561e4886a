import Verif.Model.Reader
/-
src/detail/zippoint.cpp, src/detail/reader/zipreader.cpp, in a release build with LASzip. LASzip itself is a parameter: a
decompressor that works on the stream of the reader.
-/
namespace LibLAS

/-- LASzip as libLAS uses it. A configuration says how records are split into items; `unpack` and `setup` make one (or
fail), `size` is the sum of its item sizes, `pack` its description in a variable record. `openAt`, `read` and `seek` are the
`LASunzipper`: each acts on the stream and may fail; `read` fills a record of `size` bytes. `openOn`, `write` and `close`
(the destructor) are the `LASzipper`. -/
structure LASzip where
  Config : Type
  State : Type
  setup : PointFormat → Option Config
  unpack : List Byte → Option Config
  pack : Config → List Byte
  size : Config → Nat
  openAt : Config → IStream → Option State × IStream
  read : State → IStream → Option (List Byte) × State × IStream
  seek : State → IStream → Nat → State × IStream
  Packer : Type
  openOn : Config → OStream → Option Packer × OStream
  write : Packer → OStream → List Byte → Bool × Packer × OStream
  close : Packer → OStream → OStream

namespace Zip

/-- src/detail/zippoint.cpp:59-60, :214-222 `IsZipVLR`. -/
def isZipVLR (v : VLR) : Bool := v.getUserId true |> cstr |> fun u => u == lit "laszip encoded" && v.recordId == 22204#16

/-- src/detail/zippoint.cpp:64-131 constructor of `ZipPoint`: the configuration. The address of the first byte of empty data
is undefined. -/
def zipPoint (z : LASzip) (f : PointFormat) (vs : List VLR) : Outcome z.Config :=
  if f = .f4 ∨ f = .f5 then .throw .liblasError
  else
    match vs.find? isZipVLR with
    | some v =>
      if v.data = [] then .ub
      else match z.unpack v.data with
        | some c => .ok c
        | none => .throw .liblasError
    | none =>
      match z.setup f with
      | some c => .ok c
      | none => .throw .liblasError

end Zip

/-- An open reader of a compressed file (`liblas::Reader` over `detail::ZipReaderImpl`). `start` is
`m_zipReadStartPosition` (nothing: `tellg` failed). Filters and transforms are as in `Reader`. -/
structure ZipReader (z : LASzip) where
  ifs : IStream
  hdr : Header
  size : Nat
  current : Nat
  point : List Byte
  filter : Option (List Byte → Bool)
  xform : Option (List Byte → List Byte)
  config : z.Config
  unzipper : z.State
  start : Option Nat

namespace ZipReader
variable {z : LASzip}

/-- `tellg`. -/
def tell (s : IStream) : Option Nat := if s.fail then none else some s.pos

/-- `seekg(p, ios::beg)`, where a position that is no position sets `failbit`. -/
def seekTo (s : IStream) : Option Nat → IStream
  | some p => s.seek p
  | none => { s.seek s.pos with fail := true }

/-- src/reader.cpp:69-72, :176-179 and src/detail/reader/zipreader.cpp:66-79, :172-186, with `Reset` (:94-134) on a
reader that has no decompressor yet. -/
def make (z : LASzip) (env : Env) (today : BitVec 16 × BitVec 16) (s : IStream) : Outcome (ZipReader z) := do
  let s := if s.eof then s.clear else s
  let (s, h) ← HeaderReader.readHeader env s (Header.new today.1 today.2)
  if h.compressed = false then .throw .liblasError
  else
    let s := s.clear.seek 0
    let c ← Zip.zipPoint z h.schema.fmt h.vlrs
    let s := s.seek h.dataOffset.toNat
    match z.openAt c s with
    | (none, _) => .throw .liblasError
    | (some u, s) =>
      .ok ⟨s, h, h.pointCount.toNat, 0, List.replicate h.dataRecordLength 0#8, none, none, c, u, tell s⟩

/-- src/detail/reader/zipreader.cpp:94-134 `Reset` on an open reader: the decompressor is kept as it is. -/
def implReset (r : ZipReader z) : ZipReader z :=
  { r with ifs := r.ifs.clear.seek 0, current := 0, size := r.hdr.pointCount.toNat }

/-- src/reader.cpp:181-184 `Reset`, with src/detail/reader/zipreader.cpp:172-186. -/
def reset (env : Env) (b : Build) (r : ZipReader z) : Outcome (ZipReader z) := do
  let s := if r.ifs.eof then r.ifs.clear else r.ifs
  let (s, h) ← HeaderReader.readHeader env s r.hdr
  if h.compressed = false then .throw .liblasError
  else do
    let p ← Point.setHeader b ⟨r.point, h.toP⟩ h.toP
    pure (implReset { r with ifs := s, hdr := h, point := p.data })

/-- src/detail/reader/zipreader.cpp:302-305 `SetFilters`, with :150-168. -/
def setFilters (r : ZipReader z) (fs : List (List Byte → Bool)) : ZipReader z :=
  { r with filter := if fs = [] then none else some fun p => fs.all fun f => f p }

/-- src/detail/reader/zipreader.cpp:311-324 `SetTransforms`, with :136-147; transforms keep the point's header. -/
def setTransforms (r : ZipReader z) (ts : List (List Byte → List Byte)) : ZipReader z :=
  { r with xform := if ts = [] then none else some fun p => ts.foldl (fun p t => t p) p }

/-- src/detail/reader/zipreader.cpp:150-168 `FilterPoint`. -/
def accepts (r : ZipReader z) : Bool :=
  match r.filter with
  | none => true
  | some f => f r.point

/-- src/detail/reader/zipreader.cpp:136-147 `TransformPoint`. -/
def transform (r : ZipReader z) : ZipReader z :=
  match r.xform with
  | none => r
  | some f => { r with point := f r.point }

/-- src/detail/reader/zipreader.cpp:193-222 `ReadIdiom`. -/
def readIdiom (r : ZipReader z) : ZipReader z × Outcome Unit :=
  match z.read r.unzipper r.ifs with
  | (some d, u, s) => ({ r with ifs := s, unzipper := u, point := d, current := r.current + 1 }, .ok ())
  | (none, u, s) => ({ r with ifs := s, unzipper := u }, .throw .liblasError)

/-- The `while` loop of src/detail/reader/zipreader.cpp:252-260; result: `bLastPoint`. The number of rounds is limited to
that of the records left: with fewer records than that the decompressor is asked for more than there are, of which nothing
is known. -/
def skipLoop : Nat → ZipReader z → ZipReader z × Outcome Bool
  | 0, r => (r, .ub)
  | fuel + 1, r =>
    if r.accepts then (r, .ok false)
    else
      match r.readIdiom with
      | (r, .ok ()) => if r.current = r.size then (r, .ok true) else skipLoop fuel r
      | (r, .throw e) => (r, .throw e)
      | (r, .ub) => (r, .ub)

/-- src/detail/reader/zipreader.cpp:248-270: after a point the filters reject. -/
def afterReject (r : ZipReader z) : ZipReader z × Outcome Unit :=
  match r.readIdiom with
  | (r, .throw e) => (r, .throw e)
  | (r, .ub) => (r, .ub)
  | (r, .ok ()) =>
    match skipLoop (r.size - r.current + 1) r with
    | (r, .throw e) => (r, .throw e)
    | (r, .ub) => (r, .ub)
    | (r, .ok last) => if last then (r.transform, .throw .outOfRange) else (r.transform, .ok ())

/-- src/detail/reader/zipreader.cpp:224-272 `ReadNextPoint`. -/
def implReadNext (r : ZipReader z) : ZipReader z × Outcome Unit :=
  let r := if r.current = 0 then { r with ifs := seekTo r.ifs.clear r.start } else r
  if r.current ≥ r.size then (r, .throw .outOfRange)
  else
    match r.readIdiom with
    | (r, .throw e) => (r, .throw e)
    | (r, .ub) => (r, .ub)
    | (r, .ok ()) => if r.accepts then (r.transform, .ok ()) else r.afterReject

/-- `catch (std::out_of_range const&)` giving `false`. -/
def catchRange (x : ZipReader z × Outcome Unit) : ZipReader z × Outcome Bool :=
  match x with
  | (r, .ok ()) => (r, .ok true)
  | (r, .throw .outOfRange) => (r, .ok false)
  | (r, .throw e) => (r, .throw e)
  | (r, .ub) => (r, .ub)

/-- src/reader.cpp:112-124. -/
def readNext (r : ZipReader z) : ZipReader z × Outcome Bool := catchRange r.implReadNext

/-- src/detail/reader/zipreader.cpp:285-300 `Seek`; the result of the decompressor's `seek` is ignored. -/
def implSeek (r : ZipReader z) (n : Nat) : ZipReader z × Outcome Unit :=
  if r.size = n then (r, .throw .outOfRange)
  else if r.size < n then (r, .throw .runtimeError)
  else
    let (u, s) := z.seek r.unzipper r.ifs.clear n
    ({ r with ifs := s, unzipper := u, current := n }, .ok ())

/-- src/reader.cpp:144-157 (release build: the assert is absent). -/
def seek (r : ZipReader z) (n : Nat) : ZipReader z × Outcome Bool := catchRange (r.implSeek n)

/-- src/detail/reader/zipreader.cpp:275-282 `ReadPointAt`. -/
def implReadAt (r : ZipReader z) (n : Nat) : ZipReader z × Outcome Unit :=
  match r.implSeek n with
  | (r, .ok ()) => r.implReadNext
  | (r, o) => (r, o)

/-- src/reader.cpp:126-142. -/
def readAt (r : ZipReader z) (n : Nat) : ZipReader z × Outcome Bool :=
  if r.hdr.pointCount.toNat ≤ n then (r, .throw .outOfRange) else catchRange (r.implReadAt n)

end ZipReader
end LibLAS
