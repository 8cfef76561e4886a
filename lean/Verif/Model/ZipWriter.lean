import Verif.Model.Zip
/-
src/detail/writer/zipwriter.cpp and src/detail/writer/header.cpp in a release build with LASzip (a parameter).
-/
namespace LibLAS

namespace Zip

/-- src/detail/zippoint.cpp:59-61, :170-195 `ConstructVLR`. -/
def constructVLR (z : LASzip) (c : z.Config) : VLR where
  reserved := 0xAABB#16
  userId := padTo 16 (lit "laszip encoded")
  recordId := 22204#16
  recordSize := BitVec.ofNat 16 (z.pack c).length
  description := padTo 32 (lit "http://laszip.org")
  data := z.pack c

/-- src/detail/writer/header.cpp:110-142 with LASzip: the variable records of a new file. -/
def prepareVLRs (z : LASzip) (env : Env) (h : Header) : Outcome Header := do
  let h := h.deleteVLRs (lit "liblas") 2112
  let h := h.setGeoreference
  let h ← HeaderWriter.prepareSchemaVLR env h
  let h := h.deleteVLRs (lit "laszip encoded") 22204
  if h.compressed then do
    let c ← zipPoint z h.schema.fmt h.vlrs
    pure (h.addVLR (constructVLR z c))
  else pure h

/-- src/detail/writer/header.cpp:74-326 `write` with LASzip; as `HeaderWriter.write`. -/
def writeHeader (z : LASzip) (env : Env) (s : OStream) (count : BitVec 32) (h : Header) : Outcome (OStream × BitVec 32 × Header) :=
  let s := s.seekEnd 0
  if s.fail = false ∧ s.pos ≠ 0 then HeaderWriter.writeAppend s h
  else do
    let h ← prepareVLRs z env h
    HeaderWriter.writeRest s count h

end Zip

/-- An open writer of a compressed file (`liblas::Writer` over `detail::ZipWriterImpl`). -/
structure ZipWriter (z : LASzip) where
  ofs : OStream
  hdr : Header
  count : BitVec 32
  config : z.Config
  packer : z.Packer

namespace ZipWriter
variable {z : LASzip}

/-- src/writer.cpp:58-69 constructor, for a header marked compressed; src/detail/writer/zipwriter.cpp:191-203 `SetHeader`,
:74-98 `WriteHeader`. The records are packed as the header given says, the file describes them as the header written
says. -/
def make (z : LASzip) (env : Env) (s : OStream) (h : Header) : Outcome (ZipWriter z) := do
  let c ← Zip.zipPoint z h.schema.fmt h.vlrs
  let (s, n, h) ← Zip.writeHeader z env s 0 h
  match z.openOn c s with
  | (none, _) => .throw .liblasError
  | (some u, s) => .ok ⟨s, h, n, c, u⟩

/-- src/detail/writer/zipwriter.cpp:118-148 `WritePoint`. A record whose length is not that of the packed records is
converted to the header of the file, of which the packed length is taken (`at` throws when there is less). -/
def writePoint (b : Build) (w : ZipWriter z) (p : Point) : Outcome (ZipWriter z) := do
  let d ← if p.data.length ≠ z.size w.config then do
      let q ← Point.setHeader b p w.hdr.toP
      pure q.data
    else .ok p.data
  if d.length < z.size w.config then .throw .outOfRange
  else
    match z.write w.packer w.ofs (d.take (z.size w.config)) with
    | (false, _, _) => .throw .liblasError
    | (true, u, s) => .ok { w with ofs := s, packer := u, count := w.count + 1, hdr := { w.hdr with pointCount := w.count + 1 } }

/-- Several points. -/
def writePoints (b : Build) (w : ZipWriter z) : List Point → Outcome (ZipWriter z)
  | [] => .ok w
  | p :: ps => do
    let w ← w.writePoint b p
    w.writePoints b ps

/-- src/detail/writer/zipwriter.cpp:100-115 `UpdatePointCount`. -/
def updatePointCount (w : ZipWriter z) (count : BitVec 32) : ZipWriter z :=
  if w.ofs.fail then w
  else { w with ofs := ((w.ofs.seek 107).write (put 4 (if count ≠ 0 then count else w.count))).seek w.ofs.pos }

/-- src/detail/writer/zipwriter.cpp:150-167 destructor: the stream left behind. -/
def close (w : ZipWriter z) : OStream :=
  let w := w.updatePointCount 0
  z.close w.packer w.ofs

end ZipWriter
end LibLAS
