import Verif.Model.Writer
/-
src/writer.cpp, src/detail/writer/writer.cpp, src/detail/writer/point.cpp: a writer that stays open while its header, its
filters and its transforms are changed (Model/Writer has the writer whose header stays as it was opened).
-/
namespace LibLAS

/-- `detail::WriterImpl` in use. `recLen` is the record length of the header object the point writer was made with (`none`
until the first point): `SetHeader` and `WriteHeader` put another object in the place of `m_header` and leave the point
writer with the old one. -/
structure OpenWriter where
  ofs : OStream
  hdr : Header
  count : BitVec 32
  recLen : Option Nat
  filters : List (List Byte → Bool)
  transforms : List (List Byte → List Byte)

/-- What a program does with an open writer. -/
inductive WriterCall where
  | point (d : List Byte)
  | setHeader (h : Header)
  | writeHeader
  | setFilters (fs : List (List Byte → Bool))
  | setTransforms (ts : List (List Byte → List Byte))

namespace OpenWriter

/-- src/writer.cpp:58-68: the writer as the constructor leaves it. -/
def opened (w : Writer) : OpenWriter := ⟨w.ofs, w.hdr, w.count, none, [], []⟩

/-- The record length points are written with: that of the header at the first point (src/detail/writer/writer.cpp:92-94,
src/detail/writer/point.cpp:58-66, :93). -/
def length (o : OpenWriter) : Nat := o.recLen.getD o.hdr.dataRecordLength

/-- src/writer.cpp:106-110, src/detail/writer/writer.cpp:90-97, src/detail/writer/point.cpp:89-95. The filters and
transforms are not looked at. The point writer is made before anything is written. -/
def writePoint (o : OpenWriter) (d : List Byte) : Outcome OpenWriter :=
  if d = [] then .ub
  else if o.ofs.fail then .throw .runtimeError
  else if d.length < o.length then .ub
  else .ok { o with ofs := o.ofs.write (d.take o.length), count := o.count + 1, recLen := some o.length }

/-- src/writer.cpp:112-117, src/detail/writer/writer.cpp:66-73 `WriteHeader`: `m_pointCount` is handed over by reference
and changed in append mode. -/
def writeHeader (env : Env) (o : OpenWriter) : Outcome OpenWriter := do
  let (s, c, h) ← HeaderWriter.write env o.ofs o.count o.hdr
  pure { o with ofs := s, count := c, hdr := h }

/-- One call (src/writer.cpp:101-137, src/detail/writer/writer.cpp:114-139). -/
def call (env : Env) (o : OpenWriter) : WriterCall → Outcome OpenWriter
  | .point d => o.writePoint d
  | .setHeader h => .ok { o with hdr := h }
  | .writeHeader => o.writeHeader env
  | .setFilters fs => .ok { o with filters := fs }
  | .setTransforms ts => .ok { o with transforms := ts }

/-- A sequence of calls. -/
def calls (env : Env) : List WriterCall → OpenWriter → Outcome OpenWriter
  | [], o => .ok o
  | c :: cs, o => do
    let o ← o.call env c
    calls env cs o

/-- src/detail/writer/writer.cpp:75-88, :99-112: the destructor, the stream left behind. -/
def close (o : OpenWriter) : OStream := Writer.close ⟨o.ofs, o.hdr, o.count⟩

end OpenWriter

/-- A whole session on a file: opening, calls, closing. -/
def writerSession (env : Env) (file : List Byte) (h : Header) (cs : List WriterCall) : Outcome (List Byte) := do
  let w ← Writer.make env (OStream.onFile file) h
  let o ← OpenWriter.calls env cs (.opened w)
  pure o.close.buf

end LibLAS
