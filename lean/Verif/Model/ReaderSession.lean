import Verif.Model.Reader
/-
src/reader.cpp, src/detail/reader/reader.cpp, src/c_api.cpp: a reader whose header is replaced by the caller.
-/
namespace LibLAS

/-- `detail::ReaderImpl` together with the header object of its `reader::Header` (`own`, which lives as long as the reader)
and whether `m_header` is an object made by `SetHeader` (`given`, which nobody else holds). `r.hdr` is `*m_header`, to which
the point refers. -/
structure OpenReader where
  r : Reader
  own : Header
  given : Bool

namespace OpenReader

/-- src/reader.cpp:66-70, src/detail/reader/reader.cpp:127-145: a reader just opened; `m_header` is the object of the header
reader. -/
def opened (r : Reader) : OpenReader := ⟨r, r.hdr, false⟩

/-- `m_point->SetHeader(m_header.get())` after `m_header` was given another object (src/point.cpp:182-288). The point still
refers to the old object: if that was one made by `SetHeader` the assignment has destroyed it, and its scale is read, unless all
bytes of the point are zero. -/
def movePoint (b : Build) (o : OpenReader) (h : Header) : Outcome (List Byte) :=
  if o.given ∧ Point.byteSum o.r.point ≠ 0 then .ub
  else do
    let p ← Point.setHeader b ⟨o.r.point, o.r.hdr.toP⟩ h.toP
    pure p.data

/-- src/reader.cpp:102-105, src/detail/reader/reader.cpp:147-151 `SetHeader` (also src/c_api.cpp:305, :328, :477). -/
def setHeader (b : Build) (o : OpenReader) (h : Header) : Outcome OpenReader := do
  let p ← o.movePoint b h
  pure ⟨{ o.r with hdr := h, point := p }, o.own, true⟩

/-- The point in `Reset`. Without a given header it refers to the object that was read into (Model/Reader `reset`). -/
def resetPoint (b : Build) (o : OpenReader) (h : Header) : Outcome (List Byte) :=
  if o.given then o.movePoint b h
  else do
    let p ← Point.setHeader b ⟨o.r.point, h.toP⟩ h.toP
    pure p.data

/-- src/reader.cpp:181-184, src/detail/reader/reader.cpp:127-145 `Reset`: the header reader reads into its own object, which
takes the place of a header that was given. -/
def reset (env : Env) (b : Build) (o : OpenReader) : Outcome OpenReader := do
  let s := if o.r.ifs.eof then o.r.ifs.clear else o.r.ifs
  let (s, h) ← HeaderReader.readHeader env s o.own
  if h.compressed then .throw .runtimeError
  else do
    let p ← o.resetPoint b h
    pure ⟨Reader.implReset { o.r with ifs := s, hdr := h, point := p }, h, false⟩

end OpenReader
end LibLAS
