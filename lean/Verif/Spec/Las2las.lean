import Verif.Spec.Kernel
import Verif.Spec.Reading
/-
What a file translated by the applications must hold.
-/
namespace LibLAS.Spec

/-- Everything the getters show of a variable record. -/
def shown (v : VLR) : BitVec 16 × BitVec 16 × BitVec 16 × List Byte × List Byte × List Byte :=
  (v.reserved, v.recordId, v.recordSize, v.data, v.getUserId false, v.getDescription false)

/-- Opened by a reader, the file delivers exactly these records (their first bytes, as many as the record length of the
header says), advertises their number, and has record length, format, scale, offset, version, system and software
identifier and creation date of the header `h`, and the variable records `vs`. It is large enough for the public header
block and the points. -/
structure FileWith (env : Env) (today : BitVec 16 × BitVec 16) (h : Header) (vs : List VLR) (f : List Byte)
    (ps : List (List Byte)) (r : Reader) : Prop where
  opens : Reader.make env today (IStream.onFile f) = .ok r
  points : delivers r (ps.map fun p => p.take h.dataRecordLength)
  count : r.hdr.pointCount.toNat = ps.length
  recordLength : r.hdr.dataRecordLength = h.dataRecordLength
  format : r.hdr.schema.fmt = h.schema.fmt
  scale : r.hdr.scale = h.scale
  offset : r.hdr.offset = h.offset
  version : r.hdr.verMinor = h.verMinor
  system : r.hdr.getSystemId false = h.getSystemId false
  software : r.hdr.getSoftwareId false = h.getSoftwareId false
  day : r.hdr.doy = h.doy
  year : r.hdr.year = h.year
  records : r.hdr.vlrs.map shown = vs.map shown
  bytes : 227 + ps.length * h.dataRecordLength ≤ f.length

/-- Lists cut into pieces of `k`: piece `i` holds the elements `i * k` to `i * k + k - 1`; the last piece has fewer
than `k`, perhaps none. -/
def splitEvery {α : Type} (k : Nat) (xs : List α) : List (List α) :=
  (List.range (xs.length / k + 1)).map fun i => (xs.drop (i * k)).take k

/-- The points of a full file when the output is split at `mb` megabytes (32-bit arithmetic), for records of `len`
bytes. -/
def pointsPerFile (len mb : Nat) : Nat :=
  let budget := mb * 2 ^ 20 % 2 ^ 32
  if budget ≤ 2 ^ 31 then budget / len + 1 else 1

end LibLAS.Spec
