import Verif.Model.Writer
import Verif.Spec.File
import Verif.Spec.Bytes
/-
What a caller hands to a writer.
-/
namespace LibLAS.Spec

/-- A variable record object as the setters leave it, whose stored length is the size of its data. -/
def StorableRecord (v : VLR) : Prop :=
  v.userId.length = 16 ∧ v.description.length = 32 ∧ v.recordSize.toNat = v.data.length

/-- A header object a LAS 1.0 to 1.3 file with point format 0 to 3 can be made from: the invariants of the class, a
header size that leaves room for the public header block, storable records. -/
structure StorableHeader (h : Header) : Prop where
  signature : h.signature = lit "LASF"
  guid : h.guid.length = 16
  systemId : h.systemId.length = 32
  softwareId : h.softwareId.length = 32
  major : h.verMajor = 1
  minor : h.verMinor.toNat ≤ 3
  size : 227 ≤ h.headerSize.toNat
  format : h.schema.fmt ∈ [PointFormat.f0, .f1, .f2, .f3]
  records : ∀ v ∈ h.vlrs ++ h.srs, StorableRecord v

/-- A header object from which the records of a new file can be made: it is not marked compressed (there is no LASzip in this
build), has its five counts by return, and the text of its schema fits a variable record. -/
structure Writable (env : Env) (h : Header) : Prop where
  storable : StorableHeader h
  plain : h.compressed = false
  returns : 5 ≤ h.byReturn.length
  schemaText : h.schema.isCustom = true → (env.xml h.schema).length ≤ 65535

/-- Bytes taken by a list of variable records: a 54-byte header and the data each. -/
def recordBytes (vs : List VLR) : Nat := (vs.map fun v => 54 + v.data.length).sum

/-- The number of filler bytes the header asks for between the variable records, which end at `used`, and the points. Where
the data offset lies behind the records it is their distance (with the padding field added when that is larger). A data
offset too small for the records is raised to fit; one that cuts off the end of the public header block asks for the bytes
cut off. -/
def fillerBytes (h : Header) (used : Nat) : Nat :=
  if used ≤ h.dataOffset.toNat then
    let gap := h.dataOffset.toNat - used
    if h.padding.toNat ≤ gap then gap else h.padding.toNat + gap
  else h.headerSize.toNat - h.dataOffset.toNat

/-- A little-endian number in a file. -/
def fileNat (file : List Byte) (off k : Nat) : Nat := leNat (slice file off k)

/-- The 16 bytes of a project id with its three leading fields (4, 2 and 2 bytes) each in reverse byte order. -/
def mixedEndian (g : List Byte) : List Byte :=
  (slice g 0 4).reverse ++ (slice g 4 2).reverse ++ (slice g 6 2).reverse ++ slice g 8 8

end LibLAS.Spec
