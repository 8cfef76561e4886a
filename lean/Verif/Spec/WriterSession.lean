import Verif.Model.WriterSession
import Verif.Spec.NewFile
import Verif.Spec.Reading
/-
Changing the header of an open writer.
-/
namespace LibLAS.Spec

/-- `h` can take the place of the header `g` of a file: other descriptive fields (names, dates, version, scaling, bounds,
counts), the same arrangement of the file. -/
structure SameArrangement (g h : Header) : Prop where
  storable : StorableHeader h
  plain : h.compressed = false
  returns : 5 ≤ h.byReturn.length
  headerSize : h.headerSize = g.headerSize
  dataOffset : h.dataOffset = g.dataOffset
  records : h.vlrs = g.vlrs ∧ h.recordsCount = g.recordsCount
  recordLength : h.dataRecordLength = g.dataRecordLength

/-- The descriptive fields of a header, as far as every version has them. -/
def SameFields (r h : Header) : Prop :=
  r.scale = h.scale ∧ r.offset = h.offset ∧ r.min = h.min ∧ r.max = h.max ∧ r.doy = h.doy ∧ r.year = h.year ∧
  r.verMinor = h.verMinor ∧ r.byReturn.take 5 = h.byReturn.take 5 ∧ r.schema.fmt = h.schema.fmt ∧
  cstr r.systemId = cstr h.systemId ∧ cstr r.softwareId = cstr h.softwareId

/-- A header is given to the writer and written, then points are. -/
def round (r : Header × List (List Byte)) : List WriterCall := .setHeader r.1 :: .writeHeader :: r.2.map .point

/-- Every header says how many points have been written when it is. -/
def Counted : Nat → List (Header × List (List Byte)) → Prop
  | _, [] => True
  | n, (h, ps) :: l => h.pointCount.toNat = n ∧ Counted (n + ps.length) l

/-- The call changes filters or transforms. -/
def isSetting : WriterCall → Bool
  | .setFilters _ => true
  | .setTransforms _ => true
  | _ => false

/-- The call gives another header, without writing it. -/
def isSetHeader : WriterCall → Bool
  | .setHeader _ => true
  | _ => false

end LibLAS.Spec
