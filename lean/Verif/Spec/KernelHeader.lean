import Verif.Spec.Records
import Verif.Spec.Point
import Verif.Model.Reader
import Verif.Model.KernelHeader
/-
What the header options of the applications ask for (the help texts of apps/laskernel.cpp:381-404).
-/
namespace LibLAS.Spec
open Kernel

/-- A record to be added. -/
structure NewRecord where
  name : List Byte
  id : Nat
  description : List Byte
  data : List Byte

/-- The changes a user can ask for. -/
structure HeaderRequest where
  offset : Option (Vec3 (BitVec 64)) := none
  scale : Option (Vec3 (BitVec 64)) := none
  version : Option Nat := none
  format : Option PointFormat := none
  date : Option (Nat × Nat) := none
  delete : List (List Byte × Nat) := []
  add : Option NewRecord := none
  software : Option (List Byte) := none
  system : Option (List Byte) := none

/-- The new record has the name, id, description and data asked for. -/
def NewRecord.Is (n : NewRecord) (v : VLR) : Prop :=
  v.getUserId false = n.name ∧ v.recordId.toNat = n.id ∧ v.getDescription false = n.description ∧ v.data = n.data ∧
    StorableRecord v

/-- The header `h` changed as asked: what is named has the new value, everything else the old. -/
structure HeaderRequest.Made (q : HeaderRequest) (h h' : Header) : Prop where
  offset : h'.offset = q.offset.getD h.offset
  scale : h'.scale = q.scale.getD h.scale
  version : h'.verMinor.toNat = q.version.getD h.verMinor.toNat
  format : h'.schema.fmt = q.format.getD h.schema.fmt
  recordLength : h'.dataRecordLength = formatSize (q.format.getD h.schema.fmt)
  day : h'.doy.toNat = (q.date.map Prod.fst).getD h.doy.toNat
  year : h'.year.toNat = (q.date.map Prod.snd).getD h.year.toNat
  software : h'.getSoftwareId false = q.software.getD (h.getSoftwareId false)
  system : h'.getSystemId false = q.system.getD (h.getSystemId false)
  records : ∃ new, h'.vlrs = (h.vlrs.filter fun v => decide ((v.getUserId false, v.recordId.toNat) ∉ q.delete)) ++ new ∧
    match q.add with
    | none => new = []
    | some n => ∃ v, new = [v] ∧ n.Is v
  reference : h'.srs = h.srs
  rest : h'.sourceId = h.sourceId ∧ h'.reserved = h.reserved ∧ h'.guid = h.guid ∧ h'.verMajor = h.verMajor ∧
    h'.headerSize = h.headerSize ∧ h'.dataOffset = h.dataOffset ∧ h'.padding = h.padding ∧ h'.pointCount = h.pointCount ∧
    h'.byReturn = h.byReturn ∧ h'.min = h.min ∧ h'.max = h.max

/-- A word that is the numeral of `n`. -/
def Word.isNumber (w : Word) (n : Nat) : Prop := w.int = BitVec.ofNat 32 n

/-- A text without NUL bytes, of at most `n` bytes. -/
def shortText (n : Nat) (t : List Byte) : Prop := t.length ≤ n ∧ 0#8 ∉ t

/-- Words as pairs of name and id. -/
def arePairs : List Word → List (List Byte × Nat) → Prop
  | [], [] => True
  | n :: i :: ws, p :: ps => n.text = p.1 ∧ Word.isNumber i p.2 ∧ p.2 ≤ 65535 ∧ arePairs ws ps
  | _, _ => False

/-- The options on the command line that ask for the request: the numbers are within the documented limits, the texts fit their
fields, and the data of the new record are given as text (no file has that name) or as the name of a file with that content. -/
structure HeaderRequest.Asked (q : HeaderRequest) (files : List Byte → Option (List Byte)) (o : HeaderOpts) : Prop where
  offset : match q.offset with
    | none => o.offset = none
    | some v => ∃ a b c, o.offset = some [a, b, c] ∧ a.text ≠ lit "min" ∧ b.text ≠ lit "min" ∧ c.text ≠ lit "min" ∧
        a.real = v.x ∧ b.real = v.y ∧ c.real = v.z
  scale : o.scale = q.scale.map fun v => [v.x, v.y, v.z]
  version : match q.version with
    | none => o.fileFormat = none
    | some m => m ≤ 2 ∧ ∃ a b, o.fileFormat = some [a, b] ∧ Word.isNumber a 1 ∧ Word.isNumber b m
  format : match q.format with
    | none => o.pointFormat = none
    | some f => ∃ n, o.pointFormat = some (BitVec.ofNat 32 n) ∧ (n, f) ∈ [(0, PointFormat.f0), (1, .f1), (2, .f2), (3, .f3)]
  padHeader : o.padHeader = none
  date : match q.date with
    | none => o.fileCreation = none
    | some (d, y) => d ≤ 366 ∧ y ≤ 65535 ∧ ∃ a b, o.fileCreation = some [a, b] ∧ Word.isNumber a d ∧ Word.isNumber b y
  addSchema : o.addSchema = false
  delete : match o.deleteVlr with
    | none => q.delete = []
    | some ws => arePairs ws q.delete
  add : match q.add with
    | none => o.addVlr = none
    | some n => shortText 16 n.name ∧ n.id ≤ 65535 ∧ shortText 32 n.description ∧ n.data.length ≤ 65535 ∧ n.data ≠ [] ∧
        ∃ a b c d, o.addVlr = some [a, b, c, d] ∧ a.text = n.name ∧ Word.isNumber b n.id ∧ c.text = n.description ∧
          (files d.text = none ∧ d.text = n.data ∨ files d.text = some n.data)
  software : o.software = q.software ∧ ∀ t, q.software = some t → shortText 32 t
  system : o.system = q.system ∧ ∀ t, q.system = some t → shortText 32 t

/-- The record to be added is not one the library keeps for itself. -/
def HeaderRequest.Free (q : HeaderRequest) : Prop :=
  ∀ n, q.add = some n → (n.name, n.id) ≠ (lit "liblas", 7) ∧ (n.name, n.id) ≠ (lit "laszip encoded", 22204)

/-- The variable records of the output: those of the edited header, except that the records of the spatial reference are those
of the input, whatever was deleted or added, and come last. -/
def editedRecords (h h' : Header) : List VLR :=
  h'.vlrs.filter (fun v => decide (recordName v ∉ geoNames)) ++ h.vlrs.filter (fun v => decide (recordName v ∈ geoNames))

/-- A file as other software writes it: it opens, its size field covers the public header block, records have the length of
their format, the variable records end before the points begin, and none of them is a schema or a compression record. -/
structure OrdinaryFile (env : Env) (today : BitVec 16 × BitVec 16) (f : List Byte) (r : Reader) : Prop where
  opens : Reader.make env today (IStream.onFile f) = .ok r
  long : 227 ≤ f.length
  size : 227 ≤ r.hdr.headerSize.toNat
  record : r.hdr.dataRecordLength = formatSize r.hdr.schema.fmt
  layout : r.hdr.headerSize.toNat + recordBytes r.hdr.vlrs ≤ r.hdr.dataOffset.toNat
  small : r.hdr.dataOffset.toNat + 2 ^ 17 < 2 ^ 31
  names : ∀ v ∈ r.hdr.vlrs, recordName v ≠ (lit "liblas", 7) ∧ recordName v ≠ (lit "laszip encoded", 22204)

/-- The bytes between the last variable record and the first point. -/
def gap (h : Header) : Nat := h.dataOffset.toNat - (h.headerSize.toNat + recordBytes h.vlrs)

end LibLAS.Spec
