import Verif.Spec.SummaryXml
import Verif.Spec.ProjectId
import Verif.Model.Header
/-
C102: what the XML text of a header or a point must say about it.
-/
namespace LibLAS.Spec
open LibLAS.Xml

/-- The text in a field of fixed size: up to the first zero. -/
def upToZero (field : List Byte) : List Byte := field.takeWhile fun b => b != 0#8

/-- The element at the path holds two integers in decimal notation with a mark between them. -/
def SaysPair (tree : PTree) (path : List String) (a : Nat) (mark : Byte) (c : Nat) : Prop :=
  ∃ s t : List Char, SaysText tree path ((s.map fun c => BitVec.ofNat 8 c.toNat) ++ mark :: t.map fun c => BitVec.ofNat 8 c.toNat) ∧
    Text.ShowsInt a s ∧ Text.ShowsInt c t

/-- The elements for the whole numbers of a header. -/
def headerInts : List (String × (LibLAS.Header → Nat)) :=
  [("filesourceid", fun h => h.sourceId.toNat), ("reserved", fun h => h.reserved.toNat), ("size", fun h => h.headerSize.toNat),
   ("dataoffset", fun h => h.dataOffset.toNat), ("header_padding", fun h => h.padding.toNat), ("count", fun h => h.pointCount.toNat),
   ("dataformatid", fun h => h.schema.fmt.code.toNat), ("datarecordlength", fun h => h.dataRecordLength)]

/-- The elements for the doubles of a header. -/
def headerDoubles : List (String × (LibLAS.Header → Vec3 (BitVec 64))) :=
  [("scale", fun h => h.scale), ("offset", fun h => h.offset), ("minimum", fun h => h.min), ("maximum", fun h => h.max)]

/-- What an element must say about a variable record. -/
structure DescribesRecord (v : VLR) (e : PTree) : Prop where
  user : SaysText e ["userid"] (upToZero v.userId)
  description : SaysText e ["description"] (upToZero v.description)
  id : SaysInt e ["id"] (v.recordId.toNat : Nat)
  length : SaysInt e ["length"] (v.recordSize.toNat : Nat)
  total : SaysInt e ["total_length"] (54 + v.data.length : Nat)

/-- What the tree must say about the header `h`, whose coordinate system has the text `wkt`; `schemaText` is the XML document of its
schema. -/
structure HeaderReports (real : Fl → List Byte) (schemaText wkt : List Byte) (h : LibLAS.Header) (tree : PTree) : Prop where
  signature : SaysText tree ["filesignature"] h.signature
  project : ∃ t, SaysText tree ["projectdid"] t ∧ ProjectId.IsText t h.guid
  system : SaysText tree ["systemid"] (upToZero h.systemId)
  software : SaysText tree ["softwareid"] (upToZero h.softwareId)
  version : SaysPair tree ["version"] h.verMajor.toNat 0x2E#8 h.verMinor.toNat
  date : SaysPair tree ["date"] h.doy.toNat 0x2F#8 h.year.toNat
  ints : ∀ e ∈ headerInts, SaysInt tree [e.1] (e.2 h : Nat)
  compressed : SaysText tree ["compressed"] (if h.compressed then lit "true" else lit "false")
  doubles : ∀ e ∈ headerDoubles, SaysText tree [e.1, "x"] (real (Fl.ofBits (e.2 h).x)) ∧
    SaysText tree [e.1, "y"] (real (Fl.ofBits (e.2 h).y)) ∧ SaysText tree [e.1, "z"] (real (Fl.ofBits (e.2 h).z))
  returns : ∃ t, element tree ["returns"] = some t ∧
    List.Forall₂ (fun (c : BitVec 32 × Nat) (e : List Byte × PTree) => e.1 = lit "return" ∧ SaysInt e.2 ["id"] (c.2 : Int) ∧
      SaysInt e.2 ["count"] (c.1.toNat : Int)) (h.byReturn.take 5).zipIdx t.kids
  records : if h.vlrs = [] then element tree ["vlrs"] = none
    else ∃ t, element tree ["vlrs"] = some t ∧
      List.Forall₂ (fun (v : VLR) (e : List Byte × PTree) => e.1 = lit "vlr" ∧ DescribesRecord v e.2) h.vlrs t.kids
  reference : (h.srs.filter VLR.isGeo = [] ∧ wkt = []) ↔ SaysText tree ["srs", "wkt"] (lit "None")
  schema : ∃ t, element tree ["schema"] = some t ∧ readXml schemaText = .ok t

/-- What the tree must say about a point. -/
structure PointReports (real : Fl → List Byte) (scale offset : Vec3 Fl) (a : Attrs) (tree : PTree) : Prop where
  attributes : ∀ e ∈ attributeElements, SaysInt tree e.1 (e.2 a)
  coordinates : ∀ e ∈ coordinateElements, SaysText tree [e.1] (real (coordinateValue (e.2.1 a) (e.2.2 scale) (e.2.2 offset)))
  time : SaysText tree ["time"] (real (timeOf a))
  className : SaysText tree ["classification", "name"] (lit (className (a.classification.flags.toNat % 32)))
  withheld : SaysText tree ["classification", "withheld"] (if a.classification.flags.getLsbD 7 then lit "true" else lit "false")
  keypoint : SaysText tree ["classification", "keypoint"] (if a.classification.flags.getLsbD 6 then lit "true" else lit "false")
  synthetic : SaysText tree ["classification", "synthetic"] (if a.classification.flags.getLsbD 5 then lit "true" else lit "false")

/-- Below an element of the document. -/
def Below (tree : PTree) (path : List String) (P : PTree → Prop) : Prop := ∃ t, element tree path = some t ∧ P t

/-- An XML document has exactly one outermost element. -/
def OneRoot (tree : PTree) : Prop := tree.kids.length = 1

end LibLAS.Spec
