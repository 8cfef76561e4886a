import Verif.Model.SummaryXml
import Verif.Model.SpatialRef
import Verif.Model.ProjectId
/-
The XML text of a header and of a point: src/header.cpp (`Header::GetPTree`), src/variablerecord.cpp, src/spatialreference.cpp
(`GetPTree`, build without GDAL, libgeotiff and LASzip), src/c_api.cpp (`LASHeader_GetXML`, `LASPoint_GetXML`), apps/lasinfo.cpp
(`--xml`). `real` is the text of a double, `notes` what the texts of the dimensions take from members that are not modelled.
-/
namespace LibLAS.Xml
open PTree

/-- src/variablerecord.cpp:214-226 `VariableRecord::GetPTree`. -/
def vlrTree (v : VLR) : PTree :=
  putAll PTree.empty [(lit "userid", v.getUserId false), (lit "description", v.getDescription false),
    (lit "length", num v.recordSize.toNat), (lit "id", num v.recordId.toNat), (lit "total_length", num v.totalSize)]

/-- src/spatialreference.cpp:907-918: the text that stands for the coordinate system. -/
def srsMessage (s : SRS) : List Byte :=
  if s.vlrs.length > 0 ∧ s.wkt.length = 0 then
    lit "Reference defined with VLR keys, but GeoTIFF and GDAL support are not available to produce definition"
  else if s.wkt.length > 0 then
    lit "Reference defined with WKT, but GeoTIFF and GDAL support are not available to produce definition"
  else lit "None"

/-- src/spatialreference.cpp:882-930 `SpatialReference::GetPTree`. -/
def srsTree (s : SRS) : PTree :=
  let m := srsMessage s
  putAll PTree.empty [(lit "proj4", m), (lit "prettywkt", m), (lit "wkt", m), (lit "compoundwkt", m), (lit "prettycompoundwkt", m),
    (lit "gtiff", m)]

/-- src/header.cpp:752-759: the entry of return `i`. -/
def headerReturn (i : Nat) (c : BitVec 32) : PTree := putAll PTree.empty [(lit "id", num i), (lit "count", num c.toNat)]

/-- src/header.cpp:752-760: the first five of the counts by return; `returns[i]` beyond the end is undefined. -/
def returnsTree (counts : List (BitVec 32)) : Nat → Outcome PTree
  | 0 => .ok PTree.empty
  | i + 1 => do
    let t ← returnsTree counts i
    match counts[i]? with
    | none => .ub
    | some c => pure (t.addChild [] (lit "return") (headerReturn i c))

/-- src/header.cpp:779-781: `n` rounds of the loop over the variable records; `m_vlrs[i]` is not checked. -/
def addVlrs (vs : List VLR) (pt : PTree) : Nat → Outcome PTree
  | 0 => .ok pt
  | i + 1 => do
    let t ← addVlrs vs pt i
    match vs[i]? with
    | none => .ub
    | some v => pure (t.addChild [lit "vlrs"] (lit "vlr") (vlrTree v))

/-- Two numbers with a mark between them (src/header.cpp:708-712 the version, :720-722 the date). -/
def joined (a : Nat) (mark : Byte) (c : Nat) : List Byte := num a ++ mark :: num c

/-- src/header.cpp:762-776: three doubles under one name. -/
def putVec (real : Fl → List Byte) (t : PTree) (k : List Byte) (v : Vec3 (BitVec 64)) : PTree :=
  ((t.put [k, lit "x"] (real (Fl.ofBits v.x))).put [k, lit "y"] (real (Fl.ofBits v.y))).put [k, lit "z"] (real (Fl.ofBits v.z))

/-- src/header.cpp:696-788 `Header::GetPTree`; `wkt` is the text of the coordinate system, which `Header` leaves out. -/
def headerTree (notes : Notes) (real : Fl → List Byte) (wkt : List Byte) (h : LibLAS.Header) : Outcome PTree := do
  let pt := putAll PTree.empty [(lit "filesignature", h.signature), (lit "projectdid", ProjectId.print h.guid),
    (lit "systemid", h.getSystemId false), (lit "softwareid", h.getSoftwareId false),
    (lit "version", joined h.verMajor.toNat 0x2E#8 h.verMinor.toNat), (lit "filesourceid", num h.sourceId.toNat),
    (lit "reserved", num h.reserved.toNat)]
  let pt := pt.addChild [] (lit "srs") (srsTree (SRS.copy ⟨h.srs, wkt⟩))
  let pt := putAll pt [(lit "date", joined h.doy.toNat 0x2F#8 h.year.toNat), (lit "size", num h.headerSize.toNat),
    (lit "dataoffset", num h.dataOffset.toNat), (lit "header_padding", num h.padding.toNat), (lit "count", num h.pointCount.toNat),
    (lit "dataformatid", num h.schema.fmt.code.toNat), (lit "datarecordlength", num h.dataRecordLength),
    (lit "compressed", word h.compressed)]
  let rs ← returnsTree h.byReturn 5
  let pt := pt.addChild [] (lit "returns") rs
  let pt := putVec real pt (lit "scale") h.scale
  let pt := putVec real pt (lit "offset") h.offset
  let pt := putVec real pt (lit "minimum") h.min
  let pt := putVec real pt (lit "maximum") h.max
  let pt ← addVlrs h.vlrs pt h.recordsCount.toNat
  pure (pt.addChild [] (lit "schema") (schemaTree notes h.schema))

/-- src/c_api.cpp:1557-1569 `LASHeader_GetXML`: only the handle itself is tested, not the header in it. -/
def headerXml (notes : Notes) (real : Fl → List Byte) (wkt : List Byte) (st : CApi.Errors) (h : CApi.HeaderH) :
    Outcome (Option (List Byte) × CApi.Errors) :=
  match h with
  | none => .ok (none, CApi.nullError st "hHeader" "LASHeader_GetXML")
  | some none => .ub
  | some (some h) => do
    let t ← headerTree notes real wkt h
    pure (some (cstr (writeXml t)), st)

/-- src/c_api.cpp:1048-1059 `LASPoint_GetXML`. -/
def pointXml (b : Build) (real : Fl → List Byte) (st : CApi.Errors) (p : Option Point) : Outcome (Option (List Byte) × CApi.Errors) :=
  match p with
  | none => .ok (none, CApi.nullError st "hPoint" "LASPoint_GetXML")
  | some p => do
    let t ← pointTree b real p
    pure (some (cstr (writeXml t)), st)

/-- apps/lasinfo.cpp:246-258 with `--xml --no-check`: what is printed. -/
def infoHeader (notes : Notes) (real : Fl → List Byte) (wkt : List Byte) (h : LibLAS.Header) : Outcome (List Byte) := do
  let t ← headerTree notes real wkt h
  pure (writeXml (PTree.empty.addChild [lit "summary"] (lit "header") t))

/-- apps/lasinfo.cpp:200-232 and :277-280 with `--point n --xml`: the exit status and what is printed. The result of `ReadPointAt` is not
looked at; messages go to another stream. -/
def infoPoint (b : Build) (real : Fl → List Byte) (r : Reader) (n : Nat) : Outcome (Nat × List Byte) :=
  match r.readAt n with
  | (r, .ok _) => do
    let t ← pointTree b real ⟨r.point, r.hdr.toP⟩
    pure (0, writeXml (PTree.empty.addChild [lit "points"] (lit "point") t))
  | (_, .throw _) => .ok (1, [])
  | (_, .ub) => .ub

end LibLAS.Xml
