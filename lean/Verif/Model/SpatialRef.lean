import Verif.Model.Header
import Verif.Model.Reader
/-
src/spatialreference.cpp in a build without GDAL and libgeotiff: the variable records and the text of a coordinate
system. `m_gtiff` and `m_tiff` stay null.
-/
namespace LibLAS

/-- include/liblas/spatialreference.hpp: `m_vlrs` and `m_wkt`. -/
structure SRS where
  vlrs : List VLR
  wkt : List Byte
  deriving DecidableEq, Repr

namespace SRS

/-- src/spatialreference.cpp:88-95 -/
def new : SRS := ⟨[], []⟩

/-- src/spatialreference.cpp:97-103, the constructor from records; :163-179 `SetVLRs`. -/
def ofRecords (vs : List VLR) : SRS := ⟨vs.filter VLR.isGeo, []⟩

/-- src/spatialreference.cpp:105-124, copy and assignment. -/
def copy (s : SRS) : SRS := ⟨s.vlrs.filter VLR.isGeo, s.wkt⟩

/-- src/spatialreference.cpp:181-187 `AddVLR`. -/
def addVLR (s : SRS) (v : VLR) : SRS := if v.isGeo then { s with vlrs := s.vlrs ++ [v] } else s

/-- include/liblas/spatialreference.hpp `GeoVLRType`. -/
inductive Kind | geoTIFF | ogrWKT
  deriving DecidableEq, Repr

/-- src/spatialreference.cpp:243-253: whether `ClearVLRs` removes a record. -/
def wiped (k : Kind) (v : VLR) : Bool :=
  match k with
  | .ogrWKT => v.recordId == 2112#16 && cstr (v.getUserId true) == lit "liblas"
  | .geoTIFF => v.recordId == 34735#16 || v.recordId == 34736#16 || v.recordId == 34737#16

/-- src/spatialreference.cpp:230-279 `ClearVLRs`. -/
def clearVLRs (s : SRS) (k : Kind) : SRS :=
  { vlrs := s.vlrs.filter fun v => !wiped k v
    wkt := if k = .ogrWKT then [] else s.wkt }

/-- src/spatialreference.cpp:424-449: the record of a text, which is taken up to its first zero byte. -/
def wktRecord (text : List Byte) : VLR :=
  { VLR.new with
    recordId := 2112
    userId := padTo 16 (lit "liblas")
    description := padTo 32 (lit "OGR variant of OpenGIS WKT SRS")
    recordSize := BitVec.ofNat 16 ((cstr text).length + 1)
    data := cstr text ++ [0] }

/-- src/spatialreference.cpp:281-456 `ResetVLRs`: object after the call and outcome. -/
def resetVLRs (s : SRS) : SRS × Outcome Unit :=
  if s.wkt = [] then ({ s with vlrs := [] }, .ok ())
  else if (cstr s.wkt).length + 1 > 65535 then ({ s with vlrs := [] }, .throw .runtimeError)
  else ({ s with vlrs := [wktRecord s.wkt] }, .ok ())

/-- src/spatialreference.cpp:543-554 `GetWKT` (both). -/
def getWKT (s : SRS) : List Byte := s.wkt

/-- src/spatialreference.cpp:667-694 `SetWKT`. -/
def setWKT (s : SRS) (v : List Byte) : SRS × Outcome Unit := resetVLRs { s with wkt := v }

/-- src/spatialreference.cpp:640-665 `SetFromUserInput`. -/
def setFromUserInput (s : SRS) (_ : List Byte) : SRS × Outcome Unit := (s, .throw .runtimeError)

/-- src/spatialreference.cpp:696-742 `SetVerticalCS`. -/
def setVerticalCS (s : SRS) (_ : BitVec 32) (_ : List Byte) (_ _ : BitVec 32) : SRS × Outcome Unit := (s, .ok ())

/-- src/spatialreference.cpp:744-784 `GetProj4`. -/
def getProj4 (_ : SRS) : List Byte := []

/-- src/spatialreference.cpp:786-850 `SetProj4`: `ResetVLRs` twice, `m_gtiff` being null. -/
def setProj4 (s : SRS) (_ : List Byte) : SRS × Outcome Unit :=
  match resetVLRs s with
  | (s, .ok ()) => resetVLRs s
  | r => r

/-- src/spatialreference.cpp:126-145 `operator==`. -/
def equal (_ _ : SRS) : Outcome Bool := .throw .runtimeError

end SRS

/-- src/header.cpp:643-646 `SetSRS`. -/
def Header.setReference (h : Header) (s : SRS) : Header := { h with srs := s.copy.vlrs }

/-- What `GetSRS` (src/header.cpp:638-641) gives on the header of an opened file: the reader makes the reference from
the records (src/detail/reader/header.cpp:389-390), so there is no text in it. -/
def Reader.reference (r : Reader) : SRS := { SRS.ofRecords [] with vlrs := r.hdr.srs }

end LibLAS
