import Verif.Spec.NewFile
/-
Which of the caller's variable records a new file gets.
-/
namespace LibLAS.Spec

/-- A record is known by the text of its user id and its record id. -/
def recordName (v : VLR) : List Byte × BitVec 16 := (v.getUserId false, v.recordId)

/-- The names of the records that hold a spatial reference. -/
def geoNames : List (List Byte × BitVec 16) :=
  [(lit "liblas", 2112), (lit "LASF_Projection", 34735), (lit "LASF_Projection", 34736), (lit "LASF_Projection", 34737)]

/-- The names of the records that describe the compression and, if the file has a custom schema, the schema. -/
def ownNames (custom : Bool) : List (List Byte × BitVec 16) :=
  (lit "laszip encoded", 22204) :: if custom then [(lit "liblas", 7)] else []

/-- The caller's records that no part of the library claims. -/
def callersRecords (custom : Bool) (vs : List VLR) : List VLR :=
  vs.filter fun v => decide (recordName v ∉ geoNames ++ ownNames custom)

/-- The records of the spatial reference object of the header. -/
def referenceRecords (custom : Bool) (vs : List VLR) : List VLR :=
  vs.filter fun v => decide (recordName v ∉ ownNames custom)

/-- The record of the schema. -/
def schemaRecords (env : Env) (s : Schema) : List VLR :=
  if s.isCustom then (match s.getVLR env with | .ok v => [v] | _ => []) else []

/-- All records of a new file, in order: the caller's, those of the reference, that of the schema. -/
def outputRecords (env : Env) (h : Header) : List VLR :=
  callersRecords h.schema.isCustom h.vlrs ++ referenceRecords h.schema.isCustom h.srs ++ schemaRecords env h.schema

end LibLAS.Spec
