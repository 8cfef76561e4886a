import Verif.Model.Writer
import Verif.Model.Reader
/-
src/c_api.cpp: the error stack, the handle checks, and the C functions that wrap points, headers, variable records,
readers and writers. A handle is `none` (NULL) or `some` object. A call yields its result, the object as it leaves it and the
error stack; an exception that is not caught inside the function leaves it as `throw`.
-/
namespace LibLAS.CApi

/-- src/c_api.cpp:116-123 `LASErrorEnum`. -/
inductive Code where
  | none | debug | warning | failure | fatal
  deriving DecidableEq, Repr

/-- The integer value of an enumerator. -/
def Code.num : Code → Int
  | .none => 0 | .debug => 1 | .warning => 2 | .failure => 3 | .fatal => 4

/-- include/liblas/error.hpp:55-85 `liblas::Error`. -/
structure Err where
  code : Int
  message : List Byte
  method : List Byte
  deriving DecidableEq, Repr

/-- src/c_api.cpp:142 `static std::stack<liblas::Error> errors`, the newest error first. -/
abbrev Errors := List Err

/-- src/c_api.cpp:220-223 `LASError_PushError` (non-null texts; a C text ends at its first NUL). -/
def pushError (st : Errors) (code : Int) (message method : List Byte) : Errors := ⟨code, cstr message, cstr method⟩ :: st

/-- src/c_api.cpp:188-191 `LASError_Pop`. -/
def popError (st : Errors) : Errors := if st = [] then st else st.tail

/-- The loop of src/c_api.cpp:183-186: `for (i = 0; i < errors.size(); i++) errors.pop();`, where `size()` is evaluated again
in every round. -/
def resetLoop (i : Nat) (st : Errors) : Errors := if i < st.length then resetLoop (i + 1) st.tail else st
termination_by st.length - i
decreasing_by simp_all [List.length_tail]; omega

/-- src/c_api.cpp:183-186 `LASError_Reset`. -/
def resetErrors (st : Errors) : Errors := if st = [] then st else resetLoop 0 st

/-- src/c_api.cpp:193-200 `LASError_GetLastErrorNum`. -/
def lastErrorNum (st : Errors) : Int :=
  match st with
  | [] => 0
  | e :: _ => e.code

/-- src/c_api.cpp:202-209 `LASError_GetLastErrorMsg`. -/
def lastErrorMsg (st : Errors) : Option (List Byte) :=
  match st with
  | [] => none
  | e :: _ => some (cstr e.message)

/-- src/c_api.cpp:211-218 `LASError_GetLastErrorMethod`. -/
def lastErrorMethod (st : Errors) : Option (List Byte) :=
  match st with
  | [] => none
  | e :: _ => some (cstr e.method)

/-- src/c_api.cpp:225-227 `LASError_GetErrorCount` (fewer than 2^31 errors). -/
def errorCount (st : Errors) : Nat := st.length

/-- src/c_api.cpp:155-173 `VALIDATE_LAS_POINTER0/1`: the error pushed for a null pointer. -/
def nullError (st : Errors) (ptr method : String) : Errors :=
  pushError st Code.failure.num (lit ("Pointer '" ++ ptr ++ "' is NULL in '" ++ method ++ "'.")) (lit method)

/-- `catch (std::exception const& e) { LASError_PushError(LE_Failure, e.what(), method); ... }`. The texts of the exceptions
are not modelled; `what` stands for them. -/
def caught (what : Exc → List Byte) (st : Errors) (method : String) (e : Exc) : Errors :=
  pushError st Code.failure.num (what e) (lit method)

/-- `try { ... } catch (std::exception const& e) { push; return LE_Failure; } return LE_None;` around an operation that
leaves the object `x.1`. Every modelled exception is a `std::exception`. -/
def attempt {α : Type} (what : Exc → List Byte) (st : Errors) (method : String) (x : α × Outcome Unit) :
    Outcome (Code × α × Errors) :=
  match x with
  | (a, .ok ()) => .ok (.none, a, st)
  | (a, .throw e) => .ok (.failure, a, caught what st method e)
  | (_, .ub) => .ub

/-- The same with the extra handler `catch (std::runtime_error const&) {}` before it (src/c_api.cpp:953-973, :2211-2231). -/
def attemptQuiet {α : Type} (what : Exc → List Byte) (st : Errors) (method : String) (x : α × Outcome Unit) :
    Outcome (Code × α × Errors) :=
  match x with
  | (a, .ok ()) => .ok (.none, a, st)
  | (a, .throw e) => if e.isRuntime then .ok (.none, a, st) else .ok (.failure, a, caught what st method e)
  | (_, .ub) => .ub

/-! Points -/

/-- The `LASPoint_Set...` functions with one value, src/c_api.cpp:649-1075 and :2211-2231. -/
inductive PointSet where
  | x (v : Fl) | y (v : Fl) | z (v : Fl)
  | rawX (v : BitVec 32) | rawY (v : BitVec 32) | rawZ (v : BitVec 32)
  | intensity (v : BitVec 16) | returnNumber (v : BitVec 16) | numberOfReturns (v : BitVec 16)
  | scanDirection (v : BitVec 16) | flightLineEdge (v : BitVec 16) | scanFlags (v : BitVec 8)
  | classification (v : BitVec 8) | time (v : BitVec 64) | scanAngleRank (v : BitVec 8)
  | pointSourceId (v : BitVec 16) | userData (v : BitVec 8) | color (v : Color)
  deriving DecidableEq, Repr

/-- The C++ setter that the function calls. -/
def PointSet.run (b : Build) (p : Point) : PointSet → Outcome Point
  | x v => Point.setX b p v
  | y v => Point.setY b p v
  | z v => Point.setZ b p v
  | rawX v => Point.setRawX b p v
  | rawY v => Point.setRawY b p v
  | rawZ v => Point.setRawZ b p v
  | intensity v => Point.setIntensity b p v
  | returnNumber v => Point.setReturnNumber p v
  | numberOfReturns v => Point.setNumberOfReturns p v
  | scanDirection v => Point.setScanDirection p v
  | flightLineEdge v => Point.setFlightLineEdge p v
  | scanFlags v => Point.setScanFlags p v
  | classification v => Point.setClassification p ⟨v⟩
  | time v => Point.setTime b p v
  | scanAngleRank v => Point.setScanAngleRank p v
  | pointSourceId v => Point.setPointSourceID b p v
  | userData v => Point.setUserData p v
  | color v => Point.setColor b p v

/-- The name of the C function. -/
def PointSet.name : PointSet → String
  | x _ => "LASPoint_SetX" | y _ => "LASPoint_SetY" | z _ => "LASPoint_SetZ"
  | rawX _ => "LASPoint_SetRawX" | rawY _ => "LASPoint_SetRawY" | rawZ _ => "LASPoint_SetRawZ"
  | intensity _ => "LASPoint_SetIntensity" | returnNumber _ => "LASPoint_SetReturnNumber"
  | numberOfReturns _ => "LASPoint_SetNumberOfReturns" | scanDirection _ => "LASPoint_SetScanDirection"
  | flightLineEdge _ => "LASPoint_SetFlightLineEdge" | scanFlags _ => "LASPoint_SetScanFlags"
  | classification _ => "LASPoint_SetClassification" | time _ => "LASPoint_SetTime"
  | scanAngleRank _ => "LASPoint_SetScanAngleRank" | pointSourceId _ => "LASPoint_SetPointSourceId"
  | userData _ => "LASPoint_SetUserData" | color _ => "LASPoint_SetColor"

/-- The setters that drop a `std::runtime_error`. -/
def PointSet.quiet : PointSet → Bool
  | time _ | color _ => true
  | _ => false

/-- The object after a C++ setter: the modelled setters throw before they change anything. -/
def settled (p : Point) (x : Outcome Point) : Point × Outcome Unit :=
  match x with
  | .ok q => (q, .ok ())
  | .throw e => (p, .throw e)
  | .ub => (p, .ub)

/-- One `LASPoint_Set...` call (the colour handle of `LASPoint_SetColor` is not NULL). -/
def pointSet (b : Build) (what : Exc → List Byte) (st : Errors) (h : Option Point) (s : PointSet) :
    Outcome (Code × Option Point × Errors) :=
  match h with
  | none => .ok (.failure, none, nullError st "hPoint" s.name)
  | some p =>
    match (if s.quiet then attemptQuiet what st s.name (settled p (s.run b p))
      else attempt what st s.name (settled p (s.run b p))) with
    | .ok (c, p, st) => .ok (c, some p, st)
    | .throw e => .throw e
    | .ub => .ub

/-- src/c_api.cpp:576-606 `LASPoint_SetData`. `data` is the caller's buffer; reading past it is undefined. When the record
has another length than the header says, `d.assign(0, d.size())` leaves the vector empty, and `d[i]` is outside it. -/
def pointSetData (st : Errors) (h : Option Point) (data : Option (List Byte)) : Outcome (Code × Option Point × Errors) :=
  match h, data with
  | none, _ => .ok (.failure, none, nullError st "hPoint" "LASPoint_SetData")
  | some p, none => .ok (.failure, some p, nullError st "data" "LASPoint_SetData")
  | some p, some buf =>
    let n := p.hdr.recLen
    let d := if p.data.length ≠ n then [] else p.data
    if n ≤ d.length ∧ n ≤ buf.length then .ok (.none, some { p with data := buf.take n ++ d.drop n }, st)
    else .ub

/-- src/c_api.cpp:608-632 `LASPoint_GetData` into a caller's buffer of `room` bytes (anything, if not NULL). Result: the bytes
written to the front of the buffer. -/
def pointGetData (st : Errors) (h : Option Point) (room : Option Nat) : Outcome (Code × List Byte × Errors) :=
  match h, room with
  | none, _ => .ok (.failure, [], nullError st "hPoint" "LASPoint_GetData")
  | some _, none => .ok (.failure, [], nullError st "data" "LASPoint_GetData")
  | some p, some room =>
    let n := p.hdr.recLen
    if n ≤ p.data.length ∧ n ≤ room then .ok (.none, p.data.take n, st) else .ub

/-- A point object in memory. -/
structure PointObj where
  addr : Nat
  val : Point

/-- src/c_api.cpp:550-552 `LASPoint_Copy` of a point that is not NULL: a new object at a new address. -/
def pointCopy (p : PointObj) (addr : Nat) : PointObj := ⟨addr, p.val⟩

/-- src/c_api.cpp:1077-1086 `LASPoint_Equal`: the two pointers are compared. -/
def pointEqual (st : Errors) (p q : Option PointObj) : Bool × Errors :=
  match p, q with
  | none, _ => (false, nullError st "hPoint1" "LASPoint_Equal")
  | some _, none => (false, nullError st "hPoint2" "LASPoint_Equal")
  | some p, some q => (p.addr == q.addr, st)

/-- The members that `Validate` finds out of range, src/point.cpp:131-159, with the flags of
include/liblas/point.hpp:72-81. -/
def invalidMembers (p : Point) : Outcome (BitVec 32) := do
  let rn ← Point.getReturnNumber p
  let nr ← Point.getNumberOfReturns p
  let sd ← Point.getScanDirection p
  let fe ← Point.getFlightLineEdge p
  let ar ← Point.getScanAngleRank p
  let f : BitVec 32 := 0
  let f := if rn.toNat > 7 then f ||| 1 else f
  let f := if nr.toNat > 7 then f ||| 2 else f
  let f := if sd.toNat > 1 then f ||| 4 else f
  let f := if fe.toNat > 1 then f ||| 8 else f
  pure (if ar.toInt < -90 ∨ ar.toInt > 90 then f ||| 32 else f)

/-- src/c_api.cpp:1088-1103 `LASPoint_Validate`: 0 (`LE_None`), or the flags of the exception. -/
def pointValidate (st : Errors) (h : Option Point) : Outcome (Int × Errors) :=
  match h with
  | none => .ok (Code.failure.num, nullError st "hPoint" "LASPoint_Validate")
  | some p => do
    let f ← invalidMembers p
    pure (f.toInt, st)

/-- src/c_api.cpp:1105-1109 `LASPoint_IsValid`. -/
def pointIsValid (st : Errors) (h : Option Point) : Outcome (Int × Errors) :=
  match h with
  | none => .ok (Code.failure.num, nullError st "hPoint" "LASPoint_IsValid")
  | some p => do
    let v ← Point.isValid p
    pure (if v then 1 else 0, st)

/-! Headers -/

/-- A header handle is a `HeaderPtr*`: NULL, a pointer to an empty `HeaderPtr` (as `LASReader_GetHeader(NULL)` returns), or a
header. -/
abbrev HeaderH := Option (Option Header)

/-- The `LASHeader_Set...` functions, src/c_api.cpp:1126-1416 and :1624-1655. Scale, offset and extent setters are plain
assignments in C++ and are not listed; `LASHeader_SetDataFormatId` is below. -/
inductive HeaderSet where
  | fileSourceId (v : BitVec 16) | reserved (v : BitVec 16) | versionMajor (v : BitVec 8) | versionMinor (v : BitVec 8)
  | systemId (v : List Byte) | softwareId (v : List Byte) | creationDOY (v : BitVec 16) | creationYear (v : BitVec 16)
  | dataOffset (v : BitVec 32) | padding (v : BitVec 32) | byReturn (i : BitVec 32) (v : BitVec 32)
  | pointCount (v : BitVec 32) | addVLR (v : VLR) | deleteVLR (i : BitVec 32)

/-- `static_cast<std::size_t>` of an `int`, as in the call of `SetPointRecordsByReturnCount(index, value)`. -/
def sizeOfInt (i : BitVec 32) : Nat := (i.signExtend 64).toNat

/-- The C++ setter. A C text ends at its first NUL. src/header.cpp:201-560. -/
def HeaderSet.run (h : Header) : HeaderSet → Header × Outcome Unit
  | fileSourceId v => ({ h with sourceId := v }, .ok ())
  | reserved v => ({ h with reserved := v }, .ok ())
  | versionMajor v => h.setVersionMajor v
  | versionMinor v => h.setVersionMinor v
  | systemId v => h.setSystemId (cstr v)
  | softwareId v => h.setSoftwareId (cstr v)
  | creationDOY v => ({ h with doy := v }, .ok ())
  | creationYear v => ({ h with year := v }, .ok ())
  | dataOffset v => ({ h with dataOffset := v }, .ok ())
  | padding v => ({ h with padding := v }, .ok ())
  | byReturn i v => h.setByReturn (sizeOfInt i) v
  | pointCount v => ({ h with pointCount := v }, .ok ())
  | addVLR v => (h.addVLR v, .ok ())
  | deleteVLR i => h.deleteVLR i

/-- The name of the C function. -/
def HeaderSet.name : HeaderSet → String
  | fileSourceId _ => "LASHeader_SetFileSourceId" | reserved _ => "LASHeader_SetReserved"
  | versionMajor _ => "LASHeader_SetVersionMajor" | versionMinor _ => "LASHeader_SetVersionMinor"
  | systemId _ => "LASHeader_SetSystemId" | softwareId _ => "LASHeader_SetSoftwareId"
  | creationDOY _ => "LASHeader_SetCreationDOY" | creationYear _ => "LASHeader_SetCreationYear"
  | dataOffset _ => "LASHeader_SetDataOffset" | padding _ => "LASHeader_SetHeaderPadding"
  | byReturn _ _ => "LASHeader_SetPointRecordsByReturnCount" | pointCount _ => "LASHeader_SetPointRecordsCount"
  | addVLR _ => "LASHeader_AddVLR" | deleteVLR _ => "LASHeader_DeleteVLR"

/-- One `LASHeader_Set...` call. `VALIDATE_LAS_POINTER1(hHeader->get(), ...)` follows the handle before it tests anything, so
a NULL handle is undefined behaviour. -/
def headerSet (what : Exc → List Byte) (st : Errors) (h : HeaderH) (s : HeaderSet) : Outcome (Code × HeaderH × Errors) :=
  match h with
  | none => .ub
  | some none => .ok (.failure, some none, nullError st "hHeader->get()" s.name)
  | some (some h) =>
    match attempt what st s.name (s.run h) with
    | .ok (c, h, st) => .ok (c, some (some h), st)
    | .throw e => .throw e
    | .ub => .ub

/-- src/c_api.cpp:1346-1358 `LASHeader_SetDataFormatId`: this one tests the handle itself, and then follows it without a
test for an empty `HeaderPtr`. -/
def headerSetFormat (what : Exc → List Byte) (st : Errors) (h : HeaderH) (f : PointFormat) :
    Outcome (Code × HeaderH × Errors) :=
  match h with
  | none => .ok (.failure, none, nullError st "hHeader" "LASHeader_SetDataFormatId")
  | some none => .ub
  | some (some h) =>
    match attempt what st "LASHeader_SetDataFormatId" (h.setDataFormatId f) with
    | .ok (c, h, st) => .ok (c, some (some h), st)
    | .throw e => .throw e
    | .ub => .ub

/-- src/c_api.cpp:1369-1379 `LASHeader_GetPointRecordsByReturnCount`. -/
def headerByReturn (st : Errors) (h : HeaderH) (index : Int) : Outcome (BitVec 32 × Errors) :=
  match h with
  | none => .ub
  | some none => .ok (0, nullError st "hHeader->get()" "LASHeader_GetPointRecordsByReturnCount")
  | some (some h) =>
    if index < 5 ∧ index ≥ 0 then
      match h.byReturn[index.toNat]? with
      | some v => .ok (v, st)
      | none => .ub
    else .ok (0, st)

/-- src/c_api.cpp:1617-1622 `LASHeader_GetVLR`: `m_vlrs[index]` (src/header.cpp:530-533) is not checked. -/
def headerGetVLR (st : Errors) (h : HeaderH) (i : BitVec 32) : Outcome (Option VLR × Errors) :=
  match h with
  | none => .ub
  | some none => .ok (none, nullError st "hHeader->get()" "LASHeader_GetVLR")
  | some (some h) =>
    match h.vlrs[i.toNat]? with
    | some v => .ok (some v, st)
    | none => .ub

/-! Variable records -/

/-- src/c_api.cpp:2037-2057 `LASVLR_SetData` with a buffer of at least `length` bytes: the length field is left alone. -/
def vlrSetData (st : Errors) (h : Option VLR) (data : List Byte) (length : BitVec 16) : Outcome (Code × Option VLR × Errors) :=
  match h with
  | none => .ok (.failure, none, nullError st "hVLR" "LASVLR_SetData")
  | some v =>
    if length.toNat ≤ data.length then .ok (.none, some { v with data := data.take length.toNat }, st) else .ub

/-- src/c_api.cpp:1982-1986 `LASVLR_SetRecordLength`. -/
def vlrSetLength (st : Errors) (h : Option VLR) (n : BitVec 16) : Outcome (Code × Option VLR × Errors) :=
  match h with
  | none => .ok (.failure, none, nullError st "hVLR" "LASVLR_SetRecordLength")
  | some v => .ok (.none, some { v with recordSize := n }, st)

/-- src/c_api.cpp:2016-2035 `LASVLR_GetData` into a buffer with room for `room` bytes: the bytes stored. -/
def vlrGetData (st : Errors) (h : Option VLR) (room : Nat) : Outcome (Code × List Byte × Errors) :=
  match h with
  | none => .ok (.failure, [], nullError st "hVLR" "LASVLR_GetData")
  | some v =>
    let n := v.recordSize.toNat
    if n ≤ v.data.length ∧ n ≤ room then .ok (.none, v.data.take n, st) else .ub

/-! Readers and writers -/

/-- src/c_api.cpp:231-265 `LASReader_Create`. `file`: the contents, if the named file can be opened. -/
def readerCreate (env : Env) (what : Exc → List Byte) (today : BitVec 16 × BitVec 16) (st : Errors) (named : Bool)
    (file : Option (List Byte)) : Outcome (Option Reader × Errors) :=
  if named then
    match file with
    | none => .ok (none, pushError st Code.failure.num (lit "Something went wrong while opening the file") (lit "LASReader_Create"))
    | some f =>
      match Reader.make env today (IStream.onFile f) with
      | .ok r => .ok (some r, st)
      | .throw e => .ok (none, caught what st "LASReader_Create" e)
      | .ub => .ub
  else .ok (none, nullError st "filename" "LASReader_Create")

/-- The two handlers of src/c_api.cpp:383-388 and alike. -/
def readFailure (what : Exc → List Byte) (st : Errors) (method invalid : String) (e : Exc) : Errors :=
  caught what st (if e = .invalidPointData then method ++ invalid else method) e

/-- src/c_api.cpp:372-391 `LASReader_GetNextPoint`. The handle returned points at the reader's own point. -/
def getNextPoint (what : Exc → List Byte) (st : Errors) (h : Option Reader) :
    Outcome (Option (List Byte) × Option Reader × Errors) :=
  match h with
  | none => .ok (none, none, nullError st "hReader" "LASReader_GetNextPoint")
  | some r =>
    match r.readNext with
    | (r, .ok true) => .ok (some r.point, some r, st)
    | (r, .ok false) => .ok (none, some r, st)
    | (r, .throw e) => .ok (none, some r, readFailure what st "LASReader_GetNextPoint" " Invalid Point" e)
    | (_, .ub) => .ub

/-- src/c_api.cpp:393-413 `LASReader_GetPointAt`. -/
def getPointAt (what : Exc → List Byte) (st : Errors) (h : Option Reader) (n : BitVec 32) :
    Outcome (Option (List Byte) × Option Reader × Errors) :=
  match h with
  | none => .ok (none, none, nullError st "hReader" "LASReader_GetPointAt")
  | some r =>
    match r.readAt n.toNat with
    | (r, .ok true) => .ok (some r.point, some r, st)
    | (r, .ok false) => .ok (none, some r, st)
    | (r, .throw e) => .ok (none, some r, readFailure what st "LASReader_GetPointAt" " Invalid Point" e)
    | (_, .ub) => .ub

/-- src/c_api.cpp:415-434 `LASReader_Seek`: a NULL handle and an exception both end in `LE_None`. -/
def readerSeek (what : Exc → List Byte) (st : Errors) (h : Option Reader) (n : BitVec 32) :
    Outcome (Code × Option Reader × Errors) :=
  match h with
  | none => .ok (.none, none, nullError st "hReader" "LASReader_Seek")
  | some r =>
    match r.seek n.toNat with
    | (r, .ok true) => .ok (.none, some r, st)
    | (r, .ok false) => .ok (.failure, some r, st)
    | (r, .throw e) => .ok (.none, some r, readFailure what st "LASReader_Seek" " Invalid location" e)
    | (_, .ub) => .ub

/-- The stream that src/c_api.cpp:1670-1688 and `liblas::Create` (include/liblas/liblas.hpp:168-182) open on a file: mode 1 is
`out | binary | ate`, which truncates; mode 2 adds `in`, which keeps the contents and needs the file to exist. NULL if the file
cannot be opened. -/
def openOutput (file : Option (List Byte)) (allowed : Bool) (mode : Int) : Option OStream :=
  if allowed then
    if mode = 2 then file.map OStream.onFile else some (OStream.onFile [])
  else none

/-- src/c_api.cpp:1660-1715 `LASWriter_Create`. `liblas::Create` does not throw when the file cannot be opened; it returns
NULL, which is then dereferenced. -/
def writerCreate (env : Env) (what : Exc → List Byte) (st : Errors) (named : Bool) (file : Option (List Byte)) (allowed : Bool)
    (h : HeaderH) (mode : Int) : Outcome (Option Writer × Errors) :=
  match h with
  | none => .ub
  | some none => .ok (none, nullError st "hHeader->get()" "LASWriter_Create")
  | some (some h) =>
    if named = false then .ok (none, pushError st Code.failure.num (lit "Input filename was null") (lit "LASWriter_Create"))
    else if mode > 2 ∨ mode < 1 then .ok (none, caught what st "LASWriter_Create" .runtimeError)
    else
      match openOutput file allowed mode with
      | none => .ub
      | some s =>
        match Writer.make env s h with
        | .ok w => .ok (some w, st)
        | .throw e => .ok (none, caught what st "LASWriter_Create" e)
        | .ub => .ub

/-- src/c_api.cpp:1717-1739 `LASWriter_WritePoint` (`Writer::WritePoint` returns true, src/writer.cpp:106-110). The writer
handle is not tested. -/
def writerWritePoint (what : Exc → List Byte) (st : Errors) (w : Option Writer) (p : Option (List Byte)) :
    Outcome (Code × Option Writer × Errors) :=
  match p with
  | none => .ok (.failure, w, nullError st "hPoint" "LASWriter_WritePoint")
  | some p =>
    match w with
    | none => .ub
    | some w =>
      match w.writePoint p with
      | .ok w => .ok (.none, some w, st)
      | .throw e => .ok (.failure, some w, caught what st "LASWriter_WritePoint" e)
      | .ub => .ub

/-! Registered streams -/

/-- src/c_api.cpp:147-148 the map from reader (or writer) objects to their streams, together with what it describes: the
objects alive, the streams open, and the number of streams opened so far (their names). -/
structure Registry where
  alive : List Nat
  map : List (Nat × Nat)
  opened : List Nat
  next : Nat
  errors : Errors
  deriving DecidableEq, Repr

namespace Registry

/-- No call made yet. -/
def start : Registry := ⟨[], [], [], 0, []⟩

/-- How `Create` can end: the file cannot be opened, the constructor throws, or an object at a new address. -/
inductive Made where
  | notOpened
  | threw (e : Exc)
  | object (addr : Nat)

/-- src/c_api.cpp:231-265 `LASReader_Create` (and :1660-1715, where `notOpened` is undefined instead): the stream that was
opened is forgotten when the constructor throws. `std::map::insert` keeps an existing entry. -/
def create (what : Exc → List Byte) (s : Registry) : Made → Registry × Option Nat
  | .notOpened =>
    ({ s with errors := pushError s.errors Code.failure.num (lit "Something went wrong while opening the file") (lit "LASReader_Create") },
      none)
  | .threw e =>
    ({ s with opened := s.next :: s.opened, next := s.next + 1, errors := caught what s.errors "LASReader_Create" e }, none)
  | .object a =>
    ({ s with
        alive := a :: s.alive
        map := if (s.map.lookup a).isSome then s.map else (a, s.next) :: s.map
        opened := s.next :: s.opened
        next := s.next + 1 }, some a)

/-- src/c_api.cpp:331-368 `LASReader_Destroy` (the same as `LASWriter_Destroy`, :1784-1819): deleting an object that is not
alive, or closing a stream that is not open, is undefined. -/
def destroy (s : Registry) (h : Option Nat) : Outcome Registry :=
  match h with
  | none => .ok { s with errors := nullError s.errors "hReader" "LASReader_Destroy" }
  | some a =>
    match s.map.lookup a with
    | none =>
      .ok { s with errors := pushError s.errors Code.failure.num (lit "Unable to find reader stream") (lit "LASReader_Destroy") }
    | some i =>
      if a ∈ s.alive ∧ i ∈ s.opened then
        .ok { s with
          alive := s.alive.erase a
          opened := s.opened.erase i
          map := s.map.filter fun e => e.1 != a }
      else .ub

end Registry
end LibLAS.CApi
