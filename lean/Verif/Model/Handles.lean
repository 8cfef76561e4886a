import Verif.Model.CApi
import Verif.Model.SpatialRef
/-
src/c_api.cpp: the handles of variable records, colours, coordinate systems, schemas and headers. A program holds any number
of them. A handle is NULL or the number of an object; the number of a destroyed object, or of one of another kind, must not
be used. Build without GDAL and libgeotiff; memory does not run out.
-/
namespace LibLAS.Handles
open CApi

/-- What a handle points to. A `LASHeaderH` points to a `HeaderPtr` that holds a header, as `LASHeader_Create`
(src/c_api.cpp:542-544) makes it. -/
inductive Obj where
  | record (v : VLR)
  | color (c : Color)
  | reference (s : SRS)
  | schema (s : Schema)
  | header (h : Header)
  deriving DecidableEq

/-- The objects made so far, in order, without those destroyed, and the stack of errors. -/
structure Heap where
  objs : List (Option Obj)
  errs : Errors
  deriving DecidableEq

namespace Heap

/-- Follow a handle. -/
def deref (s : Heap) (a : Nat) : Outcome Obj :=
  match s.objs[a]? with
  | some (some o) => .ok o
  | _ => .ub

/-- `new` -/
def make (s : Heap) (o : Obj) : Option Nat × Heap := (some s.objs.length, { s with objs := s.objs ++ [some o] })

/-- Change the object of a handle. -/
def put (s : Heap) (a : Nat) (o : Obj) (errs : Errors) : Heap := ⟨s.objs.set a (some o), errs⟩

/-- `(liblas::VariableRecord*) h` and so on, for a handle that is not NULL. -/
def recordAt (s : Heap) (a : Nat) : Outcome VLR :=
  match s.deref a with
  | .ok (.record v) => .ok v
  | _ => .ub

def colorAt (s : Heap) (a : Nat) : Outcome Color :=
  match s.deref a with
  | .ok (.color c) => .ok c
  | _ => .ub

def referenceAt (s : Heap) (a : Nat) : Outcome SRS :=
  match s.deref a with
  | .ok (.reference r) => .ok r
  | _ => .ub

def schemaAt (s : Heap) (a : Nat) : Outcome Schema :=
  match s.deref a with
  | .ok (.schema c) => .ok c
  | _ => .ub

def headerAt (s : Heap) (a : Nat) : Outcome Header :=
  match s.deref a with
  | .ok (.header h) => .ok h
  | _ => .ub

/-- `hHeader->get()` in `VALIDATE_LAS_POINTER1(hHeader->get(), ...)` follows the handle, NULL or not. -/
def headerOf (s : Heap) (h : Option Nat) : Outcome (Nat × Header) :=
  match h with
  | none => .ub
  | some a => do
    let x ← s.headerAt a
    pure (a, x)

end Heap

/-- The setters of a variable record, src/c_api.cpp:1941-2014 and :2037-2057. -/
inductive RecordSet where
  | userId (v : Option (List Byte))
  | description (v : Option (List Byte))
  | length (v : BitVec 16)
  | id (v : BitVec 16)
  | reserved (v : BitVec 16)
  | data (buf : List Byte) (length : BitVec 16)
  deriving DecidableEq

/-- The name of the C function; `LASVLR_SetData` reports errors of its copy as `LASVLR_GetData` (:2052), of which there are
none. -/
def RecordSet.name : RecordSet → String
  | userId _ => "LASVLR_SetUserId"
  | description _ => "LASVLR_SetDescription"
  | length _ => "LASVLR_SetRecordLength"
  | id _ => "LASVLR_SetRecordId"
  | reserved _ => "LASVLR_SetReserved"
  | data _ _ => "LASVLR_SetData"

/-- The C++ setter. A NULL text is made a `std::string`, which is undefined; a C text ends at its first NUL. Reading past the
caller's buffer is undefined. -/
def RecordSet.run (v : VLR) : RecordSet → VLR × Outcome Unit
  | userId none => (v, .ub)
  | userId (some t) => v.setUserId (cstr t)
  | description none => (v, .ub)
  | description (some t) => v.setDescription (cstr t)
  | length n => ({ v with recordSize := n }, .ok ())
  | id n => ({ v with recordId := n }, .ok ())
  | reserved n => ({ v with reserved := n }, .ok ())
  | data buf n => if n.toNat ≤ buf.length then ({ v with data := buf.take n.toNat }, .ok ()) else (v, .ub)

/-- The channels of a colour. -/
inductive Channel where
  | red | green | blue
  deriving DecidableEq

/-- src/c_api.cpp:2125-2195: the C functions are named after the channels; the C++ setters. -/
def setChannel (c : Color) : Channel → BitVec 16 → Color
  | .red, v => c.setRed v
  | .green, v => c.setGreen v
  | .blue, v => c.setBlue v

def getChannel (c : Color) : Channel → BitVec 16
  | .red => c.getRed
  | .green => c.getGreen
  | .blue => c.getBlue

def Channel.setter : Channel → String
  | .red => "LASColor_SetRed" | .green => "LASColor_SetGreen" | .blue => "LASColor_SetBlue"
def Channel.getter : Channel → String
  | .red => "LASColor_GetRed" | .green => "LASColor_GetGreen" | .blue => "LASColor_GetBlue"

/-- The setters of a coordinate system with a text, src/c_api.cpp:2284-2369. -/
inductive TextSet where
  | proj4 | wkt | userInput
  deriving DecidableEq

def TextSet.name : TextSet → String
  | proj4 => "LASSRS_SetProj4" | wkt => "LASSRS_SetWKT" | userInput => "LASSRS_SetFromUserInput"

def TextSet.run (s : SRS) (t : List Byte) : TextSet → SRS × Outcome Unit
  | proj4 => s.setProj4 (cstr t)
  | wkt => s.setWKT (cstr t)
  | userInput => s.setFromUserInput (cstr t)

/-- The kinds of handles that are destroyed. -/
inductive Kind where
  | record | color | reference | schema
  deriving DecidableEq

def Kind.destroyer : Kind → String × String
  | record => ("hVLR", "LASVLR_Destroy") | color => ("hColor", "LASColor_Destroy")
  | reference => ("hSRS", "LASSRS_Destroy") | schema => ("hFormat", "LASSchema_Destroy")

def Obj.isKind : Obj → Kind → Bool
  | .record _, .record => true
  | .color _, .color => true
  | .reference _, .reference => true
  | .schema _, .schema => true
  | _, _ => false

/-- The calls. -/
inductive Call where
  | newRecord | newColor | newReference | newSchema (f : PointFormat) | newHeader (doy year : BitVec 16)
  | destroy (k : Kind) (h : Option Nat)
  | setRecord (h : Option Nat) (s : RecordSet)
  | setColor (h : Option Nat) (ch : Channel) (v : BitVec 16)
  | setText (h : Option Nat) (k : TextSet) (t : Option (List Byte))
  | addToReference (h r : Option Nat)
  | recordOfReference (h : Option Nat) (i : BitVec 32)
  | addToHeader (h r : Option Nat)
  | deleteFromHeader (h : Option Nat) (i : BitVec 32)
  | recordOfHeader (h : Option Nat) (i : BitVec 32)
  | setReference (h r : Option Nat)
  | referenceOfHeader (h : Option Nat)
  | setSchema (h r : Option Nat)
  | schemaOfHeader (h : Option Nat)
  | setCompressed (h : Option Nat) (v : BitVec 32)
  deriving DecidableEq

/-- What a call returns. -/
inductive Ret where
  | code (c : Code)
  | handle (h : Option Nat)
  | nothing
  deriving DecidableEq

/-- A setter on the object of a handle: `try ... catch`, and the object as it leaves it. -/
def settle {α : Type} (what : Exc → List Byte) (s : Heap) (a : Nat) (method : String) (wrap : α → Obj) (x : α × Outcome Unit) :
    Outcome (Ret × Heap) :=
  match attempt what s.errs method x with
  | .ok (c, v, errs) => .ok (.code c, s.put a (wrap v) errs)
  | .throw e => .throw e
  | .ub => .ub

/-- `VALIDATE_LAS_POINTER1(ptr, method, LE_Failure)` with a NULL pointer. -/
def refuse (s : Heap) (ptr method : String) : Outcome (Ret × Heap) :=
  .ok (.code .failure, { s with errs := nullError s.errs ptr method })

/-- The same in a function that returns a handle. -/
def refuseHandle (s : Heap) (ptr method : String) : Outcome (Ret × Heap) :=
  .ok (.handle none, { s with errs := nullError s.errs ptr method })

/-- `return (...) new ...(x)` -/
def give (s : Heap) (o : Obj) : Outcome (Ret × Heap) :=
  let (h, s) := s.make o
  .ok (.handle h, s)

/-- One call. src/c_api.cpp:542-544 `LASHeader_Create` (the day and year are those of the clock), :1617-1655, :1924-2057,
:2115-2195, :2233-2241, :2284-2330, :2355-2430, :2432-2436, :2456-2507. -/
def call (what : Exc → List Byte) (s : Heap) : Call → Outcome (Ret × Heap)
  | .newRecord => give s (.record VLR.new)
  | .newColor => give s (.color Color.black)
  | .newReference => give s (.reference SRS.new)
  | .newSchema f => do
    let x ← Schema.make f
    give s (.schema x)
  | .newHeader doy year => give s (.header (Header.new doy year))
  | .destroy k none => .ok (.nothing, { s with errs := nullError s.errs k.destroyer.1 k.destroyer.2 })
  | .destroy k (some a) =>
    match s.deref a with
    | .ok o => if o.isKind k then .ok (.nothing, { s with objs := s.objs.set a none }) else .ub
    | _ => .ub
  | .setRecord none x => refuse s "hVLR" x.name
  | .setRecord (some a) x => do
    let v ← s.recordAt a
    settle what s a x.name .record (x.run v)
  | .setColor none ch _ => refuse s "hColor" ch.setter
  | .setColor (some a) ch v => do
    let c ← s.colorAt a
    settle what s a ch.setter .color (setChannel c ch v, .ok ())
  | .setText none k _ => refuse s "hSRS" k.name
  | .setText (some _) k none => refuse s "value" k.name
  | .setText (some a) k (some t) => do
    let r ← s.referenceAt a
    settle what s a k.name .reference (k.run r t)
  | .addToReference none _ => refuse s "hSRS" "LASSRS_AddVLR"
  | .addToReference (some _) none => refuse s "hVLR" "LASSRS_AddVLR"
  | .addToReference (some a) (some r) => do
    let x ← s.referenceAt a
    let v ← s.recordAt r
    settle what s a "LASSRS_AddVLR" .reference (x.addVLR v, .ok ())
  | .recordOfReference none _ => refuseHandle s "hSRS" "LASSRS_GetVLR"
  | .recordOfReference (some a) i => do
    let x ← s.referenceAt a
    match x.vlrs[i.toNat]? with
    | some v => give s (.record v)
    | none => .ub
  | .addToHeader h r => do
    let (a, x) ← s.headerOf h
    match r with
    | none => refuse s "hVLR" "LASHeader_AddVLR"
    | some r => do
      let v ← s.recordAt r
      settle what s a "LASHeader_AddVLR" .header (x.addVLR v, .ok ())
  | .deleteFromHeader h i => do
    let (a, x) ← s.headerOf h
    settle what s a "LASHeader_DeleteVLR" .header (x.deleteVLR i)
  | .recordOfHeader h i => do
    let (_, x) ← s.headerOf h
    match x.vlrs[i.toNat]? with
    | some v => give s (.record v)
    | none => .ub
  | .setReference h r => do
    let (a, x) ← s.headerOf h
    match r with
    | none => refuse s "hSRS" "LASHeader_SetSRS"
    | some r => do
      let v ← s.referenceAt r
      settle what s a "LASHeader_SetSRS" .header (x.setReference v, .ok ())
  | .referenceOfHeader h => do
    -- the text of the reference is not part of the modelled header
    let (_, x) ← s.headerOf h
    give s (.reference ⟨x.srs, []⟩)
  | .setSchema h r => do
    let (a, x) ← s.headerOf h
    match r with
    | none => refuse s "hFormat" "LASHeader_SetSchema"
    | some r => do
      let v ← s.schemaAt r
      settle what s a "LASHeader_SetSchema" .header (x.setSchema v)
  | .schemaOfHeader h => do
    let (_, x) ← s.headerOf h
    give s (.schema x.schema)
  | .setCompressed h v => do
    let (a, x) ← s.headerOf h
    settle what s a "LASHeader_SetCompressed" .header ({ x with compressed := v != 0 }, .ok ())

/-- A program. -/
def run (what : Exc → List Byte) : Heap → List Call → Outcome (List Ret × Heap)
  | s, [] => .ok ([], s)
  | s, c :: cs => do
    let (r, s) ← call what s c
    let (rs, s) ← run what s cs
    pure (r :: rs, s)

/-! What the program reads. -/

/-- src/c_api.cpp:1935-1939 `LASVLR_GetUserId` -/
def userId (s : Heap) : Option Nat → Outcome (Option (List Byte) × Errors)
  | none => .ok (none, nullError s.errs "hVLR" "LASVLR_GetUserId")
  | some a => do
    let v ← s.recordAt a
    pure (some (cstr (v.getUserId true)), s.errs)

/-- src/c_api.cpp:1955-1959 `LASVLR_GetDescription` -/
def description (s : Heap) : Option Nat → Outcome (Option (List Byte) × Errors)
  | none => .ok (none, nullError s.errs "hVLR" "LASVLR_GetDescription")
  | some a => do
    let v ← s.recordAt a
    pure (some (cstr (v.getDescription true)), s.errs)

/-- src/c_api.cpp:1975-1981 `LASVLR_GetRecordLength` -/
def recordLength (s : Heap) : Option Nat → Outcome (BitVec 16 × Errors)
  | none => .ok (0, nullError s.errs "hVLR" "LASVLR_GetRecordLength")
  | some a => do
    let v ← s.recordAt a
    pure (v.recordSize, s.errs)

/-- src/c_api.cpp:1988-1994 `LASVLR_GetRecordId` -/
def recordId (s : Heap) : Option Nat → Outcome (BitVec 16 × Errors)
  | none => .ok (0, nullError s.errs "hVLR" "LASVLR_GetRecordId")
  | some a => do
    let v ← s.recordAt a
    pure (v.recordId, s.errs)

/-- src/c_api.cpp:2008-2014 `LASVLR_GetReserved` -/
def reserved (s : Heap) : Option Nat → Outcome (BitVec 16 × Errors)
  | none => .ok (0, nullError s.errs "hVLR" "LASVLR_GetReserved")
  | some a => do
    let v ← s.recordAt a
    pure (v.reserved, s.errs)

/-- src/c_api.cpp:2016-2035 `LASVLR_GetData` into a buffer of `room` bytes (`CApi.vlrGetData`). -/
def recordData (s : Heap) (room : Nat) : Option Nat → Outcome (Code × List Byte × Errors)
  | none => vlrGetData s.errs none room
  | some a => do
    let v ← s.recordAt a
    vlrGetData s.errs (some v) room

/-- src/c_api.cpp:2141-2147, :2165-2171, :2189-2195 -/
def channel (s : Heap) (ch : Channel) : Option Nat → Outcome (BitVec 16 × Errors)
  | none => .ok (0, nullError s.errs "hColor" ch.getter)
  | some a => do
    let c ← s.colorAt a
    pure (getChannel c ch, s.errs)

/-- src/c_api.cpp:2300-2316 `LASSRS_GetWKT` and `LASSRS_GetWKT_CompoundOK`, named by `method`. -/
def text (s : Heap) (method : String) : Option Nat → Outcome (Option (List Byte) × Errors)
  | none => .ok (none, nullError s.errs "hSRS" method)
  | some a => do
    let r ← s.referenceAt a
    pure (some (cstr r.getWKT), s.errs)

/-- src/c_api.cpp:2394-2399 `LASSRS_GetVLRCount` -/
def recordCount (s : Heap) : Option Nat → Outcome (BitVec 32 × Errors)
  | none => .ok (0, nullError s.errs "hSRS" "LASSRS_GetVLR")
  | some a => do
    let r ← s.referenceAt a
    pure (BitVec.ofNat 32 r.vlrs.length, s.errs)

/-- src/c_api.cpp:2438-2445 `LASSchema_GetByteSize` -/
def schemaSize (s : Heap) : Option Nat → Outcome (BitVec 32 × Errors)
  | none => .ok (0, nullError s.errs "hFormat" "LASSchema_GetByteSize")
  | some a => do
    let c ← s.schemaAt a
    pure (BitVec.ofNat 32 c.byteSize, s.errs)

/-- src/c_api.cpp:2447-2454 `LASSchema_GetBaseByteSize` -/
def schemaBaseSize (s : Heap) : Option Nat → Outcome (BitVec 32 × Errors)
  | none => .ok (0, nullError s.errs "hFormat" "LASSchema_GetBaseByteSize")
  | some a => do
    let c ← s.schemaAt a
    pure (BitVec.ofNat 32 c.baseByteSize, s.errs)

/-- src/c_api.cpp:2487-2491 `LASHeader_Compressed` -/
def compressed (s : Heap) (h : Option Nat) : Outcome (Bool × Errors) := do
  let (_, x) ← s.headerOf h
  pure (x.compressed, s.errs)

/-- src/c_api.cpp:2197-2209 `LASPoint_GetColor`: the colour copied into the new handle; `runtime_error` is swallowed. -/
def pointColor (b : Build) (st : Errors) : Option Point → Outcome (Option Color × Errors)
  | none => .ok (none, nullError st "hPoint" "LASPoint_GetColor")
  | some p =>
    match p.getColor b with
    | .ok c => .ok (some c, st)
    | .throw e => if e.isRuntime then .ok (some Color.black, st) else .throw e
    | .ub => .ub

end LibLAS.Handles
