import Verif.Model.CApi
/-
src/c_api.cpp: the project identifier of a header (a GUID) as text and as a handle. The text is read and written by Boost.UUID
(`boost/uuid/string_generator.hpp`, `boost/uuid/uuid_io.hpp`), which is not part of the repository; it is modelled after its source.
-/
namespace LibLAS.ProjectId

/-- `string_generator::get_value`: the value of a hexadecimal digit; anything else throws `std::runtime_error`. -/
def digit (c : Byte) : Outcome Nat :=
  if 0x30 ≤ c.toNat ∧ c.toNat ≤ 0x39 then .ok (c.toNat - 0x30)
  else if 0x61 ≤ c.toNat ∧ c.toNat ≤ 0x66 then .ok (c.toNat - 0x61 + 10)
  else if 0x41 ≤ c.toNat ∧ c.toNat ≤ 0x46 then .ok (c.toNat - 0x41 + 10)
  else .throw .runtimeError

/-- `get_next_char`: throws at the end of the text. -/
def next (t : List Byte) : Outcome (Byte × List Byte) :=
  match t with
  | [] => .throw .runtimeError
  | c :: r => .ok (c, r)

/-- The dash that may stand before byte `i`: whether there are dashes is decided before byte 4. -/
def dashBefore (dashes : Bool) (i : Nat) (t : List Byte) : Outcome (Bool × List Byte) :=
  if i = 4 then do
    let x ← next t
    if x.1 = 0x2D#8 then pure (true, x.2) else pure (false, t)
  else if dashes ∧ (i = 6 ∨ i = 8 ∨ i = 10) then do
    let x ← next t
    if x.1 = 0x2D#8 then pure (dashes, x.2) else .throw .runtimeError
  else .ok (dashes, t)

/-- The loop of `string_generator::operator()` for the bytes `i`, `i + 1`, ... (`n` of them). -/
def bytesFrom (dashes : Bool) (i : Nat) : Nat → List Byte → Outcome (List Byte × List Byte)
  | 0, t => .ok ([], t)
  | n + 1, t => do
    let d ← dashBefore dashes i t
    let a ← next d.2
    let x ← digit a.1
    let c ← next a.2
    let y ← digit c.1
    let rest ← bytesFrom d.1 (i + 1) n c.2
    pure (BitVec.ofNat 8 (x * 16 + y) :: rest.1, rest.2)

/-- The end of the text: the closing brace if there was an opening one; with `strict` (Boost from 1.67) nothing may follow. -/
def finish (strict braced : Bool) (t : List Byte) : Outcome Unit :=
  if braced then do
    let x ← next t
    if x.1 = 0x7D#8 then (if strict ∧ x.2 ≠ [] then .throw .runtimeError else pure ()) else .throw .runtimeError
  else if strict ∧ t ≠ [] then .throw .runtimeError else .ok ()

/-- `boost::uuids::string_generator()(text)`. -/
def parse (strict : Bool) (t : List Byte) : Outcome (List Byte) := do
  let x ← next t
  let braced := decide (x.1 = 0x7B#8)
  let r ← bytesFrom false 0 16 (if braced then x.2 else t)
  finish strict braced r.2
  pure r.1

/-- One hexadecimal digit of `operator<<`: lower case. -/
def hexDigit (n : Nat) : Byte := if n < 10 then BitVec.ofNat 8 (0x30 + n) else BitVec.ofNat 8 (0x61 + (n - 10))

/-- `operator<<` of a UUID: the bytes from `i` on, a dash after bytes 3, 5, 7 and 9. -/
def printFrom (i : Nat) : List Byte → List Byte
  | [] => []
  | x :: xs => hexDigit (x.toNat / 16) :: hexDigit (x.toNat % 16) ::
      ((if i = 3 ∨ i = 5 ∨ i = 7 ∨ i = 9 then [0x2D#8] else []) ++ printFrom (i + 1) xs)

/-- The text of an identifier. -/
def print (id : List Byte) : List Byte := printFrom 0 id

open CApi

/-- src/c_api.cpp:1146-1153 `LASHeader_GetProjectId` (`none`: NULL). -/
def getProjectId (st : Errors) (h : HeaderH) : Outcome (Option (List Byte) × Errors) :=
  match h with
  | none => .ub
  | some none => .ok (none, nullError st "hHeader->get()" "LASHeader_GetProjectId")
  | some (some h) => .ok (some (print h.guid), st)

/-- src/c_api.cpp:1155-1168 `LASHeader_SetProjectId`. The length of the text is taken before anything is tested; the error is reported
under the name of another function. -/
def setProjectId (strict : Bool) (what : Exc → List Byte) (st : Errors) (h : HeaderH) (text : Option (List Byte)) :
    Outcome (Code × HeaderH × Errors) :=
  match h, text with
  | none, _ => .ub
  | some none, _ => .ok (.failure, some none, nullError st "hHeader->get()" "LASHeader_SetProjectId")
  | some (some _), none => .ub
  | some (some h), some t =>
    match parse strict (cstr t) with
    | .ok id => .ok (.none, some (some { h with guid := id }), st)
    | .throw e => .ok (.failure, some (some h), caught what st "LASHeader_SetGUID" e)
    | .ub => .ub

/-- src/c_api.cpp:1593-1598 `LASHeader_GetGUID`. -/
def getGUID (st : Errors) (h : HeaderH) : Outcome (Option (List Byte) × Errors) :=
  match h with
  | none => .ub
  | some none => .ok (none, nullError st "hHeader->get()" "LASHeader_GetGUID")
  | some (some h) => .ok (some h.guid, st)

/-- src/c_api.cpp:1601-1615 `LASHeader_SetGUID`: the identifier handle is followed without a test. -/
def setGUID (st : Errors) (h : HeaderH) (id : Option (List Byte)) : Outcome (Code × HeaderH × Errors) :=
  match h, id with
  | none, _ => .ub
  | some none, _ => .ok (.failure, some none, nullError st "hHeader->get()" "LASHeader_SetGUID")
  | some (some _), none => .ub
  | some (some h), some id => .ok (.none, some (some { h with guid := id }), st)

/-- src/c_api.cpp:2059-2068 `LASGuid_Create`: a variable that is not initialised is copied; `memory` is what it holds. -/
def createGUID (memory : List Byte) : List Byte := memory

/-- src/c_api.cpp:2070-2081 `LASGuid_CreateFromString`. -/
def createFromString (strict : Bool) (what : Exc → List Byte) (st : Errors) (text : Option (List Byte)) :
    Outcome (Option (List Byte) × Errors) :=
  match text with
  | none => .ok (none, nullError st "string" "LASGuid_CreateFromString")
  | some t =>
    match parse strict (cstr t) with
    | .ok id => .ok (some id, st)
    | .throw e => .ok (none, caught what st "LASGuid_CreateFromString" e)
    | .ub => .ub

/-- src/c_api.cpp:2089-2103 `LASGuid_Equals`: for NULL the value of `LE_Failure` is returned. -/
def equalsGUID (st : Errors) (a c : Option (List Byte)) : Int × Errors :=
  match a, c with
  | none, _ => (Code.failure.num, nullError st "hId1" "LASGuid_Equals")
  | some _, none => (Code.failure.num, nullError st "hId2" "LASGuid_Equals")
  | some a, some c => (if a = c then 1 else 0, st)

/-- src/c_api.cpp:2105-2111 `LASGuid_AsString`. -/
def asString (st : Errors) (id : Option (List Byte)) : Option (List Byte) × Errors :=
  match id with
  | none => (none, nullError st "hId" "LASGuid_AsString")
  | some id => (some (print id), st)

end LibLAS.ProjectId
