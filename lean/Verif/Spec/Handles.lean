import Verif.Model.Handles
import Verif.Spec.CApi
import Verif.Spec.Header
/-
What a C program expects of its handles.
-/
namespace LibLAS.Spec.Handles
open LibLAS.Handles CApi

/-- The last value accepted; `d` if there was none. -/
def lastOf {α β : Type} (f : α → Option β) (d : β) : List α → β
  | [] => d
  | x :: l => lastOf f ((f x).getD d) l

/-- A text is accepted if it has at most `n` characters. -/
def fits (n : Nat) (t : List Byte) : Option (List Byte) := if (untilNul t).length ≤ n then some (untilNul t) else none

/-- The value a call on a record asks for, where the record can hold it. -/
def newUserId : RecordSet → Option (List Byte)
  | .userId (some t) => fits 16 t
  | _ => none
def newDescription : RecordSet → Option (List Byte)
  | .description (some t) => fits 32 t
  | _ => none
def newLength : RecordSet → Option (BitVec 16)
  | .length n => some n
  | _ => none
def newId : RecordSet → Option (BitVec 16)
  | .id n => some n
  | _ => none
def newReserved : RecordSet → Option (BitVec 16)
  | .reserved n => some n
  | _ => none
def newData : RecordSet → Option (List Byte)
  | .data buf n => some (buf.take n.toNat)
  | _ => none

/-- The calls of a program that set something of record `a`. -/
def recordCalls (a : Nat) (cs : List Call) : List RecordSet :=
  cs.filterMap fun
    | .setRecord h x => if h = some a then some x else none
    | _ => none

/-- The calls of a program that set a channel of colour `a`. -/
def colorCalls (a : Nat) (ch : Channel) (cs : List Call) : List (BitVec 16) :=
  cs.filterMap fun
    | .setColor h k v => if h = some a ∧ k = ch then some v else none
    | _ => none

/-- The calls of a program that mark header `a` as compressed or not. -/
def compressedCalls (a : Nat) (cs : List Call) : List Bool :=
  cs.filterMap fun
    | .setCompressed h v => if h = some a then some (decide (v ≠ 0)) else none
    | _ => none

/-- The handle whose object a call may change or destroy. -/
def target : Call → Option Nat
  | .destroy _ h | .setRecord h _ | .setColor h _ _ | .setText h _ _ | .addToReference h _ | .addToHeader h _
  | .deleteFromHeader h _ | .setReference h _ | .setSchema h _ | .setCompressed h _ => h
  | .newRecord | .newColor | .newReference | .newSchema _ | .newHeader _ _ | .recordOfReference _ _ | .recordOfHeader _ _
  | .referenceOfHeader _ | .schemaOfHeader _ => none

/-- The C function a call is of. -/
def functionOf : Call → String
  | .newRecord => "LASVLR_Create" | .newColor => "LASColor_Create" | .newReference => "LASSRS_Create"
  | .newSchema _ => "LASSchema_Create" | .newHeader _ _ => "LASHeader_Create"
  | .destroy .record _ => "LASVLR_Destroy" | .destroy .color _ => "LASColor_Destroy"
  | .destroy .reference _ => "LASSRS_Destroy" | .destroy .schema _ => "LASSchema_Destroy"
  | .setRecord _ (.userId _) => "LASVLR_SetUserId" | .setRecord _ (.description _) => "LASVLR_SetDescription"
  | .setRecord _ (.length _) => "LASVLR_SetRecordLength" | .setRecord _ (.id _) => "LASVLR_SetRecordId"
  | .setRecord _ (.reserved _) => "LASVLR_SetReserved" | .setRecord _ (.data _ _) => "LASVLR_SetData"
  | .setColor _ .red _ => "LASColor_SetRed" | .setColor _ .green _ => "LASColor_SetGreen"
  | .setColor _ .blue _ => "LASColor_SetBlue"
  | .setText _ .proj4 _ => "LASSRS_SetProj4" | .setText _ .wkt _ => "LASSRS_SetWKT"
  | .setText _ .userInput _ => "LASSRS_SetFromUserInput"
  | .addToReference _ _ => "LASSRS_AddVLR" | .recordOfReference _ _ => "LASSRS_GetVLR"
  | .addToHeader _ _ => "LASHeader_AddVLR" | .deleteFromHeader _ _ => "LASHeader_DeleteVLR"
  | .recordOfHeader _ _ => "LASHeader_GetVLR" | .setReference _ _ => "LASHeader_SetSRS"
  | .referenceOfHeader _ => "LASHeader_GetSRS" | .setSchema _ _ => "LASHeader_SetSchema"
  | .schemaOfHeader _ => "LASHeader_GetSchema" | .setCompressed _ _ => "LASHeader_SetCompressed"

/-- The call says that it did not do what was asked: it returns `LE_Failure`, or NULL instead of a handle, or it was to destroy
NULL. -/
def Refused (c : Call) (r : Ret) : Prop :=
  r = .code .failure ∨ r = .handle none ∨ r = .nothing ∧ ∃ k, c = .destroy k none

/-- The calls that may leave something changed although they fail. -/
def Leaky : Call → Prop
  | .setText _ .wkt _ | .setText _ .proj4 _ | .setSchema _ _ => True
  | _ => False

end LibLAS.Spec.Handles
