import Verif.Model.Header
/-
Text fields and record lists as a user sees them.
-/
namespace LibLAS.Spec

/-- A text up to its first NUL. -/
def untilNul : List Byte → List Byte
  | [] => []
  | b :: bs => if b = 0 then [] else b :: untilNul bs

/-- Edits of the list of variable records. -/
inductive VlrOp where
  | add (v : VLR)
  | deleteAt (i : BitVec 32)
  | deleteBy (name : List Byte) (id : BitVec 16)

/-- The text of the user id of a record. -/
def userIdOf (v : VLR) : List Byte := untilNul v.userId

/-- Effect on the list of records. -/
def vlrStep (l : List VLR) : VlrOp → List VLR
  | .add v => l ++ [v]
  | .deleteAt i => l.take i.toNat ++ l.drop (i.toNat + 1)
  | .deleteBy name id => l.filter fun v => !(decide (userIdOf v = name) && decide (v.recordId = id))

end LibLAS.Spec
