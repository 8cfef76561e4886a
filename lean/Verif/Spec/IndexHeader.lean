import Verif.Model.IndexHeader
/-
What the header record of an index keeps.
-/
namespace LibLAS.Spec
open Index

/-- A text as it is kept: up to its first zero, and at most 511 bytes of that. -/
def cutText (t : List Byte) : List Byte := (cstr t).take 511

/-- Numbers that fit into the header. -/
structure InfoFits (h : Info) : Prop where
  major : h.major < 2 ^ 8
  minor : h.minor < 2 ^ 8
  dataId : h.dataId < 2 ^ 32
  points : h.points < 2 ^ 32
  cellsX : h.cellsX < 2 ^ 32
  cellsY : h.cellsY < 2 ^ 32
  cellsZ : h.cellsZ < 2 ^ 32

/-- What is kept of the header: everything but the ends of long texts. -/
def keptInfo (h : Info) : Info := { h with author := cutText h.author, comment := cutText h.comment, date := cutText h.date }

end LibLAS.Spec
