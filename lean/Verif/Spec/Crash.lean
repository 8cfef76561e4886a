import Verif.Model.Stream
/-
A process that stops while writing to a file: the writes issued so far reach the file in order, the last one perhaps
only in part.
-/
namespace LibLAS.Spec

/-- A file after a sequence of writes. -/
def replay (file : List Byte) (writes : List (Nat × List Byte)) : List Byte :=
  writes.foldl (fun f w => overlay f w.1 w.2) file

/-- The file if the process stops after `k` of the writes and `m` bytes of the next one. -/
def crashed (file : List Byte) (writes : List (Nat × List Byte)) (k m : Nat) : List Byte :=
  replay file (writes.take k ++ (writes[k]?.map fun w => (w.1, w.2.take m)).toList)

end LibLAS.Spec
