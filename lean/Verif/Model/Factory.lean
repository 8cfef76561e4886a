import Verif.Model.Basic
/-
src/factory.cpp, file names (the factories themselves are in Model/Reader.lean and Model/Writer.lean).
-/
namespace LibLAS.Factory

/-- include/liblas/factory.hpp:82-87 `WriterFactory::FileType`. -/
inductive FileType where
  | unknown | las | laz
  deriving DecidableEq, Repr

/-- `tolower` in the C locale. -/
def lower (c : Char) : Char := if 'A' ≤ c ∧ c ≤ 'Z' then Char.ofNat (c.toNat + 32) else c

/-- src/factory.cpp:134-142 `streq_insensitive`. -/
def streqInsensitive : List Char → List Char → Bool
  | [], [] => true
  | p :: ps, q :: qs => if lower p ≠ lower q then false else streqInsensitive ps qs
  | _, _ => false

/-- `filename.rfind('.')` followed by `substr(pos)`: the text from the last dot on, if there is one. -/
def fromLastDot : List Char → Option (List Char)
  | [] => none
  | c :: cs => match fromLastDot cs with
    | some e => some e
    | none => if c = '.' then some (c :: cs) else none

/-- src/factory.cpp:145-162 `InferFileTypeFromExtension`. -/
def inferFileType (filename : List Char) : FileType :=
  match fromLastDot filename with
  | none => .unknown
  | some ext =>
    if streqInsensitive ext ['.', 'l', 'a', 'z'] then .laz
    else if streqInsensitive ext ['.', 'l', 'a', 's'] then .las
    else .unknown

end LibLAS.Factory
