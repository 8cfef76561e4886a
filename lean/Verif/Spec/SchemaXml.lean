import Verif.Model.SchemaXml
/-
Property trees as a user of the XML writer and parser sees them.
-/
namespace LibLAS.Spec
open LibLAS.Xml

/-- A usable element name: not empty, made of name characters, not starting like a declaration or comment. -/
def Key (k : List Byte) : Prop := k ≠ [] ∧ (∀ b ∈ k, isName b = true ∧ b ≠ 0#8) ∧ k.head? ≠ some 33#8

/-- A text without zero bytes (a C string holds no others). -/
def NoZero (t : List Byte) : Prop := ∀ b ∈ t, b ≠ 0#8

mutual
/-- Every element name of the tree is usable and no text holds a zero byte. -/
def Storable : PTree → Prop
  | .node d ks => NoZero d ∧ StorableKids ks
/-- The same for a list of named subtrees. -/
def StorableKids : List (List Byte × PTree) → Prop
  | [] => True
  | (k, t) :: r => Key k ∧ Storable t ∧ StorableKids r
end

/-- A name as a C string holds it: bytes other than zero. -/
def ByteName (n : String) : Prop := ∀ c ∈ n.toList, 0 < c.toNat ∧ c.toNat < 256

/-- Texts as a C string holds them. -/
structure NoteText (n : Note) : Prop where
  description : NoZero n.description
  range : ∀ lo hi, n.range = some (lo, hi) → NoZero lo ∧ NoZero hi

/-- The names and texts of a schema are C strings. -/
def Texts (notes : Notes) (s : Schema) : Prop := ∀ d ∈ s.dims, ByteName d.name ∧ NoteText (notes d.name)

/-- The record names X but not both Y and Z. -/
def HalfSchema (dbl : List Byte → Bool) (vs : List VLR) : Prop :=
  ∃ v S, vs.find? VLR.isSchema = some v ∧ parseSchema dbl v.data = .ok S ∧ S.getDimension "X" ≠ none ∧
    (S.getDimension "Y" = none ∨ S.getDimension "Z" = none)

/-- The values a schema record can hold: sizes and positions of 32 bits, no empty dimension, ranges that can be read. -/
def Recordable (notes : Notes) (dbl : List Byte → Bool) (s : Schema) : Prop :=
  ∀ d ∈ s.dims, d.bitSize ≠ 0 ∧ d.bitSize < 2 ^ 32 ∧ d.position < 2 ^ 32 ∧
    ∀ lo hi, (notes d.name).range = some (lo, hi) → dbl lo = true ∧ dbl hi = true

end LibLAS.Spec
