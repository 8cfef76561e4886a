import Verif.Model.ProjectId
/- C101: texts of identifiers, independent of how they are read. -/
namespace LibLAS.ProjectId

/-- The hexadecimal digits with their values. -/
def digitTable : List (Byte × Nat) :=
  [(0x30#8, 0), (0x31#8, 1), (0x32#8, 2), (0x33#8, 3), (0x34#8, 4), (0x35#8, 5), (0x36#8, 6), (0x37#8, 7), (0x38#8, 8), (0x39#8, 9),
   (0x61#8, 10), (0x62#8, 11), (0x63#8, 12), (0x64#8, 13), (0x65#8, 14), (0x66#8, 15),
   (0x41#8, 10), (0x42#8, 11), (0x43#8, 12), (0x44#8, 13), (0x45#8, 14), (0x46#8, 15)]

/-- These digits stand for these bytes: two digits each, the higher first. -/
inductive Spells : List Byte → List Byte → Prop
  | nil : Spells [] []
  | cons {a c : Byte} {x y : Nat} {ds bs : List Byte} : (a, x) ∈ digitTable → (c, y) ∈ digitTable → Spells ds bs →
      Spells (a :: c :: ds) (BitVec.ofNat 8 (16 * x + y) :: bs)

/-- The 32 digits in the groups 8-4-4-4-12. -/
def grouped (ds : List Byte) : List Byte :=
  ds.take 8 ++ [0x2D#8] ++ (ds.drop 8).take 4 ++ [0x2D#8] ++ (ds.drop 12).take 4 ++ [0x2D#8] ++ (ds.drop 16).take 4 ++ [0x2D#8] ++ ds.drop 20

/-- A text for this identifier: 32 digits in either case, in groups or not, in braces or not. -/
def IsText (t id : List Byte) : Prop :=
  ∃ ds, Spells ds id ∧ id.length = 16 ∧
    (t = ds ∨ t = grouped ds ∨ t = [0x7B#8] ++ ds ++ [0x7D#8] ∨ t = [0x7B#8] ++ grouped ds ++ [0x7D#8])

/-- What is accepted: a text for the identifier; if nothing checks for the end, followed by anything. -/
def Accepted (strict : Bool) (t id : List Byte) : Prop := ∃ s rest, t = s ++ rest ∧ IsText s id ∧ (strict = true → rest = [])

/-- The identifier as a file shows it afterwards: the first three groups have their bytes in the opposite order. -/
def swapped : List Byte → List Byte
  | a :: b :: c :: d :: e :: f :: g :: h :: rest => d :: c :: b :: a :: f :: e :: h :: g :: rest
  | x => x

end LibLAS.ProjectId
