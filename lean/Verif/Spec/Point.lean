import Verif.Spec.Bytes
import Verif.Model.Point
/-
What a user sees of a point: its attributes as a plain record, and each setter as a record update. The types of the
arguments are shared with the model; nothing here mentions bytes, masks or offsets except `decodeRecord`, which is
the point record layout of the LAS 1.2 standard.
-/
namespace LibLAS.Spec

/-- The attributes of a point. -/
structure Attrs where
  rawX : BitVec 32
  rawY : BitVec 32
  rawZ : BitVec 32
  intensity : BitVec 16
  returnNumber : Nat
  numberOfReturns : Nat
  scanDirection : Nat
  edge : Nat
  classification : Classification
  scanAngle : BitVec 8
  userData : BitVec 8
  sourceId : BitVec 16
  time : BitVec 64
  color : Color
  deriving DecidableEq, Repr

/-- The setters. -/
inductive SetOp where
  | rawX (v : BitVec 32)
  | rawY (v : BitVec 32)
  | rawZ (v : BitVec 32)
  | intensity (v : BitVec 16)
  | returnNumber (v : BitVec 16)
  | numberOfReturns (v : BitVec 16)
  | scanDirection (v : BitVec 16)
  | edge (v : BitVec 16)
  | classification (c : Classification)
  | scanAngle (v : BitVec 8)
  | userData (v : BitVec 8)
  | sourceId (v : BitVec 16)
  | time (v : BitVec 64)
  | color (c : Color)
  deriving DecidableEq, Repr

/-- Formats 1 and 3 store GPS time. -/
def hasTime : PointFormat → Bool
  | .f1 | .f3 => true
  | _ => false

/-- Formats 2 and 3 store colour. -/
def hasColor : PointFormat → Bool
  | .f2 | .f3 => true
  | _ => false

/-- Record length of the standard attributes. -/
def formatSize : PointFormat → Nat
  | .f0 => 20
  | .f1 => 28
  | .f2 => 26
  | .f3 => 34
  | .f4 => 57
  | .f5 => 63

/-- A setter the format supports. -/
def supported (f : PointFormat) : SetOp → Bool
  | .time _ => hasTime f
  | .color _ => hasColor f
  | _ => true

/-- Each setter changes its own attribute only; the four packed attributes keep the value modulo their width
(3, 3, 1 and 1 bits). -/
def apply (a : Attrs) : SetOp → Attrs
  | .rawX v => { a with rawX := v }
  | .rawY v => { a with rawY := v }
  | .rawZ v => { a with rawZ := v }
  | .intensity v => { a with intensity := v }
  | .returnNumber v => { a with returnNumber := v.toNat % 8 }
  | .numberOfReturns v => { a with numberOfReturns := v.toNat % 8 }
  | .scanDirection v => { a with scanDirection := v.toNat % 2 }
  | .edge v => { a with edge := v.toNat % 2 }
  | .classification c => { a with classification := c }
  | .scanAngle v => { a with scanAngle := v }
  | .userData v => { a with userData := v }
  | .sourceId v => { a with sourceId := v }
  | .time v => { a with time := v }
  | .color c => { a with color := c }

/-- Apply a setter if the format supports it, otherwise nothing changes. -/
def applyIf (f : PointFormat) (a : Attrs) (op : SetOp) : Attrs :=
  if supported f op then apply a op else a

/-- Bytes `pos .. pos+n` of a record as a little-endian number. -/
def fieldAt (d : List Byte) (pos n : Nat) : BitVec (8 * n) :=
  BitVec.ofNat (8 * n) (leNat ((d.drop pos).take n))

/-- The LAS 1.2 point record layout (formats 0 to 3): offsets and packing of the standard. -/
def decodeRecord (f : PointFormat) (d : List Byte) : Attrs where
  rawX := fieldAt d 0 4
  rawY := fieldAt d 4 4
  rawZ := fieldAt d 8 4
  intensity := fieldAt d 12 2
  returnNumber := (fieldAt d 14 1).toNat % 8
  numberOfReturns := (fieldAt d 14 1).toNat / 8 % 8
  scanDirection := (fieldAt d 14 1).toNat / 64 % 2
  edge := (fieldAt d 14 1).toNat / 128
  classification := ⟨fieldAt d 15 1⟩
  scanAngle := fieldAt d 16 1
  userData := fieldAt d 17 1
  sourceId := fieldAt d 18 2
  time := if hasTime f then fieldAt d 20 8 else 0
  color :=
    match f with
    | .f2 => ⟨fieldAt d 20 2, fieldAt d 22 2, fieldAt d 24 2⟩
    | .f3 => ⟨fieldAt d 28 2, fieldAt d 30 2, fieldAt d 32 2⟩
    | _ => ⟨0, 0, 0⟩

/-- The names of the classes in the LAS specification, version 1.2. -/
def className : Nat → String
  | 0 => "Created, never classified"
  | 1 => "Unclassified"
  | 2 => "Ground"
  | 3 => "Low Vegetation"
  | 4 => "Medium Vegetation"
  | 5 => "High Vegetation"
  | 6 => "Building"
  | 7 => "Low Point (noise)"
  | 8 => "Model Key-point (mass point)"
  | 9 => "Water"
  | 12 => "Overlap Points"
  | _ => "Reserved for ASPRS Definition"

end LibLAS.Spec
