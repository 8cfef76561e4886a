import Verif.Model.Point
import Mathlib.Data.List.Sort
/-
src/schema.cpp, include/liblas/schema.hpp, src/dimension.cpp, include/liblas/dimension.hpp.
-/
namespace LibLAS

/-- include/liblas/dimension.hpp:70-215 `Dimension`. Not modelled: description, minimum, maximum, scale, offset,
finite-precision and the numeric/signed/integer markers, which no modelled code reads. -/
structure Dim where
  name : String
  bitSize : Nat
  required : Bool := false
  active : Bool := false
  position : Nat := 0
  byteOffset : Nat := 0
  bitOffset : Nat := 0
  deriving DecidableEq, Repr

namespace Dim

/-- src/dimension.cpp:65-84 constructor. `size_t` argument. -/
def make (name : String) (bits : Nat) : Outcome Dim :=
  if bits = 0 then .throw .runtimeError else .ok { name := name, bitSize := bits }

/-- src/dimension.cpp:127-145 `GetByteSize`. -/
def byteSize (d : Dim) : Nat :=
  if d.bitSize % 8 > 0 then (if d.bitSize > 8 then d.bitSize / 8 + 1 else 1) else d.bitSize / 8

end Dim

/-- include/liblas/schema.hpp:83-94 `IndexMap`: a `boost::multi_index` container unique by position (ordered) and by
name (hashed), with a random-access index in insertion order. The list is that third index. -/
abbrev IndexMap := List Dim

namespace IndexMap

/-- An element other than `d` itself clashes with `d` in one of the two unique indices. -/
def clash (m : IndexMap) (d : Dim) : Bool := m.any fun e => e.position == d.position || e.name == d.name

/-- `insert`: refused (no effect) on a clash. -/
def insertDim (m : IndexMap) (d : Dim) : IndexMap := if clash m d then m else m ++ [d]

/-- `replace(it, d)` where `it` is the element named `n`: refused when another element clashes with `d`. -/
def replaceNamed (m : IndexMap) (n : String) (d : Dim) : IndexMap :=
  if clash (m.filter fun e => e.name != n) d then m else m.map fun e => if e.name == n then d else e

/-- `erase(key)` on the first index, whose key is compared by position only. -/
def erasePosition (m : IndexMap) (pos : Nat) : IndexMap := m.filter fun e => e.position != pos

/-- Enumeration through `get<position>()`. -/
def byPosition (m : IndexMap) : List Dim := List.insertionSort (fun a b : Dim => a.position ≤ b.position) m

/-- `get<name>().find(n)`. -/
def named (m : IndexMap) (n : String) : Option Dim := List.find? (fun e : Dim => e.name == n) m

end IndexMap

/-- include/liblas/schema.hpp:102-165. `m_schemaversion` is not modelled. -/
structure Schema where
  fmt : PointFormat
  nextPos : Nat
  bitSize : Nat
  baseBitSize : Nat
  dims : IndexMap
  deriving DecidableEq, Repr

namespace Schema

/-- State of the loop of `CalculateSizes`. -/
structure Sizes where
  total : Nat
  base : Nat
  byteOff : Nat
  bitOff : Nat
  deriving DecidableEq, Repr

/-- One iteration of the loop, src/schema.cpp:620-638: the updated dimension and the loop state. `size_t` sums are
modulo 2^64. -/
def sizeStep (st : Sizes) (d : Dim) : Dim × Sizes :=
  let total := (st.total + d.bitSize) % 2 ^ 64
  let bitOff := st.bitOff + d.bitSize % 8
  let d' := { d with byteOffset := st.byteOff, bitOffset := bitOff }
  let base := if d.required then (st.base + d.bitSize) % 2 ^ 64 else st.base
  if bitOff % 8 = 0 then (d', ⟨total, base, (st.byteOff + d.byteSize) % 2 ^ 64, 0⟩)
  else (d', ⟨total, base, st.byteOff, bitOff⟩)

/-- The loop over the dimensions in position order. -/
def sizeLoop : Sizes → List Dim → List Dim × Sizes
  | st, [] => ([], st)
  | st, d :: ds =>
    let (d', st') := sizeStep st d
    let (ds', st'') := sizeLoop st' ds
    (d' :: ds', st'')

/-- src/schema.cpp:605-640 `CalculateSizes`. The updated dimension keeps its place in the random-access order
(`replace`). -/
def calculateSizes (s : Schema) : Schema :=
  let (ds, st) := sizeLoop ⟨0, 0, 0, 0⟩ (s.dims.byPosition)
  { s with
    bitSize := st.total
    baseBitSize := st.base
    dims := s.dims.map fun e => (ds.find? fun d => d.name == e.name).getD e }

/-- src/schema.cpp:674-692 `AddDimension`. A dimension of the same name is replaced by the argument with the
argument's own position; otherwise it is appended at the next position. -/
def addDimension (s : Schema) (dim : Dim) : Schema :=
  let d := { dim with position := s.nextPos }
  let s := { s with nextPos := (s.nextPos + 1) % 2 ^ 32 }
  match s.dims.named dim.name with
  | some _ => calculateSizes { s with dims := s.dims.replaceNamed dim.name dim }
  | none => calculateSizes { s with dims := s.dims.insertDim d }

/-- src/schema.cpp:662-666 `RemoveDimension`. -/
def removeDimension (s : Schema) (dim : Dim) : Schema :=
  calculateSizes { s with dims := s.dims.erasePosition dim.position }

/-- src/schema.cpp:719-733 `SetDimension`. It does not recompute the sizes. -/
def setDimension (s : Schema) (dim : Dim) : Schema × Outcome Unit :=
  match s.dims.named dim.name with
  | some _ => ({ s with dims := s.dims.replaceNamed dim.name dim }, .ok ())
  | none => (s, .throw .runtimeError)

/-- The names and bit sizes of src/schema.cpp:76-235 `add_record0_dimensions`. -/
def record0 : List (String × Nat) :=
  [("X", 32), ("Y", 32), ("Z", 32), ("Intensity", 16), ("Return Number", 3), ("Number of Returns", 3),
   ("Scan Direction", 1), ("Flightline Edge", 1), ("Classification", 8), ("Scan Angle Rank", 8), ("User Data", 8),
   ("Point Source ID", 16)]

/-- src/schema.cpp:76-235: add them, then mark everything required and active. -/
def addRecord0 (s : Schema) : Schema :=
  let s := record0.foldl (fun s d => s.addDimension { name := d.1, bitSize := d.2 }) s
  { s with dims := s.dims.map fun d => { d with required := true, active := true } }

/-- src/schema.cpp:276-294 `add_time`. -/
def addTime (s : Schema) : Schema := s.addDimension { name := "Time", bitSize := 64, required := true, active := true }

/-- src/schema.cpp:237-274 `add_color`. -/
def addColor (s : Schema) : Schema :=
  let s := s.addDimension { name := "Red", bitSize := 16, required := true, active := true }
  let s := s.addDimension { name := "Green", bitSize := 16, required := true, active := true }
  s.addDimension { name := "Blue", bitSize := 16, required := true, active := true }

/-- src/schema.cpp:296-356 `update_required_dimensions`: object after the call and outcome. The user dimensions are
collected in position order, so the `std::sort` that follows leaves them as they are. -/
def updateRequired (s : Schema) (f : PointFormat) : Schema × Outcome Unit :=
  let user := s.dims.byPosition.filter fun d => !d.required
  let s := addRecord0 { s with dims := [], nextPos := 0 }
  let finish (s : Schema) : Schema × Outcome Unit :=
    (calculateSizes (user.foldl addDimension s), .ok ())
  match f with
  | .f3 => finish (s.addTime.addColor)
  | .f2 => finish (s.addColor)
  | .f1 => finish (s.addTime)
  | .f0 => finish s
  | _ => (s, .throw .runtimeError)

/-- src/schema.cpp:655-660 `SetDataFormatId`. -/
def setDataFormatId (s : Schema) (f : PointFormat) : Schema × Outcome Unit :=
  match s.updateRequired f with
  | (s, .ok ()) => (calculateSizes { s with fmt := f }, .ok ())
  | (s, o) => (s, o)

/-- src/schema.cpp:66-74 constructor from a format. -/
def make (f : PointFormat) : Outcome Schema :=
  match updateRequired ⟨f, 0, 0, 0, []⟩ f with
  | (s, .ok ()) => .ok s
  | (_, .throw e) => .throw e
  | (_, .ub) => .ub

/-- src/schema.cpp:668-672 `GetByteSize`. -/
def byteSize (s : Schema) : Nat := s.bitSize / 8

/-- src/schema.cpp:645-648 `GetBaseByteSize`. -/
def baseByteSize (s : Schema) : Nat := s.baseBitSize / 8

/-- src/header.cpp:398-402 `Header::GetDataRecordLength`: truncated to 16 bits. -/
def dataRecordLength (s : Schema) : Nat := s.byteSize % 2 ^ 16

/-- src/schema.cpp:695-707 `GetDimension(std::string)`. -/
def getDimension (s : Schema) (n : String) : Option Dim := s.dims.named n

/-- src/schema.cpp:709-718 `GetDimension(size_type)`: `t <= size()`, then `at(t)`, which throws at `t = size()`. -/
def getDimensionAt (s : Schema) (t : Nat) : Outcome (Option Dim) :=
  if t ≤ s.dims.length then
    match s.dims[t]? with
    | some d => .ok (some d)
    | none => .throw .outOfRange
  else .ok none

/-- src/schema.cpp:736-749 `GetDimensionNames`. -/
def getDimensionNames (s : Schema) : List String := s.dims.byPosition.map Dim.name

/-- src/schema.cpp:586-602 `IsCustom`. -/
def isCustom (s : Schema) : Bool := s.dims.byPosition.any fun d => !d.required

/-- src/schema.cpp:784-799 `operator==`: compares the prefix of `other` of the length of `this`; indexing past the
end of `other` is undefined (`operator[]` of a random-access index, unchecked). -/
def eq (s o : Schema) : Outcome Bool :=
  let rec go : List Dim → List Dim → Outcome Bool
    | [], _ => .ok true
    | _ :: _, [] => .ub
    | a :: as, b :: bs => if b = a then go as bs else .ok false
  go s.dims o.dims

end Schema
end LibLAS
