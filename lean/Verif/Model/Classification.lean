import Verif.Model.Basic
/-
include/liblas/classification.hpp, src/classification.cpp, include/liblas/color.hpp, src/color.cpp
-/
namespace LibLAS

/-- include/liblas/classification.hpp:60-225 `Classification`: a `std::bitset<8>`. -/
structure Classification where
  flags : BitVec 8
  deriving DecidableEq, Repr

namespace Classification

/-- src/classification.cpp:54-88, :95: number of entries of `g_class_names`. -/
def classTableSize : Nat := 32

/-- src/classification.cpp:54-88 `g_class_names`. -/
def classNames : List String :=
  ["Created, never classified", "Unclassified", "Ground", "Low Vegetation", "Medium Vegetation",
   "High Vegetation", "Building", "Low Point (noise)", "Model Key-point (mass point)", "Water",
   "Reserved for ASPRS Definition", "Reserved for ASPRS Definition", "Overlap Points"] ++
  List.replicate 19 "Reserved for ASPRS Definition"

/-- src/classification.cpp:133-141 `check_class_index`: true when it throws. -/
def badIndex (index : BitVec 32) : Bool := index.toNat > classTableSize - 1 || !(index.toNat ≤ 255)

/-- src/classification.cpp:105-117 `GetClass`. -/
def getClass (c : Classification) : BitVec 8 := c.flags &&& (BitVec.ofNat 8 (classTableSize - 1))

/-- src/classification.cpp:97-103 `GetClassName`; indexing the array outside its bounds would be undefined. -/
def getClassName (c : Classification) : Outcome String :=
  if badIndex (c.getClass.setWidth 32) then .throw .outOfRange
  else match classNames[c.getClass.toNat]? with
    | some s => .ok s
    | none => .ub

/-- src/classification.cpp:119-130 `SetClass`. Returns the object after the call and the outcome. -/
def setClass (c : Classification) (index : BitVec 32) : Classification × Outcome Unit :=
  if badIndex index then (c, .throw .outOfRange)
  else
    let binval := index.setWidth 8 <<< 0
    let mask := 0x1F#8
    (⟨(c.flags &&& ~~~mask) ||| (mask &&& binval)⟩, .ok ())

/-- `std::bitset::operator[](i) = flag` as used by include/liblas/classification.hpp:157-201. -/
def setBit (v : BitVec 8) (i : Nat) (flag : Bool) : BitVec 8 :=
  if flag then v ||| (1#8 <<< i) else v &&& ~~~(1#8 <<< i)

/-- include/liblas/classification.hpp:157-160 `SetSynthetic` (bit 5). -/
def setSynthetic (c : Classification) (f : Bool) : Classification := ⟨setBit c.flags 5 f⟩
/-- include/liblas/classification.hpp:164-167 `IsSynthetic`. -/
def isSynthetic (c : Classification) : Bool := c.flags.getLsbD 5
/-- include/liblas/classification.hpp:171-174 `SetKeyPoint` (bit 6). -/
def setKeyPoint (c : Classification) (f : Bool) : Classification := ⟨setBit c.flags 6 f⟩
/-- include/liblas/classification.hpp:178-181 `IsKeyPoint`. -/
def isKeyPoint (c : Classification) : Bool := c.flags.getLsbD 6
/-- include/liblas/classification.hpp:185-188 `SetWithheld` (bit 7). -/
def setWithheld (c : Classification) (f : Bool) : Classification := ⟨setBit c.flags 7 f⟩
/-- include/liblas/classification.hpp:192-195 `IsWithheld`. -/
def isWithheld (c : Classification) : Bool := c.flags.getLsbD 7

/-- include/liblas/classification.hpp:109-115, the four-argument constructor. A throw leaves no object. -/
def make (cls : BitVec 32) (s k w : Bool) : Outcome Classification :=
  match setClass ⟨0⟩ cls with
  | (c, .ok ()) => .ok (((c.setSynthetic s).setKeyPoint k).setWithheld w)
  | (_, .throw e) => .throw e
  | (_, .ub) => .ub

end Classification

/-- include/liblas/color.hpp: three 16-bit channels in an array, order red, green, blue. -/
structure Color where
  c0 : BitVec 16
  c1 : BitVec 16
  c2 : BitVec 16
  deriving DecidableEq, Repr

namespace Color
/-- src/color.cpp:51-54 default constructor. -/
def black : Color := ⟨0, 0, 0⟩

/-- src/color.cpp:56-66 constructor from three `uint32_t`. -/
def make (red green blue : BitVec 32) : Outcome Color :=
  if red.toNat > 65535 || green.toNat > 65535 || blue.toNat > 65535 then .throw .invalidArgument
  else .ok ⟨red.setWidth 16, green.setWidth 16, blue.setWidth 16⟩

/-- include/liblas/color.hpp:115-118. -/
def getRed (c : Color) : BitVec 16 := c.c0
/-- include/liblas/color.hpp:125-128. -/
def getGreen (c : Color) : BitVec 16 := c.c1
/-- include/liblas/color.hpp:135-138. -/
def getBlue (c : Color) : BitVec 16 := c.c2
/-- include/liblas/color.hpp:120-123. -/
def setRed (c : Color) (v : BitVec 16) : Color := { c with c0 := v }
/-- include/liblas/color.hpp:130-133. -/
def setGreen (c : Color) (v : BitVec 16) : Color := { c with c1 := v }
/-- include/liblas/color.hpp:140-143. -/
def setBlue (c : Color) (v : BitVec 16) : Color := { c with c2 := v }
end Color

end LibLAS
