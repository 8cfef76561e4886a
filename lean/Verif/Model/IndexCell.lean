import Verif.Model.Point
/-
The in-memory cells of the spatial index: include/liblas/detail/index/indexcell.hpp, src/detail/index/indexcell.cpp.
-/
namespace LibLAS.Index

/-- include/liblas/detail/index/indexcell.hpp:54 `IndexCellData`, a `std::map<uint32_t, uint8_t>` from the id of the
first point of a run to the length of the run; kept as the list of its entries in key order. -/
abbrev Runs := List (Nat × Nat)

/-- `m[a] = b` on a `std::map` kept as a list in key order. -/
def setKey {α : Type} (m : List (Nat × α)) (a : Nat) (b : α) : List (Nat × α) :=
  match m with
  | [] => [(a, b)]
  | (k, v) :: t =>
    if a < k then (a, b) :: (k, v) :: t
    else if a = k then (a, b) :: t
    else (k, v) :: setKey t a b

/-- `m.find(a)`. -/
def findKey {α : Type} (m : List (Nat × α)) (a : Nat) : Option α :=
  match m with
  | [] => none
  | (k, v) :: t => if a = k then some v else findKey t a

/-- include/liblas/detail/index/indexcell.hpp:58-107 `IndexCell`. `uint32_t` counters are kept modulo 2^32. -/
structure Cell where
  fileOffset : Nat
  numPoints : Nat
  minZ : Int
  maxZ : Int
  pts : Runs
  zCells : List (Nat × Runs)
  subCells : List (Nat × Runs)
  deriving DecidableEq, Repr

namespace Cell

/-- src/detail/index/indexcell.cpp:51-57: the constructor. -/
def new : Cell := ⟨0, 0, 32767, -32768, [], [], []⟩

/-- src/detail/index/indexcell.cpp:100-104. -/
def addPointRecord (c : Cell) (a : Nat) : Cell :=
  { c with
    pts := setKey c.pts a 1
    numPoints := (c.numPoints + 1) % 2 ^ 32 }

/-- src/detail/index/indexcell.cpp:106-110. -/
def addPointRecords (c : Cell) (a b : Nat) : Cell :=
  { c with
    pts := setKey c.pts a b
    numPoints := (c.numPoints + b) % 2 ^ 32 }

/-- The run of `m` starting at `a` made longer by one, if there is one and it is shorter than 255 points
(`std::numeric_limits<uint8_t>::max()`). -/
def incremented (m : Runs) (a : Nat) : Option Runs :=
  match findKey m a with
  | some n => if n < 255 then some (setKey m a (n + 1)) else none
  | none => none

/-- src/detail/index/indexcell.cpp:112-126 `IncrementPointRecord`; `none` for a returned `false`. -/
def incrementPointRecord (c : Cell) (a : Nat) : Option Cell :=
  (incremented c.pts a).map fun m =>
    { c with
      pts := m
      numPoints := (c.numPoints + 1) % 2 ^ 32 }

/-- src/detail/index/indexcell.cpp:128-131. -/
def removeMainRecords (c : Cell) : Cell := { c with pts := [] }

/-- src/detail/index/indexcell.cpp:133-147. -/
def removeAllRecords (c : Cell) : Cell :=
  { c with
    pts := []
    zCells := []
    subCells := [] }

/-- `static_cast<int16_t>` of a floor or ceiling already known to fit. -/
def toInt : Fl → Int
  | .fin q => ⌊q⌋
  | _ => 0

/-- src/detail/index/indexcell.cpp:149-162 `UpdateZBounds`. The casts to `int16_t` are of values between -32768 and
32767. -/
def updateZBounds (c : Cell) (z : Fl) : Cell :=
  if Fl.lt (.fin 32767) z then { c with maxZ := 32767 }
  else if Fl.lt z (.fin (-32768)) then { c with minZ := -32768 }
  else
    let c := if Fl.lt (.fin c.maxZ) z then { c with maxZ := toInt z.ceil } else c
    if Fl.lt z (.fin c.minZ) then { c with minZ := toInt z.floor } else c

/-- src/detail/index/indexcell.cpp:164-167 `GetZRange`. -/
def zRange (c : Cell) : Nat := if c.minZ < c.maxZ then (c.maxZ - c.minZ).toNat else 0

/-- src/detail/index/indexcell.cpp:169-183 `AddZCell`, :204-219 `AddSubCell` on their maps: a new run of one point in the
sub-cell `a`. -/
def addSub (m : List (Nat × Runs)) (a b : Nat) : List (Nat × Runs) :=
  match findKey m a with
  | some r => setKey m a (setKey r b 1)
  | none => setKey m a [(b, 1)]

/-- src/detail/index/indexcell.cpp:185-202 `IncrementZCell`, :221-238 `IncrementSubCell` on their maps. -/
def incrementSub (m : List (Nat × Runs)) (a b : Nat) : Option (List (Nat × Runs)) :=
  match findKey m a with
  | some r => (incremented r b).map fun r' => setKey m a r'
  | none => none

end Cell
end LibLAS.Index
