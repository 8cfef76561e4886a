import Verif.Model.IndexBuild
import Verif.Model.Header
/-
Writing the cells of the index into variable records: src/detail/index/indexoutput.cpp,
include/liblas/detail/index/indexoutput.hpp:74-119. Simplifications: little-endian host; allocation does not fail; the
work vector `m_indexVLRTempData` is represented by the bytes written to it since its position was last set to 0 (every
write to it is of at most 4 bytes, so that the 65535 bytes by which `WriteVLRData_n` makes it longer always suffice).
-/
namespace LibLAS.Index
open LibLAS

/-- `std::numeric_limits<unsigned short>::max()`. -/
def maxVLR : Nat := 65535

/-- `std::vector<uint8_t>::resize`. -/
def resize (b : List Byte) (n : Nat) : List Byte := b.take n ++ List.replicate (n - b.length) 0#8

/-- include/liblas/detail/index/indexoutput.hpp:88-99 `WriteVLRDataNoInc_n`, :111-119 `WriteVLRDataNoInc_str`: the vector is
made longer once if it is too short; writing past its end is undefined. -/
def poke (b : List Byte) (pos : Nat) (bs : List Byte) : Outcome (List Byte) :=
  let b := if pos + bs.length > b.length then resize b (b.length + maxVLR) else b
  writeAt b pos bs

/-- The members of `IndexOutput` (include/liblas/detail/index/indexoutput.hpp:56-64) that change, and the variable
records added so far. `m_SomeDataReadyToWrite` is not set by the constructor; it is only read after the first cell. -/
structure Out where
  data : List Byte
  size : Nat
  points : Nat
  first : Bool
  ready : Bool
  vlrs : List VLR
  deriving DecidableEq, Repr

/-- The state after `InitiateOutput`, src/detail/index/indexoutput.cpp:134-138. -/
def Out.start : Out := ⟨[], 0, 0, true, false, []⟩

/-- src/detail/index/indexoutput.cpp:135-137: `m_indexVLRCellRecord`. -/
def cellRecord : VLR :=
  { VLR.new with
    userId := padTo 16 (lit "liblas")
    recordId := 43#16
    description := padTo 32 (lit "LibLAS Index Data") }

/-- `SetRecordLength(static_cast<uint16_t>(n))`, `SetData(d)`, `AddVLR`. -/
def Out.emit (o : Out) (d : List Byte) (n : Nat) : Out :=
  { o with
    vlrs := o.vlrs ++ [{ cellRecord with
      recordSize := BitVec.ofNat 16 n
      data := d }] }

/-- src/detail/index/indexoutput.cpp:347-376 `InitializeVLRData`. -/
def Out.init (o : Out) (x y : Nat) : Outcome Out := do
  let d := resize o.data maxVLR
  let d ← poke d 0 (put32 x)
  let d ← poke d 4 (put32 y)
  let d ← poke d 8 (put32 x)
  let d ← poke d 12 (put32 y)
  let d ← poke d 16 (put32 24)
  let d ← poke d 20 (put32 0)
  pure { o with
    data := d
    size := 24
    points := 0
    first := false
    ready := false }

/-- An `int16_t` (`ElevExtrema`). -/
def put16 (z : Int) : List Byte := put 2 (BitVec.ofInt 16 z)

/-- src/detail/index/indexoutput.cpp:202-220, :225-243: the sub-cells. -/
def putSubs (m : List (Nat × Runs)) : List Byte := m.flatMap fun e => put32 e.1 ++ put32 e.2.length ++ putRuns e.2

/-- src/detail/index/indexoutput.cpp:178-255: the bytes of a cell. -/
def cellBytes (x y : Nat) (c : Cell) : List Byte :=
  put32 x ++ put32 y ++ put32 c.numPoints ++ put16 c.minZ ++ put16 c.maxZ ++ put32 c.pts.length ++
    put32 c.subCells.length ++ put32 c.zCells.length ++
    (if c.zCells.length ≠ 0 then putSubs c.zCells else []) ++
    (if c.subCells.length ≠ 0 then putSubs c.subCells else []) ++
    (if c.zCells.length = 0 ∧ c.subCells.length = 0 then putRuns c.pts else [])

/-- src/detail/index/indexoutput.cpp:272-288: the cell is added to the current record. -/
def Out.append (o : Out) (x y : Nat) (bs : List Byte) : Outcome Out := do
  let d ← poke o.data 8 (put32 x)
  let d ← poke d 12 (put32 y)
  let d ← poke d 16 (put32 (o.size + bs.length))
  let d ← poke d 20 (put32 o.points)
  let d ← poke d o.size bs
  pure { o with
    data := d
    size := o.size + bs.length
    ready := true }

/-- src/detail/index/indexoutput.cpp:320-329: the loop writing the rest of a long cell. The vector holding the data is
always whole, whatever the length given to the record. The first argument bounds the number of iterations, each of
which writes a byte at least. -/
def Out.rest : Nat → Out → List Byte → Outcome Out
  | _, o, [] => .ok o
  | 0, _, _ => .ub
  | fuel + 1, o, b :: bs => do
    let n := min (b :: bs).length maxVLR
    let d ← poke o.data 0 ((b :: bs).take n)
    rest fuel ({ o with data := d }.emit d n) ((b :: bs).drop n)

/-- src/detail/index/indexoutput.cpp:290-334: a cell too long for one record. -/
def Out.long (o : Out) (bs : List Byte) : Outcome Out := do
  let d := if o.data.length ≠ maxVLR then resize o.data maxVLR else o.data
  let d ← poke d 16 (put32 (o.size + bs.length))
  let d ← poke d 20 (put32 o.points)
  let n := maxVLR - o.size
  let d ← poke d o.size (bs.take n)
  let o ← Out.rest bs.length ({ o with data := d, size := o.size + bs.length }.emit d maxVLR) (bs.drop n)
  pure { o with
    ready := false
    first := true }

/-- src/detail/index/indexoutput.cpp:259-270: the current record is finished if the cell does not fit. -/
def Out.flush (o : Out) (x y : Nat) (points : Nat) (bs : List Byte) : Outcome Out :=
  if o.ready && decide (bs.length + o.size > maxVLR) then do
    let o ← ({ o with data := resize o.data o.size }.emit (resize o.data o.size) o.size).init x y
    pure { o with points := points }
  else .ok o

/-- src/detail/index/indexoutput.cpp:156-163: a record is begun if there is none. -/
def Out.begin (o : Out) (x y : Nat) : Outcome Out := if o.first then o.init x y else .ok o

/-- src/detail/index/indexoutput.cpp:153-345 `OutputCell`. -/
def Out.cell (o : Out) (x y : Nat) (c : Cell) : Outcome Out := do
  let o ← o.begin x y
  if c.numPoints ≠ 0 then do
    let o := { o with points := (o.points + c.numPoints) % 2 ^ 32 }
    let bs := cellBytes x y c
    let o ← o.flush x y c.numPoints bs
    if bs.length + o.size ≤ maxVLR then o.append x y bs else o.long bs
  else pure o

/-- The loop over the cells, src/index.cpp:1179-1272. -/
def Out.cells : Out → List ((Nat × Nat) × Cell) → Outcome Out
  | o, [] => .ok o
  | o, e :: es => do
    let o ← o.cell e.1.1 e.1.2 e.2
    cells o es

/-- src/detail/index/indexoutput.cpp:378-412 `FinalizeOutput`, with `LIBLAS_INDEX_PADLASTVLR` defined
(include/liblas/index.hpp:73). -/
def Out.finish (o : Out) : Out :=
  if o.ready then
    let pad := o.size % 4
    let n := if pad ≠ 0 ∧ o.size + pad ≤ maxVLR then o.size + pad else o.size
    let d := if pad ≠ 0 ∧ o.size + pad ≤ maxVLR then o.data.take o.size ++ List.replicate pad 0#8 ++ o.data.drop n else o.data
    { o with data := resize d n }.emit (resize d n) n
  else o

/-- The data records of an index with the given cells. -/
def outputIndex (cs : List ((Nat × Nat) × Cell)) : Outcome (List VLR) := do
  let o ← Out.start.cells cs
  pure o.finish.vlrs

end LibLAS.Index
