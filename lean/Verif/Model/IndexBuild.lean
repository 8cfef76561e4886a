import Verif.Model.IndexCell
import Verif.Model.Stream
/-
Building the spatial index: src/index.cpp:1030-1559. The points come from a reader without filters, so that they are
the list of the file's points and `Seek(k)` followed by `ReadNextPoint` calls gives the points from the `k`-th on
(proved of the reader model under C23, C24). Simplifications: the grid (numbers of cells, bounds) is a parameter, so that the theorems hold for
every choice; the library's own choice (src/index.cpp:1053-1088) is modelled in Model/IndexLife; the memory limit
`m_maxMemoryUsage / sizeof(IndexCell)` (:1121) is a parameter; writes to the temporary file succeed; debug output,
allocation failure are left out here; the rewriting of the LAS file is in Model/IndexLife.
-/
namespace LibLAS.Index
open LibLAS

/-- The coordinates of a point: `GetX()`, `GetY()`, `GetZ()`. -/
structure Pt where
  x : Fl
  y : Fl
  z : Fl
  deriving DecidableEq, Repr

/-- The members of `Index` used while building (include/liblas/index.hpp:105-160). `temp` says that a name for the
temporary file was given, `limit` is `MaxPointsInMemory`. -/
structure Grid where
  min : Pt
  max : Pt
  cellsX : Nat
  cellsY : Nat
  cellsZ : Nat
  cellSizeZ : Fl
  limit : Nat
  temp : Bool
  deriving DecidableEq, Repr

namespace Grid

/-- A `uint32_t` as a double. -/
def num (n : Nat) : Fl := .fin n

/-- src/index.cpp:1049-1051, include/liblas/index.hpp: `CalcRangeX` etc. (`m_rangeX = max - min`). -/
def rangeX (g : Grid) : Fl := Fl.sub g.max.x g.min.x
def rangeY (g : Grid) : Fl := Fl.sub g.max.y g.min.y
def rangeZ (g : Grid) : Fl := Fl.sub g.max.z g.min.z

/-- src/index.cpp:1087-1088. -/
def cellSizeX (g : Grid) : Fl := Fl.div g.rangeX (num g.cellsX)
def cellSizeY (g : Grid) : Fl := Fl.div g.rangeY (num g.cellsY)

end Grid

/-- `static_cast<uint32_t>(double)`: truncation; undefined when the value does not fit. -/
def toUInt32 : Fl → Outcome Nat
  | .fin a =>
    let t : Int := if 0 ≤ a then ⌊a⌋ else ⌈a⌉
    if 0 ≤ t ∧ t ≤ 4294967295 then .ok t.toNat else .ub
  | _ => .ub

/-- src/index.cpp:1316-1324, one coordinate of `IdentifyCell` (also :1344-1352 `IdentifyCellZ`): `none` for the error
return. -/
def identify1 (lo range : Fl) (cells : Nat) (c : Fl) : Outcome (Option Nat) :=
  let off := Fl.div (Fl.sub c lo) range
  if Fl.le (.fin 0) off && Fl.lt off (.fin 1) then
    (toUInt32 (Fl.mul off (Grid.num cells))).bind fun n => .ok (some n)
  else if Point.compareDistance off (.fin 1) then .ok (some (cells - 1))
  else .ok none

/-- src/index.cpp:1312-1338 `IdentifyCell`. -/
def identifyCell (g : Grid) (p : Pt) : Outcome (Option (Nat × Nat)) := do
  match ← identify1 g.min.x g.rangeX g.cellsX p.x with
  | none => pure none
  | some cx =>
    match ← identify1 g.min.y g.rangeY g.cellsY p.y with
    | none => pure none
    | some cy => pure (some (cx, cy))

/-- src/index.cpp:1340-1356 `IdentifyCellZ`. -/
def identifyCellZ (g : Grid) (p : Pt) : Outcome (Option Nat) := identify1 g.min.z g.rangeZ g.cellsZ p.z

/-- src/index.cpp:1358-1388 `IdentifySubCell`: 0 SW, 1 SE, 2 NW, 3 NE. -/
def identifySubCell (g : Grid) (p : Pt) (x y : Nat) : Nat :=
  let cellMinX := Fl.add (Fl.mul (Grid.num x) g.cellSizeX) g.min.x
  let cellMinY := Fl.add (Fl.mul (Grid.num y) g.cellSizeY) g.min.y
  if Fl.lt (.fin (1 / 2)) (Fl.div (Fl.sub p.x cellMinX) g.cellSizeX) then
    if Fl.lt (.fin (1 / 2)) (Fl.div (Fl.sub p.y cellMinY) g.cellSizeY) then 3 else 1
  else
    if Fl.lt (.fin (1 / 2)) (Fl.div (Fl.sub p.y cellMinY) g.cellSizeY) then 2 else 0

/-- src/index.cpp:1103-1106 `IndexCellBlock`: the matrix of cells. -/
abbrev Block := Nat → Nat → Cell

/-- `IndexCellBlock[x][y] = c`. -/
def Block.set (b : Block) (x y : Nat) (c : Cell) : Block := fun i j => if i = x ∧ j = y then c else b i j

/-- The cells in the order of the loops `for x .. for y ..`. -/
def Grid.cells (g : Grid) : List (Nat × Nat) :=
  (List.range g.cellsX).flatMap fun x => (List.range g.cellsY).map fun y => (x, y)

/-- The temporary file: its bytes and `m_tempFileWrittenBytes`. -/
structure Temp where
  bytes : List Byte
  written : Nat
  deriving DecidableEq, Repr

/-- A 64-bit file offset as written by `fwrite`. -/
def put64 (n : Nat) : List Byte := put 8 (BitVec.ofNat 64 n)
/-- A `uint32_t` as written by `fwrite`. -/
def put32 (n : Nat) : List Byte := put 4 (BitVec.ofNat 32 n)
/-- A `uint8_t` as written by `fwrite`. -/
def put8 (n : Nat) : List Byte := put 1 (BitVec.ofNat 8 n)

/-- src/index.cpp:1394-1409: the temporary file when first opened: one offset for every cell, all zero. -/
def Temp.fresh (g : Grid) : Temp :=
  ⟨(List.range (g.cellsX * g.cellsY)).flatMap fun _ => put64 0, g.cellsX * g.cellsY * 8⟩

/-- src/index.cpp:1450-1462: the records of a cell. -/
def putRuns (r : Runs) : List Byte := r.flatMap fun e => put32 e.1 ++ put8 e.2

/-- src/index.cpp:1414-1465: one cell of `PurgePointsToTempFile`. -/
def purgeCell (g : Grid) (t : Temp) (x y : Nat) (c : Cell) : Temp × Cell :=
  if c.pts.length = 0 then (t, c)
  else
    let loc := if c.fileOffset = 0 then (x * g.cellsY + y) * 8 else c.fileOffset
    let b1 := overlay t.bytes loc (put64 t.written)
    let c := { c with fileOffset := t.written }
    let new := put64 0 ++ put32 c.pts.length ++ putRuns c.pts
    (⟨overlay b1 b1.length new, t.written + new.length⟩, c.removeMainRecords)

/-- The loops of `PurgePointsToTempFile`. -/
def purgeLoop (g : Grid) : Temp → Block → List (Nat × Nat) → Temp × Block
  | t, b, [] => (t, b)
  | t, b, (x, y) :: rest =>
    let (t', c) := purgeCell g t x y (b x y)
    purgeLoop g t' (b.set x y c) rest

/-- src/index.cpp:1390-1475 `PurgePointsToTempFile`; the file is opened by the first call. -/
def purge (g : Grid) (t : Option Temp) (b : Block) : Temp × Block :=
  purgeLoop g (t.getD (Temp.fresh g)) b g.cells

/-- State of the loop over the points in `BuildIndex`, src/index.cpp:1112-1121. -/
structure Build where
  block : Block
  temp : Option Temp
  lastX : Nat
  lastY : Nat
  pointId : Nat
  lastPoint : Nat
  inMemory : Nat

/-- The state before the loop. -/
def Build.start : Build := ⟨fun _ _ => Cell.new, none, 2 ^ 32 - 1, 2 ^ 32 - 1, 0, 0, 0⟩

/-- src/index.cpp:1136-1147: adding a record for the point, after writing out the cells if there are too many records in
memory. -/
def Build.add (g : Grid) (s : Build) (x y : Nat) : Build :=
  let s :=
    if g.temp && decide (g.limit ≤ s.inMemory) then
      let (t, b) := purge g s.temp s.block
      { s with
        temp := some t
        block := b
        inMemory := 0 }
    else s
  { s with
    block := s.block.set x y ((s.block x y).addPointRecord s.pointId)
    lastPoint := s.pointId
    lastX := x
    lastY := y
    inMemory := (s.inMemory + 1) % 2 ^ 32 }

/-- src/index.cpp:1129-1150: a point of a cell. -/
def Build.visit (g : Grid) (s : Build) (x y : Nat) (z : Fl) : Build :=
  let s :=
    if x = s.lastX ∧ y = s.lastY then
      match (s.block x y).incrementPointRecord s.lastPoint with
      | some c => { s with block := s.block.set x y c }
      | none => s.add g x y
    else s.add g x y
  { s with block := s.block.set x y ((s.block x y).updateZBounds z) }

/-- src/index.cpp:1124-1153: one iteration of the loop over the points. A cell outside the matrix is out of bounds of
the vectors. -/
def Build.step (g : Grid) (s : Build) (p : Pt) : Outcome Build := do
  match ← identifyCell g p with
  | none => pure { s with pointId := (s.pointId + 1) % 2 ^ 32 }
  | some (x, y) =>
    if x < g.cellsX ∧ y < g.cellsY then
      let s := s.visit g x y p.z
      pure { s with pointId := (s.pointId + 1) % 2 ^ 32 }
    else .ub

/-- The loop. -/
def Build.loop (g : Grid) : Build → List Pt → Outcome Build
  | s, [] => .ok s
  | s, p :: ps => do
    let s ← s.step g p
    loop g s ps

/-- src/index.cpp:1154-1159: the last purge. -/
def Build.finish (g : Grid) (s : Build) : Build :=
  if g.temp then
    let (t, b) := purge g s.temp s.block
    { s with
      temp := some t
      block := b }
  else s

/-- `fread` of `k` bytes at `pos`; `none` when the file ends. -/
def fread (f : List Byte) (pos k : Nat) : Option (List Byte) :=
  let bs := (f.drop pos).take k
  if bs.length = k then some bs else none

/-- An unsigned number read by `fread`. -/
def freadNat (f : List Byte) (pos k : Nat) : Option Nat := (fread f pos k).map fun bs => (got (8 * k) bs).toNat

/-- src/index.cpp:1515-1526: the records of one block. -/
def loadRuns (f : List Byte) : Nat → Nat → Cell → Option Cell
  | 0, _, c => some c
  | n + 1, pos, c =>
    match freadNat f pos 4, freadNat f (pos + 4) 1 with
    | some id, some k => loadRuns f n (pos + 5) (c.addPointRecords id k)
    | _, _ => none

/-- src/index.cpp:1498-1527: the blocks of a cell. The first argument bounds the number of iterations; running out of
it would be an endless loop and is reported as undefined (`loadChain_total` shows that this does not happen). -/
def loadChain (f : List Byte) : Nat → Nat → Cell → Outcome (Option Cell)
  | _, 0, c => .ok (some c)
  | 0, _, _ => .ub
  | fuel + 1, off, c =>
    match freadNat f off 8, freadNat f (off + 8) 4 with
    | some next, some n =>
      match loadRuns f n (off + 12) c with
      | some c => loadChain f fuel next c
      | none => .ok none
    | _, _ => .ok none

/-- src/index.cpp:1477-1537 `LoadCellFromTempFile`: `none` for a returned `false`. Without a temporary file `m_tempFile` is
a null pointer, and `fseek` on it is undefined. -/
def loadCell (g : Grid) (t : Option Temp) (x y : Nat) (c : Cell) : Outcome (Option Cell) :=
  match t with
  | none => .ub
  | some t =>
    let former := c.numPoints
    let c := { c with numPoints := 0 }
    match freadNat t.bytes ((x * g.cellsY + y) * 8) 8 with
    | none => .ok none
    | some off =>
      (loadChain t.bytes (t.bytes.length + 1) off c).bind fun c =>
        match c with
        | none => .ok none
        | some c => if c.numPoints ≠ former then .ok none else .ok (some c)

/-- State of the inner loops of the subdivision, src/index.cpp:1198-1249: the sub-cells so far, `FirstPt`, and
`LastCellZ` or `LastSubCell`. -/
structure Sub where
  m : List (Nat × Runs)
  firstPt : Nat
  last : Nat
  deriving DecidableEq, Repr

/-- src/index.cpp:1213-1222 and :1230-1239: the point `id` lies in sub-cell `a` (`none`: it could not be placed). -/
def Sub.visit (s : Sub) (a : Option Nat) (id : Nat) : Sub :=
  match a with
  | none => s
  | some a =>
    match (if a = s.last then Cell.incrementSub s.m a s.firstPt else none) with
    | some m => { s with m := m }
    | none => ⟨Cell.addSub s.m a id, id, a⟩

/-- src/index.cpp:1206-1248: the points of a run; `place` is `IdentifyCellZ` or `IdentifySubCell`. `none` when a point
cannot be read. -/
def Sub.points (place : Pt → Outcome (Option Nat)) (pts : List Pt) : Nat → Nat → Sub → Outcome (Option Sub)
  | _, 0, s => .ok (some s)
  | id, n + 1, s =>
    match pts[id]? with
    | none => .ok none
    | some p => (place p).bind fun a => Sub.points place pts (id + 1) n (s.visit a id)

/-- src/index.cpp:1196-1251: the runs of a cell. -/
def Sub.runs (place : Pt → Outcome (Option Nat)) (pts : List Pt) :
    Runs → List (Nat × Runs) → Outcome (Option (List (Nat × Runs)))
  | [], m => .ok (some m)
  | (id, n) :: rest, m =>
    if id < pts.length then
      (Sub.points place pts id n ⟨m, 0, 2 ^ 32 - 1⟩).bind fun s =>
        match s with
        | none => .ok none
        | some s => Sub.runs place pts rest s.m
    else .ok none

/-- src/index.cpp:1191: a cell spanning more than one Z bin. -/
def Grid.splitZ (g : Grid) (c : Cell) : Bool := decide (1 < g.cellsZ) && Fl.lt g.cellSizeZ (Grid.num c.zRange)

/-- src/index.cpp:1187-1253: subdividing a reloaded cell. -/
def subdivide (g : Grid) (pts : List Pt) (x y : Nat) (c : Cell) : Outcome (Option Cell) :=
  if g.splitZ c || decide (1000 < c.numPoints) then
    if g.splitZ c then
      (Sub.runs (identifyCellZ g) pts c.pts c.zCells).bind fun m =>
        .ok (m.map fun m => { c with zCells := m }.removeMainRecords)
    else
      (Sub.runs (fun p => .ok (some (identifySubCell g p x y))) pts c.pts c.subCells).bind fun m =>
        .ok (m.map fun m => { c with subCells := m }.removeMainRecords)
  else .ok (some c)

/-- src/index.cpp:1179-1272: every cell is reloaded, subdivided and handed to `OutputCell`; here the list of cells
handed over. `none` when `BuildIndex` gives up. -/
def outputLoop (g : Grid) (pts : List Pt) (t : Option Temp) (b : Block) :
    List (Nat × Nat) → Outcome (Option (List ((Nat × Nat) × Cell)))
  | [] => .ok (some [])
  | (x, y) :: rest =>
    (loadCell g t x y (b x y)).bind fun c =>
      match c with
      | none => .ok none
      | some c =>
        (subdivide g pts x y c).bind fun c =>
          match c with
          | none => .ok none
          | some c =>
            (outputLoop g pts t b rest).bind fun l =>
              .ok (l.map fun l => ((x, y), c) :: l)

/-- src/index.cpp:1112-1272: the cells of the index built for `pts`. -/
def buildIndex (g : Grid) (pts : List Pt) : Outcome (Option (List ((Nat × Nat) × Cell))) := do
  let s ← Build.start.loop g pts
  let s := s.finish g
  outputLoop g pts s.temp s.block g.cells

end LibLAS.Index
