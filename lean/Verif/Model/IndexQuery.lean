import Verif.Model.IndexHeader
/-
Queries on the spatial index: src/index.cpp:258-340, :374-1028 and :2016-2153. Simplifications: index records of version 1.1 and
later only (the library writes 1.2, include/liblas/index.hpp:63), so that the counts of points are there; the number of
the data records is 43 (the index header could say otherwise, but 43 is what the library writes); sizes, positions and
counters are not reduced modulo 2^32; debug output is left out; `m_curCellX`, `m_curCellY` of the iterator, which nothing
reads, are left out; the reader has no filters and transforms, so that it is the list of the points with a position.
-/
namespace LibLAS.Index
open LibLAS

/-- Where in a cell a run of points is: in the cell itself, in one of its Z parts, or in one of its quarters. -/
inductive Place where
  | main
  | z (k : Nat)
  | sub (k : Nat)
  deriving DecidableEq, Repr

/-- What is done while the cells of a record are read: `start` at the start of a cell at a position, `run` with each
run of points (cell, place, first id, number), `full` says that reading is to stop. -/
structure Visitor (σ : Type) where
  start : σ → Nat → σ
  run : σ → Nat → Nat → Place → Nat → Nat → σ
  full : σ → Bool

/-- src/index.cpp:567-588, :599-620, :626-647: the loop over the runs of a part of a cell. The position is `none` when
`ReadVLRData_n` throws. -/
def walkRuns {σ : Type} (v : Visitor σ) (b : List Byte) (x y : Nat) (p : Place) : Nat → σ → Nat → σ × Option Nat
  | 0, s, pos => (s, some pos)
  | n + 1, s, pos =>
    match freadNat b pos 4, freadNat b (pos + 4) 1 with
    | some id, some k =>
      let s := v.run s x y p id k
      if v.full s then (s, some (pos + 5)) else walkRuns v b x y p n s (pos + 5)
    | _, _ => (s, none)

/-- src/index.cpp:560-591, :593-623: the loop over the Z parts or the quarters of a cell. -/
def walkSubs {σ : Type} (v : Visitor σ) (b : List Byte) (x y : Nat) (p : Nat → Place) : Nat → σ → Nat → σ × Option Nat
  | 0, s, pos => (s, some pos)
  | n + 1, s, pos =>
    match freadNat b pos 4, freadNat b (pos + 4) 4 with
    | some k, some m =>
      match walkRuns v b x y (p k) m s (pos + 8) with
      | (s, none) => (s, none)
      | (s, some pos) => if v.full s then (s, some pos) else walkSubs v b x y p n s pos
    | _, _ => (s, none)

/-- src/index.cpp:555-557: the numbers at the start of a cell: x, y, records, quarters, Z parts (the number of points and
the z range are read and not used). -/
def readCell (b : List Byte) (pos : Nat) : Option (Nat × Nat × Nat × Nat × Nat) :=
  match freadNat b pos 4, freadNat b (pos + 4) 4, freadNat b (pos + 8) 4, freadNat b (pos + 12) 2, freadNat b (pos + 14) 2,
    freadNat b (pos + 16) 4, freadNat b (pos + 20) 4, freadNat b (pos + 24) 4 with
  | some x, some y, some _, some _, some _, some records, some subs, some zs => some (x, y, records, subs, zs)
  | _, _, _, _, _, _, _, _ => none

/-- src/index.cpp:558-649: the rest of a cell. After leaving the loop over the Z parts early, the loop over the quarters is
still entered. -/
def walkParts {σ : Type} (v : Visitor σ) (b : List Byte) (x y records subs zs : Nat) (s : σ) (pos : Nat) : σ × Option Nat :=
  match walkSubs v b x y .z zs s pos with
  | (s, none) => (s, none)
  | (s, some pos) =>
    match walkSubs v b x y .sub subs s pos with
    | (s, none) => (s, none)
    | (s, some pos) => if zs = 0 ∧ subs = 0 then walkRuns v b x y .main records s pos else (s, some pos)

/-- src/index.cpp:531-649: one cell. -/
def walkCell {σ : Type} (v : Visitor σ) (b : List Byte) (s : σ) (pos : Nat) : σ × Option Nat :=
  let s := v.start s pos
  match readCell b pos with
  | some (x, y, records, subs, zs) => walkParts v b x y records subs zs s (pos + 28)
  | none => (s, none)

/-- src/index.cpp:529-652: the loop over the cells of a record. The first argument bounds the number of iterations; each
moves on by 28 bytes at least. The Boolean is `false` when `ReadVLRData_n` throws. -/
def walkCells {σ : Type} (v : Visitor σ) (b : List Byte) (size : Nat) : Nat → σ → Nat → Outcome (σ × Bool)
  | 0, _, _ => .ub
  | fuel + 1, s, pos =>
    if pos + 4 < size then
      match walkCell v b s pos with
      | (s, none) => .ok (s, false)
      | (s, some pos) => if v.full s then .ok (s, true) else walkCells v b size fuel s pos
    else .ok (s, true)

/-- The start of a record and its data together with those of the records continuing it. -/
structure Gathered where
  minX : Nat
  minY : Nat
  maxX : Nat
  maxY : Nat
  size : Nat
  points : Nat
  bytes : List Byte
  /-- the number of records used -/
  used : Nat
  deriving DecidableEq, Repr

/-- src/index.cpp:485-487, 509-511: the bytes of a record; `none` when `ReadVLRDataNoInc_str` throws. -/
def recordBytesOf (v : VLR) : Option (List Byte) :=
  if v.recordSize.toNat ≤ v.data.length then some (v.data.take v.recordSize.toNat) else none

/-- src/index.cpp:503-521: the loop concatenating records: `got` are the bytes so far, to be `size` in the end. Running out
of records is `m_vlrs[i]` past the end, bytes past `size` are written past the end of `CompositeData`. -/
def gatherMore (size : Nat) : List Byte → Nat → List VLR → Outcome (Option (List Byte × Nat))
  | got, used, rest =>
    if got.length < size then
      match rest with
      | [] => .ub
      | v :: rest =>
        match recordBytesOf v with
        | none => .ok none
        | some bs => if size < got.length + bs.length then .ub else gatherMore size (got ++ bs) (used + 1) rest
    else .ok (some (got, used))

/-- src/index.cpp:481-522: the first part of `FilterOneVLR`; `none` for a returned `false`. -/
def gather (v : VLR) (rest : List VLR) : Outcome (Option Gathered) :=
  match recordBytesOf v with
  | none => .ok none
  | some b =>
    match freadNat b 0 4, freadNat b 4 4, freadNat b 8 4, freadNat b 12 4, freadNat b 16 4, freadNat b 20 4 with
    | some x0, some y0, some x1, some y1, some size, some points =>
      (gatherMore size b 1 rest).bind fun r =>
        .ok (r.map fun r => ⟨x0, y0, x1, y1, size, points, r.1, r.2⟩)
    | _, _, _, _, _, _ => .ok none

/-- The members of `IndexData` used by a query (include/liblas/index.hpp:410-425). -/
structure Query where
  min : Pt
  max : Pt
  noX : Bool
  noY : Bool
  noZ : Bool
  deriving DecidableEq, Repr

/-- `m_filter`. -/
def Query.bounds (q : Query) : Bounds := Bounds.make3 q.min.x q.min.y q.min.z q.max.x q.max.y q.max.z

/-- src/index.cpp:2016-2054 `SetFilterValues` and `CalcFilterEnablers` on a new `IndexData`: the window is cut to the bounds of the index; an
axis on which it has no extent is not filtered. (`verify` throws unless each minimum is at most the maximum, and then
`false` is returned; the window given here is one that passes.) -/
def Query.set (g : Grid) (lo hi : Pt) : Query :=
  let cx := Range.clip ⟨lo.x, hi.x⟩ ⟨g.min.x, g.max.x⟩
  let cy := Range.clip ⟨lo.y, hi.y⟩ ⟨g.min.y, g.max.y⟩
  let cz := Range.clip ⟨lo.z, hi.z⟩ ⟨g.min.z, g.max.z⟩
  ⟨⟨cx.minimum, cy.minimum, cz.minimum⟩, ⟨cx.maximum, cy.maximum, cz.maximum⟩,
    Point.compareDistance cx.minimum cx.maximum, Point.compareDistance cy.minimum cy.maximum,
    Point.compareDistance cz.minimum cz.maximum⟩

/-- The members of `IndexData` for one axis: the cells completely inside, the cells at the border, and how far the window
reaches into the cells at the border. -/
structure Axis where
  lowIn : Int
  highIn : Int
  lowBorder : Int
  highBorder : Int
  lowPart : Fl
  highPart : Fl
  deriving DecidableEq, Repr

/-- `(int32_t)` of a double. -/
def toI32 (x : Fl) : Outcome Int := x.toInt32.bind fun b => .ok b.toInt

/-- src/index.cpp:398-431: one axis of `SetCellFilterBounds`, from the window in cell numbers. -/
def axisOf (lo hi : Fl) : Outcome Axis := do
  let a ← toI32 lo.ceil
  let b ← toI32 (Fl.sub hi.floor (.fin 1))
  let c ← toI32 lo.floor
  let d ← toI32 (Fl.sub hi.ceil (.fin 1))
  pure ⟨a, b, c, d, Fl.sub lo lo.floor, Fl.sub hi (Fl.sub hi.ceil (.fin 1))⟩

/-- src/index.cpp:381-384: a bound of the window in cell numbers. -/
def cellNumber (lo range : Fl) (cells : Nat) (c : Fl) : Fl := Fl.div (Fl.mul (Grid.num cells) (Fl.sub c lo)) range

/-- src/index.cpp:374-433 `SetCellFilterBounds`. -/
def setCellBounds (g : Grid) (q : Query) : Outcome (Axis × Axis × Axis) := do
  let flat := !(Fl.lt (.fin 0) g.rangeZ && !(Point.compareDistance g.rangeZ (.fin 0)))
  let x ← axisOf (cellNumber g.min.x g.rangeX g.cellsX q.min.x) (cellNumber g.min.x g.rangeX g.cellsX q.max.x)
  let y ← axisOf (cellNumber g.min.y g.rangeY g.cellsY q.min.y) (cellNumber g.min.y g.rangeY g.cellsY q.max.y)
  let z ← axisOf (if flat then .fin 0 else cellNumber g.min.z g.rangeZ g.cellsZ q.min.z)
    (if flat then .fin 0 else cellNumber g.min.z g.rangeZ g.cellsZ q.max.z)
  pure (x, y, z)

/-- A query with its cell bounds. -/
structure Window where
  q : Query
  x : Axis
  y : Axis
  z : Axis
  deriving DecidableEq, Repr

/-- An `uint32_t` handed over as an `int32_t`. -/
def i32 (n : Nat) : Int := (BitVec.ofNat 32 n).toInt

/-- A cell at the border or between the borders. -/
def Axis.meets (a : Axis) (c : Int) : Bool := decide (a.lowBorder ≤ c) && decide (c ≤ a.highBorder)
/-- A cell completely inside. -/
def Axis.inside (a : Axis) (c : Int) : Bool := decide (a.lowIn ≤ c) && decide (c ≤ a.highIn)

/-- src/index.cpp:748-763 `VLRInteresting`. -/
def Window.vlr (w : Window) (minX minY maxX maxY : Int) : Bool :=
  (w.q.noX || (decide (w.x.lowBorder ≤ maxX) && decide (minX ≤ w.x.highBorder))) &&
    (w.q.noY || decide (maxX ≠ minX) || (decide (w.y.lowBorder ≤ maxY) && decide (minY ≤ w.y.highBorder)))

/-- src/index.cpp:765-775 `CellInteresting`. -/
def Window.cell (w : Window) (x y : Int) : Bool := (w.q.noX || w.x.meets x) && (w.q.noY || w.y.meets y)

/-- src/index.cpp:777-786 `ZCellInteresting`. -/
def Window.zCell (w : Window) (z : Int) : Bool := w.q.noZ || w.z.meets z

/-- src/index.cpp:788-870: one axis of `SubCellInteresting`; `low` says that the quarter is in the low half. -/
def Axis.half (a : Axis) (no : Bool) (c : Int) (low : Bool) : Bool :=
  if no || a.inside c then true
  else if c = a.lowBorder then (if low then Fl.le a.lowPart (.fin (1 / 2)) else true)
  else (if low then true else Fl.lt (.fin (1 / 2)) a.highPart)

/-- src/index.cpp:788-870 `SubCellInteresting`. -/
def Window.subCell (w : Window) (k : Nat) (x y : Int) : Bool :=
  w.x.half w.q.noX x (decide (k = 0 ∨ k = 2)) && w.y.half w.q.noY y (decide (k = 0 ∨ k = 1))

/-- The reader as `FilterOnePoint` uses it: its position. -/
abbrev RPos := Nat

/-- `m_reader->ReadNextPoint()`, `GetPoint()`. -/
def readNext (pts : List Pt) (r : RPos) : Option Pt × RPos :=
  match pts[r]? with
  | some p => (some p, r + 1)
  | none => (none, r)

/-- src/index.cpp:890-902 and twice more: the point is read unless it has been; `lastRead` says that the reader is behind
the point before. The id is an `int32_t`; `Seek` of a negative one is of a number too large. -/
def fetch (pts : List Pt) (id lastId : Int) (lastRead : Bool) (r : RPos) : Option Pt × RPos :=
  let (p, r) := if id = lastId + 1 ∧ lastRead then readNext pts r else (none, r)
  match p with
  | some p => (some p, r)
  | none => if 0 ≤ id ∧ id < pts.length then readNext pts id.toNat else (none, r)

/-- `PtX >= GetMinFilterX() && PtX <= GetMaxFilterX()`. -/
def between (lo hi c : Fl) : Bool := Fl.le lo c && Fl.le c hi

/-- One axis of `FilterOnePoint`: `coord` is the coordinate of a point, `p` the point if it has been read. -/
def axisGood (pts : List Pt) (a : Axis) (no : Bool) (c : Int) (lo hi : Fl) (coord : Pt → Fl) (id lastId : Int) (lastRead : Bool)
    (p : Option Pt) (r : RPos) : Bool × Option Pt × RPos :=
  if no then (true, p, r)
  else if a.inside c then (true, p, r)
  else if c = a.lowBorder ∨ c = a.highBorder then
    let (p, r) := match p with
      | some p => (some p, r)
      | none => fetch pts id lastId lastRead r
    (match p with
      | some p => between lo hi (coord p)
      | none => false, p, r)
  else (false, p, r)

/-- src/index.cpp:872-1028 `FilterOnePoint`: the result, `LastPtRead` and the reader. -/
def filterOnePoint (pts : List Pt) (w : Window) (x y z : Int) (id lastId : Int) (lastRead : Bool) (r : RPos) : Bool × Bool × RPos :=
  let (gx, p, r) := axisGood pts w.x w.q.noX x w.q.min.x w.q.max.x Pt.x id lastId lastRead none r
  let (gy, p, r) := if gx then axisGood pts w.y w.q.noY y w.q.min.y w.q.max.y Pt.y id lastId lastRead p r else (false, p, r)
  let (gz, p, r) := if gx && gy then axisGood pts w.z w.q.noZ z w.q.min.z w.q.max.z Pt.z id lastId lastRead p r else (false, p, r)
  (gx && gy && gz, p.isSome, r)

/-- The members of `IndexIterator` (include/liblas/index.hpp:467-475). -/
structure Iter where
  chunk : Nat
  advance : Nat
  curVLR : Nat
  cellStart : Nat
  total : Nat
  inCell : Nat
  inVLR : Nat
  conforming : Nat
  deriving DecidableEq, Repr

/-- What a query changes: `m_filterResult`, the iterator if there is one, `PointsScannedThisTime`, and the reader. -/
structure Scan where
  result : List Nat
  it : Option Iter
  scanned : Nat
  rd : RPos
  deriving DecidableEq, Repr

/-- `m_iterator && m_filterResult.size() >= m_iterator->m_chunkSize`. -/
def Scan.full (s : Scan) : Bool :=
  match s.it with
  | none => false
  | some it => decide (it.chunk ≤ s.result.length)

/-- `++m_ptsScannedCurCell`, or more. -/
def Scan.count (s : Scan) (n : Nat) : Scan :=
  { s with
    scanned := s.scanned + n
    it := s.it.map fun it => { it with inCell := it.inCell + n } }

/-- src/index.cpp:713-731: a point satisfying the filter; the Boolean is `true` when the series is to be left. -/
def Scan.take (s : Scan) (id : Nat) : Scan × Bool :=
  match s.it with
  | none => ({ s with result := s.result ++ [id] }, false)
  | some it =>
    let it := { it with conforming := it.conforming + 1 }
    let it := { it with advance := it.advance - 1 }
    let s := { s with it := some it }
    if it.advance ≠ 0 then (s, false)
    else
      let s := { s with result := s.result ++ [id] }
      (s, s.full)

/-- src/index.cpp:701-741: the loop of `FilterPointSeries`: `n` points from `id` on. -/
def Scan.series (pts : List Pt) (w : Window) (ignore : Nat) (x y z : Nat) : Nat → Nat → Nat → Bool → Scan → Scan
  | 0, _, _, _, s => s
  | n + 1, id, lastId, lastRead, s =>
    let s := s.count 1
    if ignore < s.scanned then
      let (good, lastRead, rd) := filterOnePoint pts w (i32 x) (i32 y) (i32 z) (i32 id) (i32 lastId) lastRead s.rd
      let s := { s with rd := rd }
      if good then
        let (s, stop) := s.take id
        if stop then s else series pts w ignore x y z n (id + 1) id lastRead s
      else series pts w ignore x y z n (id + 1) id lastRead s
    else series pts w ignore x y z n (id + 1) id lastRead s

/-- src/index.cpp:571-587, :605-619, :632-646: what is done with a run. -/
def Scan.run (pts : List Pt) (w : Window) (ignore : Nat) (s : Scan) (x y : Nat) (p : Place) (id n : Nat) : Scan :=
  let test := w.cell (i32 x) (i32 y)
  let good := match p with
    | .main => test
    | .z k => test && w.zCell (i32 k)
    | .sub k => test && w.subCell k (i32 x) (i32 y)
  let z := match p with
    | .z k => k
    | _ => 0
  if good then s.series pts w ignore x y z n id (2 ^ 32 - 1) false else s.count n

/-- The visitor of a query. -/
def filterVisitor (pts : List Pt) (w : Window) (ignore : Nat) : Visitor Scan where
  start s pos := { s with it := s.it.map fun it => { it with cellStart := pos, inCell := 0 } }
  run s x y p id n := s.run pts w ignore x y p id n
  full s := s.full

/-- src/index.cpp:653-666: after the loop over the cells of a record: the state and `VLRDone`. -/
def Scan.close (s : Scan) (ignore before points : Nat) : Scan × Bool :=
  if ignore ≤ s.scanned then
    let cur := before + (s.scanned - ignore)
    ({ s with it := s.it.map fun it => { it with total := it.total + (s.scanned - ignore), inVLR := cur } },
      decide (points ≤ cur))
  else (s, false)

/-- src/index.cpp:523-685: the second part of `FilterOneVLR`. The Booleans: not thrown, `VLRDone`. -/
def filterGathered (pts : List Pt) (w : Window) (r : Gathered) (s : Scan) : Outcome (Scan × Bool × Bool) :=
  let s := { s with scanned := 0 }
  if w.vlr (i32 r.minX) (i32 r.minY) (i32 r.maxX) (i32 r.maxY) then
    let resume := match s.it with
      | some it => if 24 ≤ it.cellStart then (it.cellStart, it.inCell, it.inVLR) else (24, 0, 0)
      | none => (24, 0, 0)
    (walkCells (filterVisitor pts w resume.2.1) r.bytes r.size (r.size + 1) s resume.1).bind fun e =>
      if e.2 then
        let (s, done) := e.1.close resume.2.1 resume.2.2 r.points
        .ok (s, true, done)
      else .ok (e.1, false, false)
  else
    match s.it with
    | some it => .ok ({ s with it := some { it with total := it.total + r.points } }, true, true)
    | none => .ok (s, true, false)

/-- src/index.cpp:301-329 after `FilterOneVLR` with an iterator: `i` is the index of the last record used, `head` of the
first. The Boolean is `true` when the loop is left. -/
def afterVLR (s : Scan) (done : Bool) (head i : Nat) : Scan × Nat × Bool :=
  match s.it with
  | none => (s, i + 1, false)
  | some it =>
    let s := if done then { s with it := some { it with cellStart := 0, inCell := 0, inVLR := 0 } } else s
    if s.full then (s, if done then i + 1 else head, true) else (s, i + 1, false)

/-- The state of `Filter`: the cell bounds stored in the `IndexData`, the scan. -/
structure Filtering where
  w : Window
  s : Scan
  deriving DecidableEq, Repr

/-- src/index.cpp:285-300, :436-478: an index header record: the cell bounds are set from it. `none`: the loop is left, because
the record cannot be parsed, the bounds do not intersect, or the version is too old for an iterator. -/
def atHeader (v : VLR) (f : Filtering) : Outcome (Option Filtering) :=
  (loadInfo v).bind fun h => match h with
  | none => .ok none
  | some h => do
    let (x, y, z) ← setCellBounds h.grid f.w.q
    let f := { f with w := ⟨f.w.q, x, y, z⟩ }
    let meet ← h.bounds.intersects f.w.q.bounds
    if !meet then pure none
    else if f.s.it.isSome && !(decide (1 < h.major) || (decide (h.major = 1) && decide (2 ≤ h.minor))) then pure none
    else pure (some f)

/-- src/index.cpp:277-332: the loop over the records from number `i` on. Records with other user ids or numbers are
skipped. The first argument is the number of records left. When reading a continuation throws, the number reached is
that of the first record (the code leaves it where it is; it is only used by a later call of an iterator). When the
header makes the loop end, the cell bounds are left as they were (the code has set them, but they are not used again
before the next header). -/
def filterLoop (pts : List Pt) (vs : List VLR) : Nat → Nat → Filtering → Outcome (Filtering × Nat)
  | 0, i, f => .ok (f, i)
  | fuel + 1, i, f =>
    match vs[i]? with
    | none => .ok (f, i)
    | some v =>
      if v.getUserId false == lit "liblas" then
        if v.recordId == 42#16 then
          (atHeader v f).bind fun r =>
            match r with
            | none => .ok (f, i)
            | some f => filterLoop pts vs fuel (i + 1) f
        else if v.recordId == 43#16 then
          (gather v (vs.drop (i + 1))).bind fun g =>
            match g with
            | none => .ok (f, i)
            | some g =>
              (filterGathered pts f.w g f.s).bind fun r =>
                let last := i + g.used - 1
                if r.2.1 then
                  match afterVLR r.1 r.2.2 i last with
                  | (s, i, true) => .ok ({ f with s := s }, i)
                  | (s, i, false) => filterLoop pts vs fuel i { f with s := s }
                else .ok ({ f with s := r.1 }, last)
        else filterLoop pts vs fuel (i + 1) f
      else filterLoop pts vs fuel (i + 1) f

/-- The cell bounds of a new `IndexData`: all zero (src/index.cpp:1847-1853). -/
def Query.fresh (q : Query) : Window :=
  let a : Axis := ⟨0, 0, 0, 0, .fin 0, .fin 0⟩
  ⟨q, a, a, a⟩

/-- src/index.cpp:258-340 `Filter` without an iterator; the reader may be anywhere (`r`). -/
def filter (pts : List Pt) (vs : List VLR) (q : Query) (r : RPos) : Outcome (List Nat) := do
  let (f, _) ← filterLoop pts vs vs.length 0 ⟨q.fresh, ⟨[], none, 0, r⟩⟩
  pure f.s.result

/-- An `IndexIterator`: its `IndexData` and its own members. -/
structure Iterator where
  w : Window
  it : Iter
  deriving DecidableEq, Repr

/-- src/index.cpp:2072-2079: the constructor. -/
def Iterator.new (q : Query) (chunk : Nat) : Iterator := ⟨q.fresh, ⟨chunk, 0, 0, 0, 0, 0, 0, 0⟩⟩

/-- src/index.cpp:2121-2126 `ResetPosition`. -/
def Iter.reset (it : Iter) : Iter := ⟨it.chunk, it.advance, 0, 0, 0, 0, 0, 0⟩

/-- src/index.cpp:258-340 `Filter` with an iterator; `count` is `GetPointRecordsCount()`. -/
def Iterator.filter (pts : List Pt) (vs : List VLR) (count : Nat) (t : Iterator) (r : RPos) :
    Outcome (List Nat × Iterator) :=
  if count < t.it.advance + t.it.total then .ok ([], t)
  else
    (filterLoop pts vs (vs.length - t.it.curVLR) t.it.curVLR ⟨t.w, ⟨[], some t.it, 0, r⟩⟩).bind fun e =>
      match e.1.s.it with
      | none => .ub
      | some it => .ok (e.1.s.result, ⟨e.1.w, { it with curVLR := e.2 }⟩)

/-- src/index.cpp:2128-2146 `operator()`. -/
def Iterator.call (pts : List Pt) (vs : List VLR) (count : Nat) (t : Iterator) (r : RPos) (n : Int) :
    Outcome (List Nat × Iterator) :=
  let it :=
    if n ≤ 0 then { t.it.reset with advance := 1 }
    else if n.toNat < t.it.conforming then { t.it.reset with advance := n.toNat + 1 }
    else { t.it with advance := n.toNat - t.it.conforming + 1 }
  Iterator.filter pts vs count { t with it := it } r

/-- src/index.cpp:2148-2153 `advance`; `operator++` is `advance(1)` (include/liblas/index.hpp:501-503). The sum is of a
`uint32_t` and an `int32_t`, then converted to `int32_t`. -/
def Iterator.next (pts : List Pt) (vs : List VLR) (count : Nat) (t : Iterator) (r : RPos) (n : Int) :
    Outcome (List Nat × Iterator) :=
  let n := if 0 < n then n - 1 else n
  t.call pts vs count r (BitVec.ofInt 32 (t.it.conforming + n)).toInt

end LibLAS.Index
