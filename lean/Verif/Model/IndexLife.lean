import Verif.Model.IndexQuery
import Verif.Model.Reader
/-
The life of an index: `Index::Prep`, `IndexInit`, `ClearOldIndex`, `Validate`, the choice of the grid in `BuildIndex`, and
the saving of the index, src/index.cpp:63-247, :1030-1088, :1563-1603. Simplifications: an output stream is given, empty and
working; the names of the temporary file and of nothing else matter; debug output, allocation failure and errors of the
temporary file are left out. The points that `BuildIndex` reads again while it subdivides cells (:1203-1247) are those it has
read before (C23, C24). When the output fails the bytes written until then are not part of the result, and when the building
fails the header of the index is left as it was (the code may have added records to it; nothing is written then).
-/
namespace LibLAS

/-- The square root of a rational, rounded down to 64 bits behind the point, with a last bit that says whether it is exact. -/
def Fl.sqrtRat (q : ℚ) : ℚ :=
  let m := Nat.sqrt ⌊q * 4 ^ 64⌋.toNat
  (2 * m + if (m : ℚ) ^ 2 = q * 4 ^ 64 then 0 else 1) / 2 ^ 65

/-- `std::sqrt(double)`, rounded to nearest, for arguments from 1/2^16 on (the uses in src/index.cpp are of such): the halves
between doubles have at most 62 bits behind the point then, so that the last bit of `sqrtRat` makes the rounding right. -/
def Fl.sqrt : Fl → Fl
  | .fin q => if q < 0 then .nan else Fl.ofRat (Fl.sqrtRat q)
  | .inf false => .inf false
  | _ => .nan

namespace Index

/-- The members of `IndexData` by which the caller says what to do (include/liblas/index.hpp:355-390), and
`sizeof(liblas::detail::IndexCell)`. `temp` says that a name for the temporary file is given. -/
structure Setup where
  readOnly : Bool
  standalone : Bool
  forceNew : Bool
  temp : Bool
  author : List Byte
  comment : List Byte
  date : List Byte
  cellSizeZ : Fl
  maxMemory : Nat
  cellBytes : Nat
  deriving DecidableEq, Repr

/-- src/index.cpp:455-466: an index header that is read takes the place of the names given by the caller (:84-92). -/
def Setup.named (s : Setup) (i : Info) : Setup := { s with author := i.author, comment := i.comment, date := i.date }

/-- src/index.cpp:93-98. -/
def Setup.memory (s : Setup) : Nat :=
  let m := if 0 < s.maxMemory then s.maxMemory else 10000000
  if m < 1000000 then 1000000 else m

/-- include/liblas/bounds.hpp:559-576 `verify`, one axis: `true` if it throws. -/
def badRange (r : Range) : Bool :=
  Fl.lt r.maximum r.minimum &&
    (Point.compareDistance r.minimum Range.dblMax || Point.compareDistance r.maximum (Fl.neg Range.dblMax))

/-- The bounds in a header, src/index.cpp:239, :1042. -/
def headerBounds (h : Header) : Bounds :=
  Bounds.make3 (Fl.ofBits h.min.x) (Fl.ofBits h.min.y) (Fl.ofBits h.min.z) (Fl.ofBits h.max.x) (Fl.ofBits h.max.y) (Fl.ofBits h.max.z)

/-- src/index.cpp:1053-1056: the number of Z cells. -/
def chooseZ (size range : Fl) : Outcome Nat :=
  if Fl.lt (.fin 0) size && !(Point.compareDistance size (.fin 0)) then toUInt32 (Fl.ceil (Fl.div range size)) else .ok 1

/-- src/index.cpp:1065-1066 `XRatio`, `YRatio`: the extent of an axis in relation to the other. -/
def ratio (range other : Fl) : Fl := if Fl.le other range then .fin 1 else Fl.div range other

/-- src/index.cpp:1068-1071: the number of cells on the longer axis (`LIBLAS_INDEX_OPTPTSPERCELL` is 100). -/
def longCells (n : Nat) : Outcome Nat :=
  (toUInt32 (Fl.sqrt (Grid.num (n / 100)))).bind fun t => .ok (if t < 10 then 10 else t)

/-- src/index.cpp:1072-1077: the number of cells on an axis. -/
def axisCells (r : Fl) (t : Nat) : Outcome Nat :=
  (toUInt32 (Fl.mul r (Grid.num t))).bind fun c => .ok (if c < 1 then 1 else c)

/-- src/index.cpp:1078-1086: fewer cells if there are more than `LIBLAS_INDEX_MAXCELLS` (the product is an `uint32_t`). -/
def reduceCells (cx cy : Nat) : Outcome (Nat × Nat) :=
  if 250000 < cx * cy % 2 ^ 32 then
    let r := Fl.sqrt (Fl.div (Grid.num 250000) (Grid.num (cx * cy % 2 ^ 32)))
    (toUInt32 (Fl.mul (Grid.num cx) r)).bind fun cx =>
      (toUInt32 (Fl.mul (Grid.num cy) r)).bind fun cy => .ok (cx, cy)
  else .ok (cx, cy)

/-- src/index.cpp:1064-1086: the numbers of cells on the x and y axes for `n` points. -/
def chooseCells (rangeX rangeY : Fl) (n : Nat) : Outcome (Nat × Nat) :=
  (longCells n).bind fun t =>
    (axisCells (ratio rangeX rangeY) t).bind fun cx =>
      (axisCells (ratio rangeY rangeX) t).bind fun cy => reduceCells cx cy

/-- src/index.cpp:1040-1088, :1121: the grid for the points of a file with the header `h`; `none` for a returned `false`. -/
def chooseGrid (s : Setup) (h : Header) : Outcome (Option Grid) :=
  let b := headerBounds h
  if b.ranges.any badRange then .ok none
  else
    let lo : Pt := ⟨b.getMin 0, b.getMin 1, b.getMin 2⟩
    let hi : Pt := ⟨b.getMax 0, b.getMax 1, b.getMax 2⟩
    (chooseZ s.cellSizeZ (Fl.sub hi.z lo.z)).bind fun cz =>
      if Fl.le hi.x lo.x || Fl.le hi.y lo.y then .ok none
      else
        (chooseCells (Fl.sub hi.x lo.x) (Fl.sub hi.y lo.y) h.pointCount.toNat).bind fun c =>
          .ok (some ⟨lo, hi, c.1, c.2, cz, s.cellSizeZ, s.memory / s.cellBytes, s.temp⟩)

/-- src/detail/index/indexoutput.cpp:76-126: what the header record of the new index says. -/
def newInfo (s : Setup) (h : Header) (g : Grid) (dataId : Nat) : Info :=
  ⟨1, 2, s.author, s.comment, s.date, h.min.x, h.max.x, h.min.y, h.max.y, h.min.z, h.max.z, dataId, h.pointCount.toNat,
    g.cellsX, g.cellsY, g.cellsZ⟩

/-- `GetPoint()` as the index sees it. -/
def coords (b : LibLAS.Build) (r : Reader) : Outcome Pt := do
  let x ← Point.getX b ⟨r.point, r.hdr.toP⟩
  let y ← Point.getY b ⟨r.point, r.hdr.toP⟩
  let z ← Point.getZ b ⟨r.point, r.hdr.toP⟩
  pure ⟨x, y, z⟩

/-- src/index.cpp:1124-1153 `while (m_reader->ReadNextPoint())`: the points, with the number of rounds still allowed. -/
def coordsLoop (b : LibLAS.Build) : Nat → Reader → Outcome (Reader × List Pt)
  | 0, _ => .ub
  | k + 1, r =>
    match r.readNext with
    | (r, .ok true) => do
      let p ← coords b r
      let (r, l) ← coordsLoop b k r
      pure (r, p :: l)
    | (r, .ok false) => .ok (r, [])
    | (_, .throw e) => .throw e
    | (_, .ub) => .ub

/-- src/index.cpp:1568-1573: the points are copied. -/
def copyLoop : Nat → Reader → Writer → Outcome Writer
  | 0, _, _ => .ub
  | k + 1, r, w =>
    match r.readNext with
    | (r, .ok true) => do
      let w ← w.writePoint r.point
      copyLoop k r w
    | (_, .ok false) => .ok w
    | (_, .throw e) => .throw e
    | (_, .ub) => .ub

/-- `m_reader->Seek(0)`, whatever it returns. -/
def rewind (r : Reader) : Outcome Reader :=
  match r.seek 0 with
  | (r, .ok _) => .ok r
  | (_, .throw e) => .throw e
  | (_, .ub) => .ub

/-- src/index.cpp:1566-1573, or :1585-1594 without points. -/
def saveTo (env : Env) (standalone : Bool) (r : Reader) (h : Header) : Outcome Writer := do
  let w ← Writer.make env (OStream.onFile []) h
  if standalone then pure w
  else do
    let r ← rewind r
    copyLoop (r.size + 1) r w

/-- src/index.cpp:1563-1580 `SaveIndexInLASFile`, :1582-1603 `SaveIndexInStandAloneFile`: the file written; `none` for a returned
`false`. -/
def save (env : Env) (standalone : Bool) (r : Reader) (h : Header) : Outcome (Option (List Byte)) :=
  match saveTo env standalone r h with
  | .ok w => .ok (some w.close.buf)
  | .throw e => if e.isRuntime then .ok none else .throw e
  | .ub => .ub

/-- What there is after `Prep`: whether the index is ready, `GetIndexHeader()`, what is known from the header record (bounds and
number of points among it), and the file written. -/
structure Life where
  ready : Bool
  hdr : Header
  info : Option Info
  file : Option (List Byte)

/-- src/index.cpp:1030-1312 `BuildIndex`, with the header of the index file `ih` and the data record number. -/
def build (env : Env) (b : LibLAS.Build) (s : Setup) (r : Reader) (ih : Header) (dataId : Nat) : Outcome Life := do
  let r ← rewind r
  match ← chooseGrid s r.hdr with
  | none => pure ⟨false, ih, none, none⟩
  | some g => do
    let (r, pts) ← coordsLoop b (r.size + 1) r
    match ← buildIndex g pts with
    | none => pure ⟨false, ih, none, none⟩
    | some out => do
      let dvs ← outputIndex out
      let i := newInfo s r.hdr g dataId
      let ih := (headerRecord i :: dvs).foldl Header.addVLR ih
      let f ← save env s.standalone r ih
      pure ⟨f.isSome, ih, some i, f⟩

/-- "liblas" and 42. -/
def isIndexHeader (v : VLR) : Bool := v.getUserId false == lit "liblas" && v.recordId == 42#16

/-- src/index.cpp:152-166: the first index header, looked for among the first `n` records from number `i` on; `GetVLR` past the
end is undefined. -/
def findHeader (vs : List VLR) : Nat → Nat → Outcome (Option VLR)
  | 0, _ => .ok none
  | n + 1, i =>
    match vs[i]? with
    | none => .ub
    | some v => if isIndexHeader v then .ok (some v) else findHeader vs n (i + 1)

/-- src/index.cpp:204-223: the loop of `ClearOldIndex`: `n` records left to look at, from number `i` on; the number of records is
not looked up again when one is deleted. A header record sets the number of the data records and the names, if it can be read (one that
cannot be read to its end leaves them partly set; that is not modelled). -/
def clearLoop : Nat → Nat → Nat → Setup → Header → Outcome (Setup × Header)
  | 0, _, _, s, h => .ok (s, h)
  | n + 1, i, id, s, h =>
    match h.vlrs[i]? with
    | none => .ub
    | some v =>
      if v.getUserId false == lit "liblas" then
        if v.recordId == 42#16 then
          (loadInfo v).bind fun o =>
            let id := match o with
              | some k => k.dataId
              | none => id
            let s := match o with
              | some k => s.named k
              | none => s
            match h.deleteVLR (BitVec.ofNat 32 i) with
            | (h, .ok ()) => clearLoop n (i + 1) id s h
            | (_, .throw e) => .throw e
            | (_, .ub) => .ub
        else if v.recordId.toNat = id then
          match h.deleteVLR (BitVec.ofNat 32 i) with
          | (h, .ok ()) => clearLoop n (i + 1) id s h
          | (_, .throw e) => .throw e
          | (_, .ub) => .ub
        else clearLoop n (i + 1) id s h
      else clearLoop n (i + 1) id s h

/-- src/index.cpp:199-228 `ClearOldIndex`; the number of the data records is restored afterwards, the names are not. -/
def clearOldIndex (id : Nat) (s : Setup) (h : Header) : Outcome (Setup × Header) := clearLoop h.recordsCount.toNat 0 id s h

/-- src/index.cpp:230-247 `Validate`. -/
def validate (i : Info) (h : Header) : Outcome Bool :=
  (i.bounds.equal (headerBounds h)).bind fun e => .ok (e && decide (h.pointCount.toNat = i.points))

/-- src/index.cpp:183-193: without a usable index. -/
def buildUnlessReadOnly (env : Env) (b : LibLAS.Build) (s : Setup) (r : Reader) (ih : Header) (dataId : Nat) : Outcome Life :=
  if s.readOnly then .ok ⟨false, ih, none, none⟩ else build env b s r ih dataId

/-- src/index.cpp:63-101 `Prep`, :136-197 `IndexInit`, with a reader of the points and perhaps the header of an index file of its own. The
number of the data records is 43 (:123) unless an index header said otherwise, and the author, the comment and the date are those of the
index header if there is one (an index made anew because the old one is out of date has the names of the old one). An index header that cannot be read leaves the members partly
set; that is not modelled, undefined stands for it. -/
def prep (env : Env) (b : LibLAS.Build) (s : Setup) (r : Reader) (idx : Option Header) : Outcome Life :=
  let ih := idx.getD r.hdr
  (findHeader ih.vlrs ih.recordsCount.toNat 0).bind fun found =>
    match found with
    | none => buildUnlessReadOnly env b s r ih 43
    | some v =>
      (loadInfo v).bind fun o =>
        match o with
        | none => .ub
        | some i =>
          if s.forceNew then
            (clearOldIndex i.dataId (s.named i) ih).bind fun c => buildUnlessReadOnly env b c.1 r c.2 i.dataId
          else
            (validate i r.hdr).bind fun good =>
              if good then .ok ⟨true, ih, some i, none⟩ else buildUnlessReadOnly env b (s.named i) r ih i.dataId

end Index
end LibLAS
