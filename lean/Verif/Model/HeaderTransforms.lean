import Verif.Model.Reader
/-
src/detail/reader/reader.cpp, src/transform.cpp: transforms that give the point another header.
-/
namespace LibLAS.Moving

/-- `*m_point` of a reader: its record, and the header it refers to if that is not the header object of the reader. -/
structure Hand where
  data : List Byte
  other : Option PHeader
  deriving DecidableEq

/-- The point, given the header of the reader. -/
def Hand.point (own : PHeader) (p : Hand) : Point := ⟨p.data, p.other.getD own⟩

/-- include/liblas/transform.hpp:59-66 `TransformI`: what `ModifiesHeader` says, and what `transform` does to a point: its new
record, the header object it refers to afterwards (`none`: as before), and how it ends. The `bool` it returns is not used by
readers. -/
structure Transform where
  modifies : Bool
  run : Point → (List Byte × Option PHeader) × Outcome Unit

/-- One transform. -/
def Transform.on (t : Transform) (own : PHeader) (p : Hand) : Hand × Outcome Unit :=
  let x := t.run (p.point own)
  (⟨x.1.1, x.1.2.or p.other⟩, x.2)

/-- src/detail/reader/reader.cpp:91-102 `TransformPoint`. -/
def transformPoint (own : PHeader) : List Transform → Hand → Hand × Outcome Unit
  | [], p => (p, .ok ())
  | t :: ts, p =>
    match t.on own p with
    | (p, .ok ()) => transformPoint own ts p
    | (p, .throw e) => (p, .throw e)
    | (p, .ub) => (p, .ub)

/-- A reader with such transforms. `r.point` is the record of the point, `r.xform` is not used; `check` is
`bNeedHeaderCheck`. Filters are functions of the record: when the point has the header of the reader. -/
structure MReader where
  r : Reader
  other : Option PHeader
  check : Bool
  ts : List Transform

namespace MReader

/-- The point. -/
def hand (m : MReader) : Hand := ⟨m.r.point, m.other⟩

/-- src/detail/reader/reader.cpp:294-308 `SetTransforms`: the flag is never cleared. -/
def setTransforms (m : MReader) (ts : List Transform) : MReader :=
  { m with ts := ts, check := m.check || ts.any Transform.modifies }

/-- src/detail/reader/reader.cpp:163-167, :251-255. `Point::SetHeader` does not throw for a header that is there. -/
def settle (b : Build) (m : MReader) : Outcome MReader :=
  if m.check then
    match m.other with
    | none => .ok m
    | some h => do
      let p ← Point.setHeader b ⟨m.r.point, h⟩ m.r.hdr.toP
      pure { m with r := { m.r with point := p.data }, other := none }
  else .ok m

/-- src/detail/reader/reader.cpp:224-228. -/
def transform (m : MReader) : MReader × Outcome Unit :=
  let x := transformPoint m.r.hdr.toP m.ts m.hand
  ({ m with r := { m.r with point := x.1.data }, other := x.1.other }, x.2)

/-- src/detail/reader/reader.cpp:224-233: the transforms, then the end of the points if the last one was rejected. -/
def finish (m : MReader) (last : Bool) : MReader × Outcome Unit :=
  match m.transform with
  | (m, .ok ()) => if last then (m, .throw .outOfRange) else (m, .ok ())
  | (m, o) => (m, o)

/-- src/detail/reader/reader.cpp:188-233: after a rejected point. -/
def afterReject (m : MReader) : MReader × Outcome Unit :=
  match m.r.readCounted with
  | (r, .throw e) => ({ m with r := r }, .throw e)
  | (r, .ub) => ({ m with r := r }, .ub)
  | (r, .ok ()) =>
    match r.skip with
    | (r, .throw e) => ({ m with r := r }, .throw e)
    | (r, .ub) => ({ m with r := r }, .ub)
    | (r, .ok last) => finish { m with r := r } last

/-- src/detail/reader/reader.cpp:170-233: the first record, filters, transforms. -/
def readOn (m : MReader) : MReader × Outcome Unit :=
  match m.r.readCounted with
  | (r, .throw e) => ({ m with r := r }, .throw e)
  | (r, .ub) => ({ m with r := r }, .ub)
  | (r, .ok ()) => if r.accepts then finish { m with r := r } false else afterReject { m with r := r }

/-- src/detail/reader/reader.cpp:153-157. -/
def start (m : MReader) : MReader :=
  if m.r.current = 0 then { m with r := { m.r with ifs := m.r.ifs.clear.seek m.r.hdr.dataOffset.toNat } } else m

/-- src/detail/reader/reader.cpp:151-234 `ReaderImpl::ReadNextPoint`. -/
def implReadNext (b : Build) (m : MReader) : MReader × Outcome Unit :=
  if m.start.r.current ≥ m.start.r.size then (m.start, .throw .outOfRange)
  else
    match m.start.settle b with
    | .ok m => readOn m
    | .throw e => (m.start, .throw e)
    | .ub => (m.start, .ub)

/-- `catch (std::out_of_range const&)` giving `false`. -/
def catchRange (x : MReader × Outcome Unit) : MReader × Outcome Bool :=
  match x with
  | (m, .ok ()) => (m, .ok true)
  | (m, .throw .outOfRange) => (m, .ok false)
  | (m, .throw e) => (m, .throw e)
  | (m, .ub) => (m, .ub)

/-- src/reader.cpp:112-124. -/
def readNext (b : Build) (m : MReader) : MReader × Outcome Bool := catchRange (m.implReadNext b)

/-- The read of `ReadPointAt`. -/
def readHere (m : MReader) : MReader × Outcome Unit :=
  match m.r.readRecord with
  | (r, .ok ()) => finish { m with r := r } false
  | (r, .throw e) => ({ m with r := r }, .throw e)
  | (r, .ub) => ({ m with r := r }, .ub)

/-- src/detail/reader/reader.cpp:236-264 `ReaderImpl::ReadPointAt`. -/
def implReadAt (b : Build) (m : MReader) (n : Nat) : MReader × Outcome Unit :=
  if m.r.size = n then (m, .throw .outOfRange)
  else if m.r.size < n then (m, .throw .runtimeError)
  else
    let m : MReader := { m with r := { m.r with ifs := m.r.ifs.clear.seek (n * m.r.hdr.dataRecordLength + m.r.hdr.dataOffset.toNat) } }
    match m.settle b with
    | .ok m => readHere m
    | .throw e => (m, .throw e)
    | .ub => (m, .ub)

/-- src/reader.cpp:126-142. -/
def readAt (b : Build) (m : MReader) (n : Nat) : MReader × Outcome Bool :=
  if m.r.hdr.pointCount.toNat ≤ n then (m, .throw .outOfRange) else catchRange (m.implReadAt b n)

/-- src/reader.cpp:144-157: seeking does not touch the point. -/
def seek (m : MReader) (n : Nat) : MReader × Outcome Bool :=
  let x := m.r.seek n
  ({ m with r := x.1 }, x.2)

end MReader

/-- src/transform.cpp:520-552 `ColorFetchingTransform::transform` with a new header, for a point outside the raster (GDAL builds):
the point gets the header, nothing else. `told` is `ModifiesHeader` (true there). -/
def rehome (b : Build) (h : PHeader) (told : Bool) : Transform where
  modifies := told
  run p :=
    match Point.setHeader b p h with
    | .ok q => ((q.data, some h), .ok ())
    | .throw e => ((p.data, none), .throw e)
    | .ub => ((p.data, none), .ub)

/-- `T diff = actual - expected` for `int32_t`: signed overflow is undefined. -/
def diff32 (a e : Int) : Outcome Int :=
  if -2147483648 ≤ a - e ∧ a - e ≤ 2147483647 then .ok (a - e) else .ub

/-- include/liblas/detail/private_utility.hpp:225-237 `compare_distance<int32_t>`: `epsilon()` is 0. -/
def compareDistance32 (a e : Int) : Outcome Bool := do
  let d ← diff32 a e
  pure (decide (d ≤ 0) && decide (d ≥ -0))

/-- src/transform.cpp:198-201 (and :203-211 for the other axes): whether a raw coordinate after reprojection is taken for one
that did not fit (GDAL builds). -/
def looksClipped (raw : Int) : Outcome Bool := do
  let m ← compareDistance32 raw 2147483647
  if m then pure true else compareDistance32 raw (-2147483648)

end LibLAS.Moving
