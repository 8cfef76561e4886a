import Verif.Model.Reader
/-
src/detail/reader/cachedreader.cpp under `liblas::Reader` (src/reader.cpp), as made by `ReaderFactory::CreateCached`
(src/factory.cpp:74-90). Same conventions as `Reader`. The positions of the cache are `size_t`; arguments of type
`uint32_t` are taken modulo 2^32 where a `size_t` is passed.
-/
namespace LibLAS

/-- include/liblas/detail/reader/cachedreader.hpp:77-99. `mask` has one flag per point of the file, `cache` one slot per
cached point (`none`: a null pointer). The cached copies share the reader's header. -/
structure Cached where
  base : Reader
  cacheSize : Nat
  start : Nat
  readPos : Nat
  initialized : Bool
  mask : List Bool
  cache : List (Option (List Byte))

namespace Cached

/-- src/detail/reader/cachedreader.cpp:76-83: the size of the cache is at most the number of points; 0 means all. -/
def fitSize (c : Cached) : Cached :=
  let n := c.base.hdr.pointCount.toNat
  let size := if c.cacheSize = 0 then n else c.cacheSize
  { c with cacheSize := if size > n then n else size }

/-- src/detail/reader/cachedreader.cpp:62-93 and src/reader.cpp:70-74: open a stream. The mask is empty, so the `Reset`
called by `ReaderImpl::ReadHeader` is the one of `Reader.make`. -/
def make (env : Env) (today : BitVec 16 × BitVec 16) (s : IStream) (size : Nat) : Outcome Cached := do
  let r ← Reader.make env today s
  pure (fitSize ⟨r, size, 0, 0, false, [], []⟩)

/-- The loops `for (i = 0; i < k; ++i) m_mask[from + i] = 0` (src/detail/reader/cachedreader.cpp:105-108, :295-301);
the positions are within the mask. -/
def clearMarks (mask : List Bool) (first k : Nat) : List Bool :=
  mask.mapIdx fun i m => if first ≤ i ∧ i < first + k then false else m

/-- src/detail/reader/cachedreader.cpp:282-308 `Reset`. -/
def implReset (c : Cached) : Cached :=
  if c.mask = [] then { c with base := c.base.implReset }
  else
    { c with
      mask := clearMarks c.mask c.start (min c.cacheSize (c.base.hdr.pointCount.toNat - c.start))
      start := 0
      readPos := 0
      initialized := false
      base := c.base.implReset }

/-- src/reader.cpp:181-184 `Reset` on a cached reader: `ReadHeader` (src/detail/reader/cachedreader.cpp:71-93), which
reads the header again, sets the point's header, calls the virtual `Reset` and adjusts the cache size.
`Reader.reset` already includes one `ReaderImpl::Reset`; a second one changes nothing. -/
def reset (env : Env) (b : Build) (c : Cached) : Outcome Cached := do
  let r ← c.base.reset env b
  pure (fitSize (implReset { c with base := r }))

/-- src/detail/reader/cachedreader.cpp:310-319 `Seek`. -/
def implSeek (c : Cached) (n : Nat) : Cached × Outcome Unit :=
  let c := if n < 1 then c.implReset else c
  let c := { c with readPos := n }
  let (r, o) := c.base.implSeek n
  ({ c with base := r }, o)

/-- src/detail/reader/cachedreader.cpp:131-154 `ReadNextUncachedPoint`. Unlike `ReaderImpl::ReadNextPoint` it does not turn
`runtime_error` into `out_of_range`. -/
def _root_.LibLAS.Reader.readUncached (r : Reader) : Reader × Outcome Unit :=
  let r := if r.current = 0 then { r with ifs := r.ifs.clear.seek r.hdr.dataOffset.toNat } else r
  if r.current ≥ r.size then (r, .throw .outOfRange)
  else
    match r.readRecord with
    | (r, .ok ()) => (Reader.transform { r with current := r.current + 1 }, .ok ())
    | (r, o) => (r, o)

/-- The loop of src/detail/reader/cachedreader.cpp:118-128, from index `i` on. -/
def cacheLoop : Nat → Nat → Cached → Cached × Outcome Unit
  | 0, _, c => (c, .ok ())
  | k + 1, i, c =>
    if c.base.current ≥ c.mask.length then (c, .ub)
    else
      let c := { c with mask := c.mask.set c.base.current true }
      match c.base.readUncached with
      | (r, .ok ()) =>
        if i ≥ c.cache.length then ({ c with base := r }, .ub)
        else cacheLoop k (i + 1) { c with base := r, cache := c.cache.set i (some r.point) }
      | (r, .throw .outOfRange) => ({ c with base := r }, .ok ())
      | (r, o) => ({ c with base := r }, o)

/-- src/detail/reader/cachedreader.cpp:110-115: seek unless the reader is there. -/
def moveTo (c : Cached) (position : Nat) : Cached × Outcome Unit :=
  if c.base.current ≠ position then
    match c.implSeek position with
    | (c, .ok ()) => ({ c with base := { c.base with current := position } }, .ok ())
    | x => x
  else (c, .ok ())

/-- src/detail/reader/cachedreader.cpp:95-129 `CacheData`. -/
def cacheData (c : Cached) (position : Nat) : Cached × Outcome Unit :=
  let old := c.start
  let count := c.base.hdr.pointCount.toNat
  let left := min c.cacheSize (count - position)
  let toMark := min c.cacheSize (count - old)
  match moveTo { c with start := position, mask := clearMarks c.mask old toMark } position with
  | (c, .ok ()) => cacheLoop left 0 { c with readPos := position }
  | x => x

/-- `*m_point = *m_cache[cache_position]` with `int32_t cache_position = position - m_cache_start_position`: undefined
outside the cache or at a null pointer. -/
def fromCache (c : Cached) (position : Nat) : Cached × Outcome Unit :=
  let cp := Int.bmod ((position : Int) - c.start) (2 ^ 32)
  if cp < 0 then (c, .ub)
  else
    match c.cache[cp.toNat]? with
    | some (some p) => ({ c with base := { c.base with point := p } }, .ok ())
    | _ => (c, .ub)

/-- src/detail/reader/cachedreader.cpp:171-181: the cache and the mask are made at the first read. -/
def initCache (c : Cached) : Cached :=
  if c.initialized then c
  else
    { c with
      cache := List.replicate c.cacheSize none
      mask := List.replicate c.base.hdr.pointCount.toNat false
      initialized := true }

/-- src/detail/reader/cachedreader.cpp:156-223 `ReadCachedPoint`. After `CacheData` the cache position is
`position - m_cache_start_position` again, not negative; the error case `cache_position > m_cache.size()` cannot be
reached with it. -/
def readCached (c : Cached) (position : Nat) : Cached × Outcome Unit :=
  let position := position % 2 ^ 32
  let c := c.initCache
  match c.mask[position]? with
  | none => (c, .ub)
  | some true => ({ c with readPos := position } : Cached).fromCache position
  | some false =>
    match c.cacheData position with
    | (c, .ok ()) =>
      match c.mask[position]? with
      | some true => c.fromCache position
      | some false => (c, .throw .runtimeError)
      | none => (c, .ub)
    | x => x

/-- `++m_cache_read_position` after a successful `ReadCachedPoint`. -/
def readOn (c : Cached) : Cached × Outcome Unit :=
  match c.readCached c.readPos with
  | (c, .ok ()) => ({ c with readPos := c.readPos + 1 }, .ok ())
  | x => x

/-- The `while` loop of src/detail/reader/cachedreader.cpp:245-254. Result: `bLastPoint`. Every round moves the read
position; past the mask the read is undefined, so the fuel (see `implReadNext`) is enough. -/
def skipLoop : Nat → Cached → Cached × Outcome Bool
  | 0, c => (c, .ub)
  | fuel + 1, c =>
    if c.base.accepts then (c, .ok false)
    else
      match c.readOn with
      | (c, .ok ()) => if c.base.current = c.base.size then (c, .ok true) else skipLoop fuel c
      | (c, .throw e) => (c, .throw e)
      | (c, .ub) => (c, .ub)

/-- src/detail/reader/cachedreader.cpp:240-259: after a point the filters reject. -/
def afterReject (c : Cached) : Cached × Outcome Unit :=
  match c.readOn with
  | (c, .ok ()) =>
    match skipLoop (c.base.hdr.pointCount.toNat + 2) c with
    | (c, .ok last) => if last then (c, .throw .outOfRange) else (c, .ok ())
    | (c, .throw e) => (c, .throw e)
    | (c, .ub) => (c, .ub)
  | x => x

/-- src/detail/reader/cachedreader.cpp:225-260 `ReadNextPoint`. -/
def implReadNext (c : Cached) : Cached × Outcome Unit :=
  if c.readPos = c.base.size then (c, .throw .outOfRange)
  else
    match c.readOn with
    | (c, .ok ()) => if c.base.accepts then (c, .ok ()) else c.afterReject
    | x => x

/-- src/detail/reader/cachedreader.cpp:262-280 `ReadPointAt`. -/
def implReadAt (c : Cached) (n : Nat) : Cached × Outcome Unit :=
  if n ≥ c.base.size then (c, .throw .outOfRange)
  else
    match c.readCached n with
    | (c, .ok ()) => ({ c with readPos := n }, .ok ())
    | x => x

/-- `catch (std::out_of_range const&)` giving `false`. -/
def catchRange (x : Cached × Outcome Unit) : Cached × Outcome Bool :=
  match x with
  | (c, .ok ()) => (c, .ok true)
  | (c, .throw .outOfRange) => (c, .ok false)
  | (c, .throw e) => (c, .throw e)
  | (c, .ub) => (c, .ub)

/-- src/reader.cpp:112-124. -/
def readNext (c : Cached) : Cached × Outcome Bool := catchRange c.implReadNext

/-- src/reader.cpp:126-142. -/
def readAt (c : Cached) (n : Nat) : Cached × Outcome Bool :=
  if c.base.hdr.pointCount.toNat ≤ n then (c, .throw .outOfRange) else catchRange (c.implReadAt n)

/-- src/reader.cpp:144-157. -/
def seek (c : Cached) (n : Nat) : Cached × Outcome Bool := catchRange (c.implSeek n)

/-- src/detail/reader/cachedreader.cpp:321-325 `SetFilters`. -/
def setFilters (c : Cached) (fs : List (List Byte → Bool)) : Cached :=
  let c := c.implReset
  { c with base := c.base.setFilters fs }

/-- src/detail/reader/cachedreader.cpp:331-337 `SetTransforms`. -/
def setTransforms (c : Cached) (ts : List (List Byte → List Byte)) : Cached :=
  let c := c.implReset
  { c with base := c.base.setTransforms ts }

end Cached
end LibLAS
