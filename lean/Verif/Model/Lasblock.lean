import Verif.Model.Chipper
import Verif.Model.Kernel
/-
apps/lasblock.cpp with `--write-points`: the points of a file distributed over tiles. Output files are their contents, in
the order of creation; they are taken to be creatable and different from the input and from each other. Not modelled:
`--compressed`, progress messages, the text index written without `--write-points`.
-/
namespace LibLAS.Lasblock

/-- src/chipper.cpp:188-206, the loop of `Load` over the reader: the coordinates of the points delivered, with the number
of rounds still allowed. -/
def loadLoop (b : Build) : Nat → Reader → Outcome (Reader × List (Fl × Fl))
  | 0, _ => .ub
  | k + 1, r =>
    match r.readNext with
    | (r, .ok true) => do
      let x ← Point.getX b ⟨r.point, r.hdr.toP⟩
      let y ← Point.getY b ⟨r.point, r.hdr.toP⟩
      let (r, l) ← loadLoop b k r
      pure (r, (x, y) :: l)
    | (r, .ok false) => .ok (r, [])
    | (_, .throw e) => .throw e
    | (_, .ub) => .ub

/-- src/header.cpp:514-517 `SetExtent`, as far as the header of a file goes (`GetMinX` and the like are the bounds of the
extent per axis, 0 for an axis it does not have). -/
def withExtent (h : Header) (e : Bounds) : Header :=
  { h with
    min := Kernel.bits ⟨e.getMin 0, e.getMin 1, e.getMin 2⟩
    max := Kernel.bits ⟨e.getMax 0, e.getMax 1, e.getMax 2⟩ }

/-- apps/lasblock.cpp:122-131: the points with the given numbers are read and written. -/
def writeIds (b : Build) : List Nat → Reader → Writer → CoordinateSummary → Outcome (Reader × Writer × CoordinateSummary)
  | [], r, w, s => .ok (r, w, s)
  | i :: ids, r, w, s =>
    match r.readAt i with
    | (r, .ok true) => do
      let s ← s.addPoint b ⟨r.point, r.hdr.toP⟩
      let w ← w.writePoint r.point
      writeIds b ids r w s
    | (r, .ok false) => writeIds b ids r w s
    | (_, .throw e) => .throw e
    | (_, .ub) => .ub

/-- apps/lasblock.cpp:101-149, one round of the loop of `write_tiles`: a file is made with the bounds of the block in the
header, the points of the block are written, then the header of the file is read, repaired and written back. -/
def writeTile (env : Env) (today : BitVec 16 × BitVec 16) (b : Build) (st : Chipper.St) (h : Header) (r : Reader)
    (blk : Chipper.Block) : Outcome (Reader × List Byte) := do
  let w ← Writer.make env (OStream.onFile []) (withExtent h blk.bounds)
  let ids ← Chipper.getIDs st blk
  let (r, w, s) ← writeIds b ids r w CoordinateSummary.new
  let g ← Kernel.fetchHeader env today w.close.buf
  let g ← Kernel.repairHeader b s g
  let f ← Kernel.rewriteHeader env g w.close.buf
  pure (r, f)

/-- apps/lasblock.cpp:78-151 `write_tiles` (not compressed). -/
def writeTiles (env : Env) (today : BitVec 16 × BitVec 16) (b : Build) (st : Chipper.St) (h : Header) :
    Reader → List Chipper.Block → Outcome (List (List Byte))
  | _, [] => .ok []
  | r, blk :: blks => do
    let (r, f) ← writeTile env today b st h r blk
    let fs ← writeTiles env today b st h r blks
    pure (f :: fs)

/-- apps/lasblock.cpp:285-303: the reader, the chipper with the capacity (a `long`, converted to `uint32_t`,
include/liblas/chipper.hpp:121-125), the tiles. -/
def main (env : Env) (today : BitVec 16 × BitVec 16) (b : Build) (sort : Chipper.Sorter) (capacity : BitVec 64)
    (input : List Byte) : Outcome (List (List Byte)) := do
  let r ← Reader.make env today (IStream.onFile input)
  let (r, pts) ← loadLoop b (r.size + 1) r
  let st ← Chipper.chip sort { threshold := (capacity.setWidth 32).toNat } r.hdr.pointCount.toNat pts
  writeTiles env today b st r.hdr r st.blocks

end LibLAS.Lasblock
