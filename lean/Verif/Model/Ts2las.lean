import Verif.Model.Writer
import Verif.Model.Reader
import Verif.Model.FloatText
/-
apps/ts2las.cpp and apps/ts2las.hpp: TerraScan `.bin` files to LAS. Little-endian host (`LIBLAS_SWAP_BYTES` does nothing),
release build (`check_stream_state` does nothing). Not modelled: the command line, verbose output, and the filters, which are
handed to the writer (apps/ts2las.cpp:369) that never looks at them.
-/
namespace LibLAS.Ts2las

/-- apps/ts2las.hpp:74-115 `ScanHdr`, 56 bytes. The field `HdrSize` is never used. -/
structure ScanHdr where
  version : BitVec 32
  tunniste : BitVec 32
  magic : List Byte
  pntCnt : BitVec 32
  units : BitVec 32
  org : Vec3 (BitVec 64)
  time : BitVec 32
  color : BitVec 32
  deriving DecidableEq, Repr

/-- Bytes of an object in memory: `n` from `off`. -/
def part (bs : List Byte) (off n : Nat) : List Byte := (bs.drop off).take n

/-- The fields of the 56 bytes of a `ScanHdr`. -/
def ScanHdr.ofBytes (bs : List Byte) : ScanHdr where
  version := got 32 (part bs 4 4)
  tunniste := got 32 (part bs 8 4)
  magic := part bs 12 4
  pntCnt := got 32 (part bs 16 4)
  units := got 32 (part bs 20 4)
  org := ⟨got 64 (part bs 24 8), got 64 (part bs 32 8), got 64 (part bs 40 8)⟩
  time := got 32 (part bs 48 4)
  color := got 32 (part bs 52 4)

/-- apps/ts2las.cpp:134-156 `ReadHeader` into a header of zeros (apps/ts2las.hpp:76-90). -/
def readHeader (s : IStream) : Outcome (Bool × ScanHdr × IStream) :=
  match s.readN (List.replicate 56 0#8) with
  | .ok (bs, s) =>
    let h := ScanHdr.ofBytes bs
    if h.tunniste ≠ 970401 then .ok (false, h, s)
    else if h.magic ≠ lit "CXYZ" then .ok (false, h, s)
    else if h.version = 970404 then .ok (true, h, s)
    else if h.version = 20010129 then .ok (true, h, s)
    else if h.version = 20010712 then .ok (true, h, s)
    else if h.version = 20020715 then .ok (true, h, s)
    else .ok (decide (h.version.toInt > 20020715) && decide (h.version.toInt < 20051231), h, s)
  | .throw _ => .ok (false, ScanHdr.ofBytes (List.replicate 56 0#8), s)
  | .ub => .ub

/-- apps/ts2las.cpp:89-100: the point format. -/
def formatFor (h : ScanHdr) : PointFormat :=
  if h.time ≠ 0 then (if h.color ≠ 0 then .f3 else .f1)
  else if h.color ≠ 0 then .f2 else .f0

/-- apps/ts2las.cpp:104: one unit. -/
def scaleOf (h : ScanHdr) : Fl := Fl.div (.fin 1) (Fl.ofInt32 h.units)

/-- apps/ts2las.cpp:106: the offset of an axis. The sign of a zero is not kept. -/
def offsetOf (h : ScanHdr) (org : BitVec 64) : Fl := Fl.mul (Fl.neg (Fl.ofBits org)) (scaleOf h)

/-- apps/ts2las.cpp:85-132 `CreateHeader`; `today` is the date put in by the constructor of the header. -/
def createHeader (today : BitVec 16 × BitVec 16) (h : ScanHdr) : Header :=
  let d := Header.new today.1 today.2
  let d := (d.setVersionMinor 2).1
  let d := (d.setDataFormatId (formatFor h)).1
  let s := (scaleOf h).toBits
  { d with scale := ⟨s, s, s⟩,
           offset := ⟨(offsetOf h h.org.x).toBits, (offsetOf h h.org.y).toBits, (offsetOf h h.org.z).toBits⟩,
           pointCount := h.pntCnt }

/-- apps/ts2las.hpp:52-71 `ScanPnt`, 20 bytes, without the fields that are never used (`Flag`, `Mark`, `Line`). -/
structure ScanPnt where
  x : BitVec 32
  y : BitVec 32
  z : BitVec 32
  code : BitVec 8
  echo : BitVec 8
  intensity : BitVec 16
  deriving DecidableEq, Repr

/-- The fields of the 20 bytes of a `ScanPnt` (apps/ts2las.hpp:38-71). -/
def ScanPnt.ofBytes (bs : List Byte) : ScanPnt where
  x := got 32 (part bs 0 4)
  y := got 32 (part bs 4 4)
  z := got 32 (part bs 8 4)
  code := got 8 (part bs 12 1)
  echo := got 8 (part bs 13 1)
  intensity := got 16 (part bs 18 2)

/-- The fields of the 16 bytes of a `ScanRow` (apps/ts2las.hpp:16-35), copied as in apps/ts2las.cpp:188-194. -/
def ScanPnt.ofRow (bs : List Byte) : ScanPnt where
  x := got 32 (part bs 4 4)
  y := got 32 (part bs 8 4)
  z := got 32 (part bs 12 4)
  code := got 8 (part bs 0 1)
  echo := (got 16 (part bs 2 2) >>> 14).setWidth 8
  intensity := got 16 (part bs 2 2) &&& 0x3FFF

/-- apps/ts2las.cpp:167-195: the next point. `old` are the bytes of `*point` or `*row` from the round before: a short read
replaces only some of them. -/
def nextPoint (h : ScanHdr) (s : IStream) (old : List Byte) : Outcome (ScanPnt × List Byte × IStream) := do
  let (bs, s) ← s.readN old
  pure (if h.version = 20020715 then ScanPnt.ofBytes bs else ScanPnt.ofRow bs, bs, s)

/-- The size of `*point` or `*row`, both constructed as zeros (apps/ts2las.cpp:160-161). -/
def pointSize (h : ScanHdr) : Nat := if h.version = 20020715 then 20 else 16

/-- apps/ts2las.cpp:207-216: the time stamp. `0.0002` is the double next to it. -/
def readTime (b : Build) (h : ScanHdr) (s : IStream) (p : Point) : Outcome (Point × IStream) :=
  if h.time ≠ 0 then do
    let (bs, s) ← s.readN [0xFF, 0xFF, 0xFF, 0xFF]
    let t := got 32 bs
    let p ← p.setTime b (Fl.mul (.fin t.toNat) (Fl.ofRat (1 / 5000))).toBits
    pure (p, s)
  else .ok (p, s)

/-- apps/ts2las.cpp:217-232: the colour. The variables `r`, `b` and `g` hold nothing before; a short read makes the read after it
throw, so what they would keep is never used. -/
def readColor (b : Build) (h : ScanHdr) (s : IStream) (p : Point) : Outcome (Point × IStream) :=
  if h.color ≠ 0 then do
    let (red, s) ← s.readN [0#8]
    let (blue, s) ← s.readN [0#8]
    let (green, s) ← s.readN [0#8]
    let (_, s) ← s.readN [0#8]
    let c := Color.black.setGreen ((got 8 green).setWidth 16)
    let c := c.setBlue ((got 8 blue).setWidth 16)
    let c := c.setRed ((got 8 red).setWidth 16)
    let p ← p.setColor b c
    pure (p, s)
  else .ok (p, s)

/-- apps/ts2las.cpp:242-256: the returns. -/
def setEcho (echo : BitVec 8) (p : Point) : Outcome Point :=
  if echo = 0 then do
    let p ← p.setNumberOfReturns 1
    p.setReturnNumber 1
  else if echo = 1 then p.setReturnNumber 1
  else if echo = 3 then do
    let p ← p.setReturnNumber 2
    p.setNumberOfReturns 2
  else do
    let p ← p.setReturnNumber 2
    p.setNumberOfReturns 3

/-- apps/ts2las.cpp:196-206: a point of the writer's header with coordinates, class and intensity. -/
def startPoint (b : Build) (ph : PHeader) (q : ScanPnt) : Outcome Point := do
  let p ← (Point.new ph).setRawX b q.x
  let p ← p.setRawY b q.y
  let p ← p.setRawZ b q.z
  let p ← p.setClassification ⟨q.code⟩
  p.setIntensity b q.intensity

/-- apps/ts2las.cpp:258-263: a standard exception of the writer is reported on the console, and the loop goes on. -/
def tryWrite (w : Writer) (p : Point) : Outcome Writer :=
  match w.writePoint p.data with
  | .throw _ => .ok w
  | o => o

/-- apps/ts2las.cpp:164-268: the loop, `n` rounds of it. -/
def loop (b : Build) (h : ScanHdr) : Nat → Writer → IStream → List Byte → Outcome Writer
  | 0, w, _, _ => .ok w
  | n + 1, w, s, old => do
    let (q, old, s) ← nextPoint h s old
    let p ← startPoint b w.hdr.toP q
    let (p, s) ← readTime b h s p
    let (p, s) ← readColor b h s p
    let p ← setEcho q.echo p
    let w ← tryWrite w p
    loop b h n w s old

/-- apps/ts2las.cpp:164: the number of rounds, `static_cast<std::size_t>` of a signed number. -/
def rounds (h : ScanHdr) : Nat := (h.pntCnt.signExtend 64).toNat

/-- apps/ts2las.cpp:291-385 `main` for an input file and an output file that can be opened: the bytes of the output file. An
exception thrown in the loop is not caught and ends the program. A refused header (`return 1`) is a `runtimeError` here. -/
def main (env : Env) (today : BitVec 16 × BitVec 16) (b : Build) (input : List Byte) : Outcome (List Byte) := do
  let (good, h, s) ← readHeader (IStream.onFile input)
  if good = false then .throw .runtimeError
  else do
    let w ← Writer.make env (OStream.onFile []) (createHeader today h)
    let w ← loop b h (rounds h) w s (List.replicate (pointSize h) 0#8)
    pure w.close.buf

end LibLAS.Ts2las
