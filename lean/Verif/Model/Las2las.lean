import Verif.Model.Kernel
/-
apps/las2las.cpp: the translation loop. Output files are their contents, in the order of creation; the name of the
k-th output of a split run is `splitName`. Output files are taken to be creatable, different from the input and from
each other. Progress messages are not modelled.
-/
namespace LibLAS.Las2las

/-- What the command line fixes, apart from the changes to the header. -/
structure Opts where
  filters : List (List Byte → Bool)
  transforms : List (List Byte → List Byte)
  splitMb : BitVec 32
  splitPts : BitVec 32
  minOffset : Bool

/-- apps/las2las.cpp:113-115, :170-174, :203-207: `output.substr(0, output.find_first_of("."))`, `-`, the number,
`.las`. -/
def splitName (output : List Char) (k : Nat) : List Char :=
  output.takeWhile (· ≠ '.') ++ '-' :: (toString k).toList ++ ['.', 'l', 'a', 's']

/-- The state of the loop: `done` are the finished files. -/
structure Run where
  reader : Reader
  done : List (List Byte)
  writer : Writer
  summary : CoordinateSummary
  bytes : BitVec 32
  points : BitVec 32

/-- apps/las2las.cpp:135, :191 `1024*1024*split_mb` as `int32_t` (the product is a `uint32_t`). -/
def budget (o : Opts) : BitVec 32 := 1048576#32 * o.splitMb

/-- apps/las2las.cpp:142-153: the bytes handed to `WritePoint`. With `--min-offset` a copy of the point is re-homed to
the output header first. -/
def recordFor (b : Build) (o : Opts) (src : PHeader) (h : Header) (d : List Byte) : Outcome (List Byte) :=
  if o.minOffset then do
    let q ← Point.setHeader b ⟨d, src⟩ h.toP
    pure q.data
  else .ok d

/-- apps/las2las.cpp:142-160: one point read; summary, output, counters. `split_bytes_count` is an `int32_t` from which
a `size_t` is subtracted and the result converted back. -/
def emit (b : Build) (o : Opts) (h : Header) (s : Run) : Outcome Run := do
  let sum ← s.summary.addPoint b ⟨s.reader.point, s.reader.hdr.toP⟩
  let d ← recordFor b o s.reader.hdr.toP h s.reader.point
  let w ← s.writer.writePoint d
  pure { s with
    summary := sum
    writer := w
    bytes := s.bytes - BitVec.ofNat 32 h.schema.byteSize
    points := s.points + 1 }

/-- apps/las2las.cpp:167-189 (and :200-222): the file is closed, the next one started, then the header of the closed
file is read, repaired and written back. -/
def rollOver (env : Env) (today : BitVec 16 × BitVec 16) (b : Build) (h : Header) (s : Run) : Outcome Run := do
  let old := s.writer.close.buf
  let w ← Writer.make env (OStream.onFile []) h
  let g ← Kernel.fetchHeader env today old
  let g ← Kernel.repairHeader b s.summary g
  let f ← Kernel.rewriteHeader env g old
  pure { s with
    done := s.done ++ [f]
    writer := w
    summary := CoordinateSummary.new }

/-- apps/las2las.cpp:161-192. -/
def splitBytes (env : Env) (today : BitVec 16 × BitVec 16) (b : Build) (o : Opts) (h : Header) (s : Run) : Outcome Run :=
  if s.bytes.slt 0 ∧ 0 < o.splitMb.toNat ∧ o.splitPts = 0 then do
    let s ← rollOver env today b h s
    pure { s with bytes := budget o }
  else .ok s

/-- apps/las2las.cpp:194-223. -/
def splitPoints (env : Env) (today : BitVec 16 × BitVec 16) (b : Build) (o : Opts) (h : Header) (s : Run) : Outcome Run :=
  if 0 < o.splitPts.toNat ∧ o.splitMb = 0 ∧ s.points = o.splitPts then do
    let s ← rollOver env today b h s
    pure { s with points := 0 }
  else .ok s

/-- One round of the loop after a point was read, apps/las2las.cpp:141-224. -/
def round (env : Env) (today : BitVec 16 × BitVec 16) (b : Build) (o : Opts) (h : Header) (s : Run) : Outcome Run := do
  let s ← emit b o h s
  let s ← splitBytes env today b o h s
  splitPoints env today b o h s

/-- apps/las2las.cpp:140-226 `while (reader.ReadNextPoint())`, with the number of rounds still allowed. -/
def loop (env : Env) (today : BitVec 16 × BitVec 16) (b : Build) (o : Opts) (h : Header) : Nat → Run → Outcome Run
  | 0, _ => .ub
  | k + 1, s =>
    match s.reader.readNext with
    | (r, .ok true) => do
      let s ← round env today b o h { s with reader := r }
      loop env today b o h k s
    | (r, .ok false) => .ok { s with reader := r }
    | (_, .throw e) => .throw e
    | (_, .ub) => .ub

/-- apps/las2las.cpp:60-107: with `--min-offset` the offset of the output header becomes the minimum of the coordinates,
and the reader is reset. Without reprojection the transforms stay as they are. -/
def chooseOffset (env : Env) (b : Build) (o : Opts) (r : Reader) (h : Header) : Outcome (Reader × Header) :=
  if o.minOffset then do
    let (r, s) ← Kernel.summarizeReader env b r
    match s.ext with
    | none => .ub
    | some e => do
      let lo ← Kernel.textCoords b e.minimum
      let r ← r.reset env b
      pure (r, { h with offset := Kernel.bits lo })
  else .ok (r, h)

/-- apps/las2las.cpp:228-242: the last file is closed; if the output was not split its header is repaired. -/
def finish (env : Env) (today : BitVec 16 × BitVec 16) (b : Build) (o : Opts) (s : Run) : Outcome (List (List Byte)) :=
  let last := s.writer.close.buf
  if o.splitMb = 0 ∧ o.splitPts = 0 then do
    let _ ← s.reader.reset env b
    let g ← Kernel.fetchHeader env today last
    let g ← Kernel.repairHeader b s.summary g
    let f ← Kernel.rewriteHeader env g last
    pure (s.done ++ [f])
  else .ok (s.done ++ [last])

/-- apps/las2las.cpp:44-239 `process`: the output files. `h` is the header prepared by `main`. -/
def process (env : Env) (today : BitVec 16 × BitVec 16) (b : Build) (o : Opts) (input : List Byte) (h : Header) :
    Outcome (List (List Byte)) := do
  let r ← Reader.make env today (IStream.onFile input)
  let r := (r.setFilters o.filters).setTransforms o.transforms
  let (r, h) ← chooseOffset env b o r h
  let w ← Writer.make env (OStream.onFile []) h
  let s ← loop env today b o h (r.size + 1) ⟨r, [], w, CoordinateSummary.new, budget o, 0⟩
  finish env today b o s

/-- apps/las2las.cpp:257-377 `main`, from the input file on: the header of the input, changed by `edit` (the header
options), marked uncompressed (:349-356 with apps/laskernel.cpp:133-171, for an output not named `.laz`). -/
def main (env : Env) (today : BitVec 16 × BitVec 16) (b : Build) (o : Opts) (edit : Header → Outcome Header)
    (input : List Byte) : Outcome (List (List Byte)) := do
  if 0 < o.splitPts.toNat ∧ 0 < o.splitMb.toNat then .throw .runtimeError
  else do
    let h ← Kernel.fetchHeader env today input
    let h ← edit h
    process env today b o input { h with compressed := false }

end LibLAS.Las2las
