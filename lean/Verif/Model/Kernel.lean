import Verif.Model.Reader
import Verif.Model.Summary
import Verif.Model.FloatText
/-
apps/laskernel.cpp: reading a header, repairing it from statistics, writing it back; statistics of a reader.
A file is its content; opening a file that exists is taken to succeed.
-/
namespace LibLAS.Kernel

/-- apps/laskernel.cpp:173-187 `FetchHeader` (`ReaderFactory::CreateWithStream`, src/factory.cpp:87-107, reads the
header once more than `Reader.make`, with the same outcome). -/
def fetchHeader (env : Env) (today : BitVec 16 × BitVec 16) (file : List Byte) : Outcome Header := do
  let r ← Reader.make env today (IStream.onFile file)
  pure r.hdr

/-- apps/laskernel.cpp:188-201 `RewriteHeader`: a writer on the existing file, closed at once. -/
def rewriteHeader (env : Env) (h : Header) (file : List Byte) : Outcome (List Byte) := do
  let w ← Writer.make env (OStream.onFile file) h
  pure w.close.buf

/-- `tree.get<double>("summary.points.minimum.x")` and the like after src/point.cpp:294-301 `pt.put("x", GetX())`:
coordinates that went through text. -/
def textCoords (b : Build) (p : Point) : Outcome (Vec3 Fl) := do
  let x ← p.getX b
  let y ← p.getY b
  let z ← p.getZ b
  let x ← x.viaText
  let y ← y.viaText
  let z ← z.viaText
  pure ⟨x, y, z⟩

/-- The doubles as stored in a header. -/
def bits (v : Vec3 Fl) : Vec3 (BitVec 64) := ⟨v.x.toBits, v.y.toBits, v.z.toBits⟩

/-- src/utility.cpp:699-722: the entries `points_by_return.return` of the tree, with their ids and counts. -/
def returnEntries (s : CoordinateSummary) : List (Nat × BitVec 32) :=
  let es := (List.range 8).filterMap fun i =>
    if i = 0 then none
    else if s.pointsByReturn.getD i 0 ≠ 0 then some (i, s.pointsByReturn.getD i 0) else none
  if es = [] then [(1, s.count)] else es

/-- apps/laskernel.cpp:237-242: `header.SetPointRecordsByReturnCount(i-1, count)` for each entry. -/
def setReturns : List (Nat × BitVec 32) → Header → Outcome Header
  | [], h => .ok h
  | (i, c) :: es, h => do
    let h ← HeaderReader.set (h.setByReturn (i - 1) c)
    setReturns es h

/-- apps/laskernel.cpp:206-209 and :231-234: the five counts set to zero. -/
def clearReturns (h : Header) : Outcome Header := setReturns [(1, 0), (2, 0), (3, 0), (4, 0), (5, 0)] h

/-- apps/laskernel.cpp:203-252 `RepairHeader`. The tree is built from `minimum` and `maximum` of the summary, null
before the first point. `ptree_bad_path` cannot occur (the tree has all these paths); other exceptions leave the
function. -/
def repairHeader (b : Build) (s : CoordinateSummary) (h : Header) : Outcome Header :=
  if h.pointCount = 0 then .ok h
  else do
    let h ← clearReturns h
    match s.ext with
    | none => .ub
    | some e => do
      let lo ← textCoords b e.minimum
      let hi ← textCoords b e.maximum
      let h ← clearReturns { h with min := bits lo, max := bits hi }
      setReturns (returnEntries s) h

/-- The loop of apps/laskernel.cpp:1458-1463, with the number of rounds still allowed. -/
def summarizeLoop (b : Build) : Nat → Reader → Summary → Outcome (Reader × Summary)
  | 0, _, _ => .ub
  | k + 1, r, s => do
    let s ← s.addPoint b ⟨r.point, r.hdr.toP⟩
    match r.readNext with
    | (r, .ok true) => summarizeLoop b k r s
    | (r, .ok false) => .ok (r, s)
    | (_, .throw e) => .throw e
    | (_, .ub) => .ub

/-- apps/laskernel.cpp:1448-1468 `SummarizeReader`. A reader gives at most `m_size` points, see
`Props/Las2las.lean`. -/
def summarizeReader (env : Env) (b : Build) (r : Reader) : Outcome (Reader × Summary) := do
  let r ← r.reset env b
  match r.readNext with
  | (r', .ok true) => summarizeLoop b (r.size + 1) r' Summary.new
  | (_, .ok false) => .throw .runtimeError
  | (_, .throw e) => .throw e
  | (_, .ub) => .ub

end LibLAS.Kernel
