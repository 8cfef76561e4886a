import Verif.Model.SchemaXml
import Verif.Model.Summary
import Verif.Model.CApi
/-
The trees and the XML text of point statistics: src/point.cpp (`GetPTree`), src/utility.cpp (`Summary::GetPTree`),
src/c_api.cpp (`LASReader_GetSummaryXML`), apps/laskernel.cpp (`SummarizeReader`). The text of a double (16 significant
digits, include/liblas/external/property_tree/stream_translator.hpp:94-99) is the parameter `real`.
-/
namespace LibLAS.Xml
open PTree

/-- Decimal text of a signed number (stream_translator.hpp:183-190 `put_value`; `signed char` is printed as a number,
:139-144). -/
def signed (i : Int) : List Byte := (Las2txt.intText i).map fun c => BitVec.ofNat 8 c.toNat

/-- A `bool` is printed as a word (stream_translator.hpp:112-117). -/
def word (b : Bool) : List Byte := if b then lit "true" else lit "false"

/-- Several `put` calls with plain keys, in order. -/
def putAll (t : PTree) (l : List (List Byte × List Byte)) : PTree := l.foldl (fun t e => t.put [e.1] e.2) t

/-- src/point.cpp:320-337: the tree of a classification. -/
def classTree (c : Classification) : Outcome PTree := do
  let name ← c.getClassName
  pure (putAll PTree.empty [(lit "name", lit name), (lit "id", num c.getClass.toNat), (lit "withheld", word c.isWithheld),
    (lit "keypoint", word c.isKeyPoint), (lit "synthetic", word c.isSynthetic)])

/-- src/point.cpp:341-346: the tree of a colour. -/
def colorTree (c : Color) : PTree :=
  putAll PTree.empty [(lit "red", num c.getRed.toNat), (lit "green", num c.getGreen.toNat), (lit "blue", num c.getBlue.toNat)]

/-- src/point.cpp:294-349 `Point::GetPTree`. -/
def pointTree (b : Build) (real : Fl → List Byte) (p : Point) : Outcome PTree := do
  let x ← p.getX b
  let y ← p.getY b
  let z ← p.getZ b
  let rx ← p.getRawX b
  let ry ← p.getRawY b
  let rz ← p.getRawZ b
  let t ← p.getTime b
  let i ← p.getIntensity b
  let rn ← p.getReturnNumber
  let nr ← p.getNumberOfReturns
  let sd ← p.getScanDirection
  let sa ← p.getScanAngleRank
  let fe ← p.getFlightLineEdge
  let ud ← p.getUserData
  let si ← p.getPointSourceID b
  let c ← p.getClassification
  let ct ← classTree c
  let col ← p.getColor b
  let pt := putAll PTree.empty [(lit "x", real x), (lit "y", real y), (lit "z", real z), (lit "rawx", signed rx.toInt),
    (lit "rawy", signed ry.toInt), (lit "rawz", signed rz.toInt), (lit "time", real (Fl.ofBits t)),
    (lit "intensity", num i.toNat), (lit "returnnumber", num rn.toNat), (lit "numberofreturns", num nr.toNat),
    (lit "scandirection", num sd.toNat), (lit "scanangle", signed sa.toInt), (lit "flightlineedge", num fe.toNat),
    (lit "userdata", num ud.toNat), (lit "pointsourceid", num si.toNat)]
  pure ((pt.addChild [] (lit "classification") ct).addChild [] (lit "color") (colorTree col))

/-- The loops of src/utility.cpp:337-349, :356-368 and :378-384: for every counter that is not zero, the values are put
into the one local tree and a copy of it is added as a child `item` of `group`. -/
def listCounts (group item : List Byte) (fields : Nat → BitVec 32 → Outcome (List (List Byte × List Byte))) :
    List (BitVec 32 × Nat) → PTree → PTree → Outcome PTree
  | [], _, pt => .ok pt
  | (c, i) :: r, tmp, pt =>
    if c ≠ 0 then do
      let fs ← fields i c
      let tmp := putAll tmp fs
      listCounts group item fields r tmp (pt.addChild [group] item tmp)
    else listCounts group item fields r tmp pt

/-- src/utility.cpp:341-346: the entry of a class. -/
def classFields (i : Nat) (c : BitVec 32) : Outcome (List (List Byte × List Byte)) := do
  let k ← Classification.make (BitVec.ofNat 32 i) false false false
  let name ← k.getClassName
  pure [(lit "name", lit name), (lit "count", num c.toNat), (lit "id", num i)]

/-- src/utility.cpp:362-363, :380-381: the entry of a return number or of a number of returns. -/
def countFields (i : Nat) (c : BitVec 32) : Outcome (List (List Byte × List Byte)) :=
  .ok [(lit "id", num i), (lit "count", num c.toNat)]

/-- src/utility.cpp:354-375: points by return; return number 0 is left out, and without any other all points are taken
for first returns. -/
def putReturns (s : Summary) (pt : PTree) : Outcome PTree :=
  let rs := s.pointsByReturn.zipIdx.drop 1
  if rs.any (fun e => e.1 != 0) then
    listCounts (lit "points_by_return") (lit "return") countFields rs PTree.empty pt
  else .ok (pt.addChild [lit "points_by_return"] (lit "return")
    (putAll PTree.empty [(lit "id", num 1), (lit "count", num s.count.toNat)]))

/-- src/utility.cpp:323-391 `Summary::GetPTree` without a header given; before the first point `minimum` and `maximum` are
null pointers. -/
def summaryTree (b : Build) (real : Fl → List Byte) (s : Summary) : Outcome PTree :=
  match s.ext with
  | none => .ub
  | some e => do
    let pmin ← pointTree b real e.minimum
    let pmax ← pointTree b real e.maximum
    let pt := (PTree.empty.addChild [] (lit "minimum") pmin).addChild [] (lit "maximum") pmax
    let pt ← listCounts (lit "classification") (lit "classification") classFields s.classes.zipIdx PTree.empty pt
    let pt := pt.put [lit "encoding", lit "withheld"] (num s.withheld.toNat)
    let pt := pt.put [lit "encoding", lit "keypoint"] (num s.keypoint.toNat)
    let pt := pt.put [lit "encoding", lit "synthetic"] (num s.synthetic.toNat)
    let pt ← putReturns s pt
    let pt ← listCounts (lit "returns_of_given_pulse") (lit "pulse") countFields s.returnsOfPulse.zipIdx PTree.empty pt
    let pt := pt.put [lit "count"] (num s.count.toNat)
    pure (PTree.empty.addChild [lit "summary"] (lit "points") pt)

/-- src/c_api.cpp:451-456, apps/laskernel.cpp:1459-1464: the loop over the points, with the number of turns still
allowed; the first has been read. -/
def summaryLoop (b : Build) : Nat → Reader → Summary → Outcome (Reader × Summary)
  | 0, _, _ => .ub
  | k + 1, r, s => do
    let s ← s.addPoint b ⟨r.point, r.hdr.toP⟩
    match r.readNext with
    | (r, .ok true) => summaryLoop b k r s
    | (r, .ok false) => .ok (r, s)
    | (_, .throw e) => .throw e
    | (_, .ub) => .ub

/-- `minimum` and `maximum` point to the header object of the reader (src/utility.cpp:120-121, src/point.cpp:75-80), which
a reset fills anew. -/
def rehome (h : PHeader) (s : Summary) : Summary :=
  { s with ext := s.ext.map fun e => ⟨{ e.minimum with hdr := h }, { e.maximum with hdr := h }⟩ }

/-- src/c_api.cpp:436-466 `LASReader_GetSummaryXML` (`none`: a null handle): the text, the reader and the error stack
after the call. There is no `try` around it: exceptions leave the function. -/
def summaryXml (env : Env) (b : Build) (real : Fl → List Byte) (handle : Option Reader) (st : CApi.Errors) :
    Outcome (Option (List Byte) × Option Reader × CApi.Errors) :=
  match handle with
  | none => .ok (none, none, CApi.nullError st "hReader" "LASReader_GetSummaryXML")
  | some r => do
    let r ← r.reset env b
    match r.readNext with
    | (r, .ok true) => do
      let (r, s) ← summaryLoop b (r.size + 1) r Summary.new
      let r ← r.reset env b
      let t ← summaryTree b real (rehome r.hdr.toP s)
      pure (some (cstr (writeXml t)), some r, st)
    | (r, .ok false) =>
      .ok (none, some r, CApi.pushError st CApi.Code.failure.num (lit "Unable to read point") (lit "LASReader_GetSummaryXML"))
    | (_, .throw e) => .throw e
    | (_, .ub) => .ub

end LibLAS.Xml
