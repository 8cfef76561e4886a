import Verif.Model.Point
/-
src/utility.cpp, include/liblas/utility.hpp: `Summary` and `CoordinateSummary`, the accumulation part
(`Summary::GetPTree` is in Model/SummaryXml; `operator<<` is not modelled). Counters are `uint32_t`.
-/
namespace LibLAS

/-- The pair of points `minimum`, `maximum`. -/
structure Extremes where
  minimum : Point
  maximum : Point
  deriving DecidableEq, Repr

namespace Extremes

/-- `if (c) p.Set...(v)`. -/
def upd (c : Bool) (set : Point → Outcome Point) (p : Point) : Outcome Point := if c then set p else .ok p

/-- The pattern of src/utility.cpp:162-225: `if (p.Get() < minimum->Get()) minimum->Set(p.Get());
if (p.Get() > maximum->Get()) maximum->Set(p.Get());`. -/
def step {α : Type} (get : Point → Outcome α) (set : Point → α → Outcome Point) (lt : α → α → Bool) (p : Point)
    (e : Extremes) : Outcome Extremes := do
  let v ← get p
  let lo ← get e.minimum
  let mn ← upd (lt v lo) (fun q => set q v) e.minimum
  let hi ← get e.maximum
  let mx ← upd (lt hi v) (fun q => set q v) e.maximum
  pure ⟨mn, mx⟩

/-- Signed comparison (`int32_t`, `int8_t`). -/
def slt {n : Nat} (a b : BitVec n) : Bool := decide (a.toInt < b.toInt)
/-- Unsigned comparison (`uint16_t`, `uint8_t`). -/
def ult {n : Nat} (a b : BitVec n) : Bool := decide (a.toNat < b.toNat)
/-- Comparison of GPS times (`double`). -/
def dlt (a b : BitVec 64) : Bool := Fl.lt (Fl.ofBits a) (Fl.ofBits b)

/-- src/utility.cpp:162-175 (and :651-664): raw coordinates. -/
def stepCoords (b : Build) (p : Point) (e : Extremes) : Outcome Extremes := do
  let e ← step (Point.getRawX b) (Point.setRawX b) slt p e
  let e ← step (Point.getRawY b) (Point.setRawY b) slt p e
  step (Point.getRawZ b) (Point.setRawZ b) slt p e

/-- src/utility.cpp:182-188. -/
def stepTime (b : Build) (haveTime : Bool) (p : Point) (e : Extremes) : Outcome Extremes :=
  if haveTime then step (Point.getTime b) (Point.setTime b) dlt p e else .ok e

/-- src/utility.cpp:228-242: the class; `Classification(minc)` has no flags set. -/
def stepClass (p : Point) (e : Extremes) : Outcome Extremes := do
  let cls ← p.getClassification
  let lo ← e.minimum.getClassification
  let hi ← e.maximum.getClassification
  let minc := if ult lo.getClass cls.getClass then lo.getClass else cls.getClass
  let maxc := if ult hi.getClass cls.getClass then cls.getClass else hi.getClass
  let mn ← upd (ult minc lo.getClass) (fun q => q.setClassification ⟨minc⟩) e.minimum
  let mx ← upd (ult hi.getClass maxc) (fun q => q.setClassification ⟨maxc⟩) e.maximum
  pure ⟨mn, mx⟩

/-- src/utility.cpp:244-300. -/
def stepColor (b : Build) (haveColor : Bool) (p : Point) (e : Extremes) : Outcome Extremes :=
  if haveColor then do
    let c ← p.getColor b
    let lo ← e.minimum.getColor b
    let hi ← e.maximum.getColor b
    let setMin := ult c.getRed lo.getRed || ult c.getGreen lo.getGreen || ult c.getBlue lo.getBlue
    let newMin : Color := ⟨if ult c.getRed lo.getRed then c.getRed else lo.getRed,
      if ult c.getGreen lo.getGreen then c.getGreen else lo.getGreen,
      if ult c.getBlue lo.getBlue then c.getBlue else lo.getBlue⟩
    let setMax := ult hi.getRed c.getRed || ult hi.getGreen c.getGreen || ult hi.getBlue c.getBlue
    let newMax : Color := ⟨if ult hi.getRed c.getRed then c.getRed else hi.getRed,
      if ult hi.getGreen c.getGreen then c.getGreen else hi.getGreen,
      if ult hi.getBlue c.getBlue then c.getBlue else hi.getBlue⟩
    let mn ← upd setMin (fun q => q.setColor b newMin) e.minimum
    let mx ← upd setMax (fun q => q.setColor b newMax) e.maximum
    pure ⟨mn, mx⟩
  else .ok e

/-- src/utility.cpp:162-300: all attributes, in the order of the code. -/
def stepAll (b : Build) (haveTime haveColor : Bool) (p : Point) (e : Extremes) : Outcome Extremes := do
  let e ← stepCoords b p e
  let e ← step (Point.getIntensity b) (Point.setIntensity b) ult p e
  let e ← stepTime b haveTime p e
  let e ← step Point.getReturnNumber Point.setReturnNumber ult p e
  let e ← step Point.getNumberOfReturns Point.setNumberOfReturns ult p e
  let e ← step Point.getScanDirection Point.setScanDirection ult p e
  let e ← step Point.getFlightLineEdge Point.setFlightLineEdge ult p e
  let e ← step Point.getScanAngleRank Point.setScanAngleRank slt p e
  let e ← step Point.getUserData Point.setUserData ult p e
  let e ← step (Point.getPointSourceID b) (Point.setPointSourceID b) ult p e
  let e ← stepClass p e
  stepColor b haveColor p e

end Extremes

/-- `a[i]++` on a `boost::array<uint32_t, n>`; outside the array it is undefined. -/
def bump (a : List (BitVec 32)) (i : Nat) : Outcome (List (BitVec 32)) :=
  if i < a.length then .ok (a.modify i (· + 1)) else .ub

/-- include/liblas/utility.hpp:65-95 `Summary`. `header` is `m_header` when `bHaveHeader` (only the part points use);
`ext` is `none` while `first`. -/
structure Summary where
  classes : List (BitVec 32)
  synthetic : BitVec 32
  withheld : BitVec 32
  keypoint : BitVec 32
  count : BitVec 32
  pointsByReturn : List (BitVec 32)
  returnsOfPulse : List (BitVec 32)
  ext : Option Extremes
  header : Option PHeader
  haveColor : Bool
  haveTime : Bool
  deriving DecidableEq, Repr

namespace Summary

/-- src/utility.cpp:52-68. -/
def new : Summary :=
  ⟨List.replicate 32 0, 0, 0, 0, 0, List.replicate 8 0, List.replicate 8 0, none, none, true, true⟩

/-- src/utility.cpp:307-315 `SetHeader`, before the first point. -/
def setHeader (s : Summary) (h : PHeader) : Summary := { s with header := some h }

/-- src/utility.cpp:117-131: the first point is copied; with a header given, both copies are re-homed to it. -/
def firstPair (b : Build) (header : Option PHeader) (p : Point) : Outcome Extremes :=
  match header with
  | none => .ok ⟨p, p⟩
  | some h => do
    let mx ← p.setHeader b h
    let mn ← p.setHeader b h
    pure ⟨mn, mx⟩

/-- src/utility.cpp:133-140: `m_header`, to which minimum and maximum point when a header was given, then takes scale
and offset of the first point (their raw coordinates are not converted). Simplification: the data format of the given
header is that of the points, otherwise :139-140 would rebuild its schema. -/
def adoptScaling (given : Option PHeader) (p : Point) (e : Extremes) : Extremes :=
  match given with
  | none => e
  | some h =>
    let h' : PHeader := ⟨h.fmt, h.recLen, h.hasTimeDim, h.hasRedDim, p.hdr.scale, p.hdr.offset⟩
    ⟨{ e.minimum with hdr := h' }, { e.maximum with hdr := h' }⟩

/-- src/utility.cpp:115-160: state of `minimum`, `maximum`, `bHaveColor`, `bHaveTime` before the comparisons.
`bHaveColor` needs the dimensions Red, Green and Blue; `PHeader` only records Red (simplification: a schema with Red
has the other two). -/
def prepare (b : Build) (s : Summary) (p : Point) : Outcome (Extremes × Bool × Bool) :=
  match s.ext with
  | some e => .ok (e, s.haveTime, s.haveColor)
  | none => do
    let e ← firstPair b s.header p
    pure (adoptScaling s.header p e, p.hdr.hasTimeDim, p.hdr.hasRedDim)

/-- Increment if the flag is set. -/
def addFlag (c : BitVec 32) (f : Bool) : BitVec 32 := if f then c + 1 else c

/-- src/utility.cpp:111-305 `AddPoint` (and :317-321 `filter`). -/
def addPoint (b : Build) (s : Summary) (p : Point) : Outcome Summary := do
  let (e, ht, hc) ← prepare b s p
  let e ← e.stepAll b ht hc p
  let cls ← p.getClassification
  let classes ← bump s.classes cls.getClass.toNat
  let r ← p.getReturnNumber
  let byReturn ← bump s.pointsByReturn r.toNat
  let n ← p.getNumberOfReturns
  let ofPulse ← bump s.returnsOfPulse n.toNat
  pure ⟨classes, addFlag s.synthetic cls.isSynthetic, addFlag s.withheld cls.isWithheld,
    addFlag s.keypoint cls.isKeyPoint, s.count + 1, byReturn, ofPulse, some e, s.header, hc, ht⟩

/-- Adding a sequence of points. -/
def addAll (b : Build) : List Point → Summary → Outcome Summary
  | [], s => .ok s
  | p :: ps, s => do
    let s ← addPoint b s p
    addAll b ps s

end Summary

/-- include/liblas/utility.hpp (class CoordinateSummary) `CoordinateSummary`: count, returns and coordinate extremes only. -/
structure CoordinateSummary where
  count : BitVec 32
  pointsByReturn : List (BitVec 32)
  returnsOfPulse : List (BitVec 32)
  ext : Option Extremes
  header : Option PHeader
  deriving DecidableEq, Repr

namespace CoordinateSummary

/-- src/utility.cpp:567-580. -/
def new : CoordinateSummary := ⟨0, List.replicate 8 0, List.replicate 8 0, none, none⟩

/-- src/utility.cpp:678-684 `SetHeader`, before the first point. -/
def setHeader (s : CoordinateSummary) (h : PHeader) : CoordinateSummary := { s with header := some h }

/-- src/utility.cpp:634-647: `m_header` takes scale and offset of the first point when one of the scales is already
the same (the condition reads like a mistake for its opposite). -/
def adoptScaling (given : Option PHeader) (p : Point) (e : Extremes) : Extremes :=
  match given with
  | none => e
  | some h =>
    if Point.compareDistance p.hdr.scale.x h.scale.x || Point.compareDistance p.hdr.scale.y h.scale.y ||
        Point.compareDistance p.hdr.scale.z h.scale.z then
      let h' : PHeader := ⟨h.fmt, h.recLen, h.hasTimeDim, h.hasRedDim, p.hdr.scale, p.hdr.offset⟩
      ⟨{ e.minimum with hdr := h' }, { e.maximum with hdr := h' }⟩
    else e

/-- src/utility.cpp:618-650. -/
def prepare (b : Build) (s : CoordinateSummary) (p : Point) : Outcome Extremes :=
  match s.ext with
  | some e => .ok e
  | none => do
    let e ← Summary.firstPair b s.header p
    pure (adoptScaling s.header p e)

/-- src/utility.cpp:614-676 `AddPoint`. -/
def addPoint (b : Build) (s : CoordinateSummary) (p : Point) : Outcome CoordinateSummary := do
  let e ← prepare b s p
  let e ← e.stepCoords b p
  let r ← p.getReturnNumber
  let byReturn ← bump s.pointsByReturn r.toNat
  let n ← p.getNumberOfReturns
  let ofPulse ← bump s.returnsOfPulse n.toNat
  pure ⟨s.count + 1, byReturn, ofPulse, some e, s.header⟩

/-- Adding a sequence of points. -/
def addAll (b : Build) : List Point → CoordinateSummary → Outcome CoordinateSummary
  | [], s => .ok s
  | p :: ps, s => do
    let s ← addPoint b s p
    addAll b ps s

end CoordinateSummary
end LibLAS
