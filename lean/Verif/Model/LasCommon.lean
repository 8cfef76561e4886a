import Verif.Model.CApi
import Verif.Model.Kernel
/-
apps/lascommon.c: the statistics and the repair of a header in C, `SummarizePoints` and `repair_header`. The functions work on
handles of include/liblas/capi/liblas.h. Simplifications: the texts printed are left out; `int` counters are 32 bits and
wrap (more than 2^31 - 1 points would be undefined); class, source id and colour of the two points are set after the counters in the
code, before them here (neither looks at the other).
-/
namespace LibLAS.LasCommon
open CApi

/-- apps/lascommon.h:10-35 `LASPointSummary`: the counters and the two points. -/
structure CSummary where
  count : BitVec 32
  byReturn : List (BitVec 32)
  ofPulse : List (BitVec 32)
  classes : List (BitVec 32)
  synthetic : BitVec 32
  keypoint : BitVec 32
  withheld : BitVec 32
  ext : Extremes
  deriving DecidableEq, Repr

/-- apps/lascommon.c:69-78 and :90-91: zero counters, and two copies of the first point. -/
def start (p : Point) : CSummary :=
  ⟨0, List.replicate 8 0, List.replicate 8 0, List.replicate 32 0, 0, 0, 0, ⟨p, p⟩⟩

/-- include/liblas/capi/las_config.h:75 `MIN(a, b)` on doubles. -/
def dmin (a b : Fl) : Fl := if Fl.lt a b then a else b
/-- include/liblas/capi/las_config.h:76 `MAX(a, b)` on doubles. -/
def dmax (a b : Fl) : Fl := if Fl.lt b a then a else b

/-- apps/lascommon.c:97-99 and alike: `LASPoint_SetX(pmin, MIN(x, LASPoint_GetX(pmin)))`, the same with `MAX`. The setters of
coordinates throw nothing, so `LASPoint_SetX` reports nothing. -/
def widen (get : Point → Outcome Fl) (set : Point → Fl → Outcome Point) (p : Point) (e : Extremes) : Outcome Extremes := do
  let v ← get p
  let lo ← get e.minimum
  let mn ← set e.minimum (dmin v lo)
  let hi ← get e.maximum
  let mx ← set e.maximum (dmax v hi)
  pure ⟨mn, mx⟩

/-- apps/lascommon.c:97-107. -/
def widenBox (b : Build) (p : Point) (e : Extremes) : Outcome Extremes := do
  let e ← widen (Point.getX b) (Point.setX b) p e
  let e ← widen (Point.getY b) (Point.setY b) p e
  widen (Point.getZ b) (Point.setZ b) p e

/-- `MIN(a, b)` and `MAX(a, b)` on unsigned integers. -/
def umin {n : Nat} (a b : BitVec n) : BitVec n := if Extremes.ult a b then a else b
def umax {n : Nat} (a b : BitVec n) : BitVec n := if Extremes.ult b a then a else b
/-- On a (signed) `char`. -/
def smin {n : Nat} (a b : BitVec n) : BitVec n := if Extremes.slt a b then a else b
def smax {n : Nat} (a b : BitVec n) : BitVec n := if Extremes.slt b a then a else b
/-- On GPS times. -/
def tmin (a b : BitVec 64) : BitVec 64 := if Extremes.dlt a b then a else b
def tmax (a b : BitVec 64) : BitVec 64 := if Extremes.dlt b a then a else b
/-- On the classification as one byte, flags included (`LASPoint_GetClassification`, src/c_api.cpp:928-935). -/
def cmin (a b : Classification) : Classification := ⟨umin a.flags b.flags⟩
def cmax (a b : Classification) : Classification := ⟨umax a.flags b.flags⟩
/-- apps/lascommon.c:155-157 and :166-168: per channel; here the second argument is the colour of the point just read (`MIN` and
`MAX` of two equal numbers do not depend on the order). -/
def colmin (a b : Color) : Color := ⟨umin a.getRed b.getRed, umin a.getGreen b.getGreen, umin a.getBlue b.getBlue⟩
def colmax (a b : Color) : Color := ⟨umax a.getRed b.getRed, umax a.getGreen b.getGreen, umax a.getBlue b.getBlue⟩

/-- `LASPoint_SetTime` and `LASPoint_SetColor` (src/c_api.cpp:953-974, :2211-2231): the error of a format without the attribute is
dropped, and the point stays as it is. -/
def quiet {α : Type} (set : Point → α → Outcome Point) (p : Point) (v : α) : Outcome Point :=
  match set p v with
  | .throw .invalidFormat => .ok p
  | r => r

/-- apps/lascommon.c:109-111 and alike. -/
def keep {α : Type} (get : Point → Outcome α) (set : Point → α → Outcome Point) (lo hi : α → α → α) (p : Point) (e : Extremes) :
    Outcome Extremes := do
  let v ← get p
  let a ← get e.minimum
  let mn ← set e.minimum (lo v a)
  let c ← get e.maximum
  let mx ← set e.maximum (hi v c)
  pure ⟨mn, mx⟩

/-- apps/lascommon.c:109-183: the attributes other than the coordinates. -/
def widenAttrs (b : Build) (p : Point) (e : Extremes) : Outcome Extremes := do
  let e ← keep (Point.getIntensity b) (Point.setIntensity b) umin umax p e
  let e ← keep (Point.getTime b) (quiet (Point.setTime b)) tmin tmax p e
  let e ← keep Point.getReturnNumber Point.setReturnNumber umin umax p e
  let e ← keep Point.getNumberOfReturns Point.setNumberOfReturns umin umax p e
  let e ← keep Point.getScanDirection Point.setScanDirection umin umax p e
  let e ← keep Point.getFlightLineEdge Point.setFlightLineEdge umin umax p e
  let e ← keep Point.getScanAngleRank Point.setScanAngleRank smin smax p e
  let e ← keep Point.getUserData Point.setUserData umin umax p e
  let e ← keep Point.getClassification Point.setClassification cmin cmax p e
  let e ← keep (Point.getPointSourceID b) (Point.setPointSourceID b) umin umax p e
  keep (Point.getColor b) (quiet (Point.setColor b)) (fun v m => colmin m v) (fun v m => colmax m v) p e

/-- `if (cls & mask) n++`. -/
def addIf (n : BitVec 32) (c : Bool) : BitVec 32 := if c then n + 1 else n

/-- The body of the loop, apps/lascommon.c:97-189. -/
def addPoint (b : Build) (p : Point) (s : CSummary) : Outcome CSummary := do
  let ext ← widenBox b p s.ext
  let ext ← widenAttrs b p ext
  let rn ← p.getReturnNumber
  let byReturn ← bump s.byReturn (if rn ≠ 0 then rn.toNat - 1 else rn.toNat)
  let nr ← p.getNumberOfReturns
  let ofPulse ← bump s.ofPulse nr.toNat
  let c ← p.getClassification
  let classes ← bump s.classes (c.flags &&& 31).toNat
  pure ⟨s.count + 1, byReturn, ofPulse, classes, addIf s.synthetic (c.flags &&& 32 != 0), addIf s.keypoint (c.flags &&& 64 != 0),
    addIf s.withheld (c.flags &&& 128 != 0), ext⟩

/-- The loop of apps/lascommon.c:95-204 on the record `p` just read, with the number of rounds still allowed; the errors left on
the stack are looked at after every fetch. `none`: `exit(1)`. -/
def loop (b : Build) (what : Exc → List Byte) : Nat → Errors → Reader → List Byte → CSummary → Outcome (Option CSummary)
  | 0, _, _, _, _ => .ub
  | k + 1, st, r, p, s => do
    let s ← addPoint b ⟨p, r.hdr.toP⟩ s
    match getNextPoint what st (some r) with
    | .ok (q, some r, st) =>
      if lastErrorNum st ≠ 0 then pure none
      else
        match q with
        | none => pure (some s)
        | some q => loop b what k st r q s
    | .ok (_, none, _) => .ub
    | .throw e => .throw e
    | .ub => .ub

/-- apps/lascommon.c:52-207 `SummarizePoints` on a reader, with the number of points allowed. `none`: `exit(1)`. -/
def summarizePoints (b : Build) (what : Exc → List Byte) (k : Nat) (st : Errors) (r : Reader) : Outcome (Option CSummary) :=
  match getNextPoint what st (some r) with
  | .ok (some p, some r, st) => loop b what k st r p (start ⟨p, r.hdr.toP⟩)
  | .ok (none, _, _) => .ok none
  | .ok (some _, none, _) => .ub
  | .throw e => .throw e
  | .ub => .ub

/-- `a != b` on doubles. -/
def differs (a b : Fl) : Bool := !(Fl.le a b && Fl.le b a)

/-- `!=` on the three coordinates of a corner of the header, apps/lascommon.c:597-609. -/
def cornerDiffers (h : Vec3 (BitVec 64)) (v : Vec3 Fl) : Bool :=
  differs (Fl.ofBits h.x) v.x || differs (Fl.ofBits h.y) v.y || differs (Fl.ofBits h.z) v.z

/-- The three coordinates of a point. -/
def corner (b : Build) (p : Point) : Outcome (Vec3 Fl) := do
  let x ← p.getX b
  let y ← p.getY b
  let z ← p.getZ b
  pure ⟨x, y, z⟩

/-- apps/lascommon.c:595-631: both corners are set when one of the six numbers differs. -/
def repairBox (b : Build) (s : CSummary) (h : Header) : Outcome Header := do
  let lo ← corner b s.ext.minimum
  let hi ← corner b s.ext.maximum
  pure (if cornerDiffers h.min lo || cornerDiffers h.max hi then { h with min := Kernel.bits lo, max := Kernel.bits hi } else h)

/-- `(unsigned char)n`, compared with a `uint32_t`. -/
def asUchar (n : BitVec 32) : BitVec 32 := (n.setWidth 8).setWidth 32

/-- The loop of apps/lascommon.c:633-641: some count differs. -/
def countsDiffer (h : Header) (s : CSummary) : List Nat → Outcome Bool
  | [] => .ok false
  | i :: is => do
    let c ← headerByReturn [] (some (some h)) i
    if c.1 ≠ asUchar (s.byReturn.getD i 0) then pure true else countsDiffer h s is

/-- The loop of apps/lascommon.c:643-650 (the code returned by `LASHeader_SetPointRecordsByReturnCount` is dropped). -/
def setCounts (h : Header) (s : CSummary) : List Nat → Header
  | [] => h
  | i :: is => setCounts (h.setByReturn i (s.byReturn.getD i 0)).1 s is

/-- apps/lascommon.c:577-651 `repair_header` (header and summary not NULL). -/
def repairHeader (b : Build) (s : CSummary) (h : Header) : Outcome Header := do
  let h ← repairBox b s h
  let d ← countsDiffer h s [0, 1, 2, 3, 4]
  pure (if d then setCounts h s [0, 1, 2, 3, 4] else h)

end LibLAS.LasCommon
