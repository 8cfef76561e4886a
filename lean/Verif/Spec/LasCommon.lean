import Verif.Model.LasCommon
import Verif.Spec.Summary
import Verif.Spec.CApi
/-
What `SummarizePoints` and `repair_header` are for: counts of points with a property, the bounding box of the points read.
-/
namespace LibLAS.Spec
open LasCommon

/-- `v` is the smallest coordinate of the points: one has it, and none has a smaller one. -/
def IsLeast (get : Point → Outcome Fl) (ps : List Point) (v : Fl) : Prop :=
  (∃ p ∈ ps, get p = .ok v) ∧ ∀ p ∈ ps, ∃ w, get p = .ok w ∧ Fl.le v w = true

/-- `v` is the largest coordinate of the points. -/
def IsGreatest (get : Point → Outcome Fl) (ps : List Point) (v : Fl) : Prop :=
  (∃ p ∈ ps, get p = .ok v) ∧ ∀ p ∈ ps, ∃ w, get p = .ok w ∧ Fl.le w v = true

/-- `lo` and `hi` are the corners of the box around the points. -/
def IsBox (b : Build) (ps : List Point) (lo hi : Vec3 Fl) : Prop :=
  IsLeast (Point.getX b) ps lo.x ∧ IsLeast (Point.getY b) ps lo.y ∧ IsLeast (Point.getZ b) ps lo.z ∧
  IsGreatest (Point.getX b) ps hi.x ∧ IsGreatest (Point.getY b) ps hi.y ∧ IsGreatest (Point.getZ b) ps hi.z

/-- A point is counted under its return number, one without a return number under the first return. -/
def countedAs (a : Attrs) (r : Nat) : Bool := a.returnNumber == r || (a.returnNumber == 0 && r == 1)

/-- The counters of a C summary of points with these attributes. -/
def cCountersRight (as : List Attrs) (s : CSummary) : Prop :=
  s.count = tally as (fun _ => true) ∧
  s.byReturn = (List.range 8).map (fun r => tally as (fun a => countedAs a (r + 1))) ∧
  s.ofPulse = (List.range 8).map (fun r => tally as (fun a => a.numberOfReturns == r)) ∧
  s.classes = (List.range 32).map (fun c => tally as (fun a => a.classification.flags.toNat % 32 == c)) ∧
  s.synthetic = tally as (fun a => a.classification.flags.getLsbD 5) ∧
  s.keypoint = tally as (fun a => a.classification.flags.getLsbD 6) ∧
  s.withheld = tally as (fun a => a.classification.flags.getLsbD 7)

/-- The integer attributes the two points of a C summary show besides the coordinates. The classification is one byte: the flags
count as its upper bits. -/
def cNumericAttrs : List (Attrs → Int) :=
  [fun a => a.intensity.toNat, fun a => a.returnNumber, fun a => a.numberOfReturns, fun a => a.scanDirection, fun a => a.edge,
   fun a => a.scanAngle.toInt, fun a => a.userData.toNat, fun a => a.classification.flags.toNat, fun a => a.sourceId.toNat,
   fun a => a.color.getRed.toNat, fun a => a.color.getGreen.toNat, fun a => a.color.getBlue.toNat]

/-- `lo` and `hi` show the smallest and the largest value of every one of them, and of the GPS time when no time is a NaN. -/
def AttributeExtremes (as : List Attrs) (lo hi : Attrs) : Prop :=
  (∀ key ∈ cNumericAttrs, isSmallest key as (key lo) ∧ isLargest key as (key hi)) ∧
  ((∀ a ∈ as, timeOf a ≠ .nan) → timeExtremes as lo hi)

/-- The box of a header, as numbers. -/
def HasBox (h : Header) (lo hi : Vec3 Fl) : Prop :=
  Fl.ofBits h.min.x = lo.x ∧ Fl.ofBits h.min.y = lo.y ∧ Fl.ofBits h.min.z = lo.z ∧
  Fl.ofBits h.max.x = hi.x ∧ Fl.ofBits h.max.y = hi.y ∧ Fl.ofBits h.max.z = hi.z

/-- Nothing but the box and the counts by return is changed. -/
def OnlyBoxAndCounts (h h' : Header) : Prop := { h' with min := h.min, max := h.max, byReturn := h.byReturn } = h

/-- The records read, as points of the reader's header. -/
def recordsAsPoints (r : Reader) (recs : List (List Byte)) : List Point := recs.map fun p => ⟨p, r.hdr.toP⟩

/-- The point is at these coordinates. -/
def At (b : Build) (p : Point) (v : Vec3 Fl) : Prop := p.getX b = .ok v.x ∧ p.getY b = .ok v.y ∧ p.getZ b = .ok v.z

end LibLAS.Spec
