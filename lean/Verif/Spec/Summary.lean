import Verif.Spec.Point
import Verif.Model.Float
/-
What point statistics mean: counts are numbers of points with a property, extremes are attained values nothing lies
beyond. Attributes are seen through the getters (`Spec.Attrs`).
-/
namespace LibLAS.Spec

/-- The numeric attributes of a point that statistics are kept of, each as an integer. Raw coordinates and the scan
angle are signed. -/
def numericAttrs : List (Attrs → Int) :=
  [fun a => a.rawX.toInt, fun a => a.rawY.toInt, fun a => a.rawZ.toInt, fun a => a.intensity.toNat,
   fun a => a.returnNumber, fun a => a.numberOfReturns, fun a => a.scanDirection, fun a => a.edge,
   fun a => a.scanAngle.toInt, fun a => a.userData.toNat, fun a => a.sourceId.toNat,
   fun a => a.classification.flags.toNat % 32,
   fun a => a.color.getRed.toNat, fun a => a.color.getGreen.toNat, fun a => a.color.getBlue.toNat]

/-- `v` is the smallest value of `key`. -/
def isSmallest (key : Attrs → Int) (as : List Attrs) (v : Int) : Prop := (∃ a ∈ as, key a = v) ∧ ∀ a ∈ as, v ≤ key a
/-- `v` is the largest value of `key`. -/
def isLargest (key : Attrs → Int) (as : List Attrs) (v : Int) : Prop := (∃ a ∈ as, key a = v) ∧ ∀ a ∈ as, key a ≤ v

/-- The GPS time as a number. -/
def timeOf (a : Attrs) : Fl := Fl.ofBits a.time

/-- `lo` and `hi` hold the true extremes of every integer attribute. -/
def numericExtremes (as : List Attrs) (lo hi : Attrs) : Prop :=
  ∀ key ∈ numericAttrs, isSmallest key as (key lo) ∧ isLargest key as (key hi)

/-- `lo` and `hi` hold the earliest and the latest GPS time. -/
def timeExtremes (as : List Attrs) (lo hi : Attrs) : Prop :=
  (∃ a ∈ as, timeOf a = timeOf lo) ∧ (∀ a ∈ as, Fl.le (timeOf lo) (timeOf a) = true) ∧
  (∃ a ∈ as, timeOf a = timeOf hi) ∧ (∀ a ∈ as, Fl.le (timeOf a) (timeOf hi) = true)

/-- A 32-bit counter of the points with a property. -/
def tally (as : List Attrs) (p : Attrs → Bool) : BitVec 32 := BitVec.ofNat 32 (as.countP p)

end LibLAS.Spec
