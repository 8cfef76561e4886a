import Verif.Spec.Summary
import Verif.Model.Header
/-
What the header of a file says about its points: bounds of the coordinates, counts by return.
-/
namespace LibLAS.Spec

/-- `m` is the smallest of the numbers. -/
def isLowest (xs : List Fl) (m : Fl) : Prop := m ∈ xs ∧ ∀ x ∈ xs, Fl.le m x = true
/-- `m` is the largest of the numbers. -/
def isHighest (xs : List Fl) (m : Fl) : Prop := m ∈ xs ∧ ∀ x ∈ xs, Fl.le x m = true

/-- The two numbers are finite and agree in the first 15 significant digits: the relative difference is at most
`10⁻¹⁵` (and `2⁻¹⁰⁷⁵`, far below the smallest positive double). -/
def Agree15 (v m : Fl) : Prop := ∃ q r : ℚ, m = .fin q ∧ v = .fin r ∧ |r - q| ≤ |q| / 10 ^ 15 + 1 / 2 ^ 1075

/-- `lo` and `hi`, as stored in a header, are the bounds of the numbers up to 15 significant digits. -/
def boundsOf (xs : List Fl) (lo hi : BitVec 64) : Prop :=
  (∃ m, isLowest xs m ∧ Agree15 (Fl.ofBits lo) m) ∧ (∃ m, isHighest xs m ∧ Agree15 (Fl.ofBits hi) m)

/-- A raw coordinate as a number: times scale, plus offset. -/
def coordinate (s o : Fl) (raw : BitVec 32) : Fl := Fl.add (Fl.mul (Fl.ofInt32 raw) s) o

/-- Points by return number 1 to 5. If no point has a return number, all points count as first returns. -/
def returnCounts (as : List Attrs) : List (BitVec 32) :=
  if ∀ a ∈ as, a.returnNumber = 0 then [BitVec.ofNat 32 as.length, 0, 0, 0, 0]
  else (List.range 5).map fun i => tally as fun a => a.returnNumber == i + 1

/-- Bounds and counts of a header are those of points with the given attributes, in a file with scale and offset of
`src`. -/
structure Describes (src : PHeader) (as : List Attrs) (h : Header) : Prop where
  x : boundsOf (as.map fun a => coordinate src.scale.x src.offset.x a.rawX) h.min.x h.max.x
  y : boundsOf (as.map fun a => coordinate src.scale.y src.offset.y a.rawY) h.min.y h.max.y
  z : boundsOf (as.map fun a => coordinate src.scale.z src.offset.z a.rawZ) h.min.z h.max.z
  returns : h.byReturn.take 5 = returnCounts as

/-- A positive scale and an offset of ordinary size. -/
def OrdinaryAxis (s o : Fl) : Prop := ∃ p q : ℚ, s = .fin p ∧ o = .fin q ∧ 0 < p ∧ p ≤ 2 ^ 900 ∧ |q| ≤ 2 ^ 900

/-- The same for all axes. -/
def OrdinaryScaling (h : PHeader) : Prop :=
  OrdinaryAxis h.scale.x h.offset.x ∧ OrdinaryAxis h.scale.y h.offset.y ∧ OrdinaryAxis h.scale.z h.offset.z

end LibLAS.Spec
