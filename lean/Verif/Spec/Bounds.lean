import Verif.Model.Bounds
/-
Boxes as sets of points.
-/
namespace LibLAS.Spec

/-- A number lies in the closed interval of a range (comparisons of doubles, so never for a NaN). -/
def inRange (r : Range) (v : Fl) : Prop := Fl.le r.minimum v = true ∧ Fl.le v r.maximum = true

/-- A point (one number per dimension) lies in a box. -/
def inBox (b : Bounds) (v : List Fl) : Prop := List.Forall₂ inRange b.ranges v

/-- The first box is a subset of the second. -/
def within (a c : Bounds) : Prop := ∀ v, inBox a v → inBox c v

/-- Every interval of the box holds a point, i.e. the ends are numbers in the right order. -/
def proper (b : Bounds) : Prop := ∀ r ∈ b.ranges, Fl.le r.minimum r.maximum = true

/-- No end is a NaN. -/
def numeric (b : Bounds) : Prop := ∀ r ∈ b.ranges, r.minimum ≠ .nan ∧ r.maximum ≠ .nan

/-- `u` is the smallest box that includes both `a` and the points satisfying `P`. -/
def smallest (u a : Bounds) (P : List Fl → Prop) : Prop :=
  within a u ∧ (∀ v, P v → inBox u v) ∧ ∀ c, within a c → (∀ v, P v → inBox c v) → within u c

end LibLAS.Spec
