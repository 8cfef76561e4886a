import Verif.Model.IndexQuery
import Verif.Spec.Index
/-
What a query with a window is to return.
-/
namespace LibLAS.Spec
open Index

/-- The distance from the edges of a window below which rounding may decide: about 2.3e-13 of the size of the bounds of the index. -/
def margin (lo hi : ℚ) : ℚ := (|lo| + |hi|) / 2 ^ 42

/-- On one axis, the window from `l` to `u` is within the bounds `lo`, `hi` of the index; all of these are finite and of sizes met in practice. -/
def Within (lo hi l u : Fl) : Prop :=
  ∃ a b p q : ℚ, lo = .fin a ∧ hi = .fin b ∧ l = .fin p ∧ u = .fin q ∧ a ≤ p ∧ p ≤ q ∧ q ≤ b ∧ |a| ≤ 2 ^ 200 ∧ |b| ≤ 2 ^ 200 ∧ 1 / 2 ^ 200 ≤ b - a

/-- On one axis, `c` is in the window and not at its edges. The edges of the bounds of the index do not count. -/
def Deep (lo hi l u c : Fl) : Prop :=
  ∃ a b p q d : ℚ, lo = .fin a ∧ hi = .fin b ∧ l = .fin p ∧ u = .fin q ∧ c = .fin d ∧ ((p = a ∧ a ≤ d) ∨ p + margin a b ≤ d) ∧
    ((q = b ∧ d ≤ b) ∨ d ≤ q - margin a b)

/-- On one axis, `c` is in the window or at its edges. -/
def Near (lo hi l u c : Fl) : Prop :=
  ∃ a b p q d : ℚ, lo = .fin a ∧ hi = .fin b ∧ l = .fin p ∧ u = .fin q ∧ c = .fin d ∧ p - margin a b ≤ d ∧ d ≤ q + margin a b

/-- The point is in the window of the query, on each axis that is filtered, and not at the edges. -/
def DeepIn (g : Grid) (q : Query) (p : Pt) : Prop :=
  (q.noX = false → Deep g.min.x g.max.x q.min.x q.max.x p.x) ∧ (q.noY = false → Deep g.min.y g.max.y q.min.y q.max.y p.y) ∧
    (q.noZ = false → Deep g.min.z g.max.z q.min.z q.max.z p.z)

/-- The point is in the window of the query or at the edges. -/
def NearIn (g : Grid) (q : Query) (p : Pt) : Prop :=
  (q.noX = false → Near g.min.x g.max.x q.min.x q.max.x p.x) ∧ (q.noY = false → Near g.min.y g.max.y q.min.y q.max.y p.y) ∧
    (q.noZ = false → Near g.min.z g.max.z q.min.z q.max.z p.z)

/-- The point is in the window of the query, edges included. -/
def InWindow (q : Query) (p : Pt) : Prop :=
  (q.noX = false → Fl.le q.min.x p.x = true ∧ Fl.le p.x q.max.x = true) ∧ (q.noY = false → Fl.le q.min.y p.y = true ∧ Fl.le p.y q.max.y = true) ∧
    (q.noZ = false → Fl.le q.min.z p.z = true ∧ Fl.le p.z q.max.z = true)

instance (q : Query) (p : Pt) : Decidable (InWindow q p) := by unfold InWindow; infer_instance

/-- A query on an index: its window is within the bounds of the index, an axis is filtered, and an axis that is filtered has a window of
some extent. -/
structure QueryOK (g : Grid) (q : Query) : Prop where
  x : Within g.min.x g.max.x q.min.x q.max.x
  y : Within g.min.y g.max.y q.min.y q.max.y
  z : Within g.min.z g.max.z q.min.z q.max.z
  some : q.noX = false ∨ q.noY = false ∨ q.noZ = false
  extX : q.noX = false → q.min.x ≠ q.max.x
  extY : q.noY = false → q.min.y ≠ q.max.y
  extZ : q.noZ = false → q.min.z ≠ q.max.z

/-- On one axis, the window from `l` to `u` meets the bounds `lo`, `hi` of the index. -/
def Meets (lo hi l u : Fl) : Prop :=
  ∃ a b p q : ℚ, lo = .fin a ∧ hi = .fin b ∧ l = .fin p ∧ u = .fin q ∧ p ≤ q ∧ p ≤ b ∧ a ≤ q ∧ |a| ≤ 2 ^ 200 ∧ |b| ≤ 2 ^ 200 ∧ 1 / 2 ^ 200 ≤ b - a

/-- On one axis, `c` is in the window given and not at its edges. -/
def Deeper (lo hi l u c : Fl) : Prop :=
  ∃ a b p q d : ℚ, lo = .fin a ∧ hi = .fin b ∧ l = .fin p ∧ u = .fin q ∧ c = .fin d ∧ p + margin a b ≤ d ∧ d ≤ q - margin a b

end LibLAS.Spec
