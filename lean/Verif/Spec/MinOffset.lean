import Verif.Spec.Kernel
/-
What `--min-offset` must keep of a point.
-/
namespace LibLAS.Spec

/-- Coordinates that fit a positive scale `s` once the lowest of them is the offset: none is more than 2^49 units from
zero, no two are more than 2^31 - 4 units apart. -/
def Spannable (xs : List Fl) (s : Fl) : Prop :=
  ∃ u : ℚ, s = .fin u ∧ 1 / 2 ^ 1000 ≤ u ∧ u ≤ 2 ^ 900 ∧
    ∀ x ∈ xs, ∃ q : ℚ, x = .fin q ∧ |q| ≤ 2 ^ 49 * u ∧ ∀ y ∈ xs, ∃ r : ℚ, y = .fin r ∧ |q - r| ≤ (2 ^ 31 - 4) * u

/-- Numbers at most 2^-51 apart. -/
def Close (x y : Fl) : Prop := ∃ p q : ℚ, x = .fin p ∧ y = .fin q ∧ |p - q| ≤ 1 / 2 ^ 51

/-- The number a file with scale `s` and offset `o` shows for the integer `v` is `x` up to half a unit and 2^-18 units
of rounding. -/
def ShowsNearest (v : BitVec 32) (x s o : Fl) : Prop :=
  ∃ q u p : ℚ, x = .fin q ∧ s = .fin u ∧ o = .fin p ∧ |v.toInt * u + p - q| ≤ u * (1 / 2 + 1 / 2 ^ 18)

/-- The integer `v` of the new record stands for the coordinate that `raw` stood for, up to half a unit; when scale and
offset are practically those of the input it may be `raw` itself. -/
def SamePlace (raw v : BitVec 32) (s o s' o' : Fl) : Prop :=
  ShowsNearest v (coordinate s o raw) s' o' ∨ v = raw ∧ Close s' s ∧ Close o' o

end LibLAS.Spec
