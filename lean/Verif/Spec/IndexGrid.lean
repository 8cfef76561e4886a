import Verif.Model.Float
/-
What the grid of a new index is to look like.
-/
namespace LibLAS.Spec

/-- The number of cells wanted on the longer side for `n` points: the root of one per 100 points, but at least 10. -/
def wantedCells (n : Nat) : Nat := max 10 (Nat.sqrt (n / 100))

/-- Numbers of cells that go with extents of `a` and `b`, the longer one being divided into `t`: none is 0, and the cells are as square as whole
numbers and rounding (`2^-29`) allow. -/
structure Square (a b : ℚ) (t cx cy : Nat) : Prop where
  longX : b ≤ a → cx = t
  longY : a ≤ b → cy = t
  shortX : a < b → (cx : ℚ) ≤ max 1 (t * (a / b) + 1 / 2 ^ 29) ∧ t * (a / b) < cx + 1 + 1 / 2 ^ 29
  shortY : b < a → (cy : ℚ) ≤ max 1 (t * (b / a) + 1 / 2 ^ 29) ∧ t * (b / a) < cy + 1 + 1 / 2 ^ 29

/-- The number of z cells that go with an extent of `c` and cells `size` high; no or a very small height asks for one. -/
def ZParts (size : Fl) (c : Fl) (cz : Nat) : Prop :=
  (Fl.le size (.fin (1 / 2 ^ 52)) = true ∧ cz = 1) ∨
    ∃ a s : ℚ, c = .fin a ∧ size = .fin s ∧ 1 / 2 ^ 52 < s ∧ (cz : ℚ) < a / s + 1 + 1 / 2 ^ 20 ∧ a / s ≤ cz + 1 / 2 ^ 20

end LibLAS.Spec
