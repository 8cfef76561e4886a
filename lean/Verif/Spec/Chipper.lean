import Verif.Model.Chipper
/-
What a user of the chipper relies on, and what the standard promises about `std::sort`.
-/
namespace LibLAS.Spec

open Chipper

/-- The comparison is a strict weak ordering on the elements of `l` (the requirement of `std::sort`). -/
structure StrictWeak (lt : PtRef → PtRef → Bool) (l : List PtRef) : Prop where
  irrefl : ∀ a ∈ l, lt a a = false
  trans : ∀ a ∈ l, ∀ b ∈ l, ∀ c ∈ l, lt a b = true → lt b c = true → lt a c = true
  incomp : ∀ a ∈ l, ∀ b ∈ l, ∀ c ∈ l, lt a b = false → lt b a = false → lt b c = false → lt c b = false →
    lt a c = false ∧ lt c a = false

/-- `sort` behaves as `std::sort` is required to: given a strict weak ordering it leaves a permutation of its input in
which no element is smaller than one before it. -/
def IsSort (sort : Sorter) : Prop :=
  ∀ lt l, StrictWeak lt l → (sort lt l).Perm l ∧ (sort lt l).Pairwise fun a b => lt b a = false

/-- `(x0, y0) - (x1, y1)` is the exact extent of the points: each end is attained and bounds all of them. -/
def tight (pts : List (Fl × Fl)) (b : Bounds) : Prop :=
  ∃ x0 y0 x1 y1, b.ranges = [⟨x0, x1⟩, ⟨y0, y1⟩] ∧
    (∃ p ∈ pts, p.1 = x0) ∧ (∃ p ∈ pts, p.1 = x1) ∧ (∃ p ∈ pts, p.2 = y0) ∧ (∃ p ∈ pts, p.2 = y1) ∧
    ∀ p ∈ pts, Fl.le x0 p.1 = true ∧ Fl.le p.1 x1 = true ∧ Fl.le y0 p.2 = true ∧ Fl.le p.2 y1 = true

end LibLAS.Spec
