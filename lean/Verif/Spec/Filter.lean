import Verif.Model.Filter
/-
What the filters are meant to do.
-/
namespace LibLAS.Spec

/-- Inclusion keeps the points that meet the criterion, exclusion keeps the others
(include/liblas/filter.hpp:66-72, the documented meaning of the two types). -/
def keeps (ty : FilterType) (meets : Bool) : Bool :=
  match ty with
  | .inclusion => meets
  | .exclusion => !meets

/-- The verdicts a stateful filter gives on `n` successive points. -/
def verdicts {S : Type} (step : S → S × Bool) : Nat → S → List Bool
  | 0, _ => []
  | n + 1, s => (step s).2 :: verdicts step n (step s).1

/-- The six comparison signs. -/
inductive Sign where
  | lt | le | gt | ge | eq | ne
  deriving DecidableEq, Repr

/-- How each is written. -/
def Sign.text : Sign → List Char
  | .lt => ['<']
  | .le => ['<', '=']
  | .gt => ['>']
  | .ge => ['>', '=']
  | .eq => ['=', '=']
  | .ne => ['!', '=']

/-- What each means. -/
def Sign.holds {α : Type} [LinearOrder α] : Sign → α → α → Bool
  | .lt, a, b => decide (a < b)
  | .le, a, b => decide (a ≤ b)
  | .gt, a, b => decide (b < a)
  | .ge, a, b => decide (b ≤ a)
  | .eq, a, b => decide (a = b)
  | .ne, a, b => decide (a ≠ b)

end LibLAS.Spec
