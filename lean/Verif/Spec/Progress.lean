/-
What a progress meter shows.
-/
namespace LibLAS.Spec

/-- The 41 marks of the meter. -/
def meterMarks : List String :=
  ["0", ".", ".", ".", "10", ".", ".", ".", "20", ".", ".", ".", "30", ".", ".", ".", "40", ".", ".", ".", "50", ".", ".", ".",
   "60", ".", ".", ".", "70", ".", ".", ".", "80", ".", ".", ".", "90", ".", ".", ".", "100"]

/-- The marks from number `a` to before number `b`. -/
def marksBetween (a b : Nat) : List Char := ((meterMarks.drop a).take (b - a)).flatMap String.toList

/-- What a finished meter ends with. -/
def finish : List Char := " - done.\n".toList

/-- A whole meter. -/
def meter : List Char := "0...10...20...30...40...50...60...70...80...90...100 - done.\n".toList

end LibLAS.Spec
