import Verif.Model.SummaryLife
/-
Histories of summary objects: which points a summary was given, and which operations replace or end it.
-/
namespace LibLAS.SummaryLife

/-- The points added to summary `i`, each with the number of the reader it came from. -/
def addedTo (i : Nat) (ops : List Op) : List (Nat × Point) :=
  ops.filterMap fun
    | .add j k p => if j = i then some (k, p) else none
    | _ => none

/-- The operation gives summary `i` another content or ends it: `SetHeader`, being assigned to, going out of scope. -/
def Op.remakes (i : Nat) : Op → Bool
  | .setHeader j _ => j == i
  | .assign j _ => j == i
  | .destroy j => j == i
  | _ => false

/-- A summary is made, with or without a header given. -/
def making (i : Nat) : Option PHeader → List Op
  | none => [.new]
  | some h => [.new, .setHeader i h]

/-- Two reports show the same numbers (everything but the header). -/
def SameCounts (r s : Summary) : Prop :=
  r.classes = s.classes ∧ r.synthetic = s.synthetic ∧ r.withheld = s.withheld ∧ r.keypoint = s.keypoint ∧
  r.count = s.count ∧ r.pointsByReturn = s.pointsByReturn ∧ r.returnsOfPulse = s.returnsOfPulse

end LibLAS.SummaryLife
