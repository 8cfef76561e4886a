import Verif.Model.IndexQuery
import Verif.Spec.IndexRecords
/-
What is asked of an index iterator and what it is to deliver.
-/
namespace LibLAS.Spec
open Index

/-- A cell as an index of `n` points has it: its points are counted, are points there are, and are stored in one place. -/
structure Sound (n : Nat) (c : Cell) : Prop where
  num : (cellIds c).length = c.numPoints
  ids : ∀ i ∈ cellIds c, i < n
  main : c.pts = [] ∨ (c.zCells = [] ∧ c.subCells = [])
  runs : ∀ r, r = c.pts ∨ (∃ k, (k, r) ∈ c.zCells) ∨ (∃ k, (k, r) ∈ c.subCells) → ∀ e ∈ r, 0 < e.2

/-- A record that is not one of an index: not named "liblas" with number 42 or 43. -/
def NotIndex (v : VLR) : Prop := ¬ (v.getUserId false = lit "liblas" ∧ (v.recordId = 42#16 ∨ v.recordId = 43#16))

/-- A request to an iterator: `it(n)`, or one of `it.advance(n)`, `it += n`, `it + n`, and `++it` (`n` is 1), `--it` (`n` is -1). -/
inductive Ask where
  | goto (n : Int)
  | move (n : Int)
  deriving DecidableEq, Repr

/-- The element of the whole result with which the answer begins, `pos` being where the iterator stands. -/
def Ask.target (pos : Nat) : Ask → Nat
  | .goto n => n.toNat
  | .move n => ((pos : Int) + if 0 < n then n - 1 else n).toNat

/-- Numbers of 32 bits that stay so when added to a position. -/
def Ask.InRange (count : Nat) : Ask → Prop
  | .goto n => -2 ^ 31 ≤ n ∧ n < 2 ^ 31
  | .move n => -2 ^ 31 ≤ n ∧ n + count ≤ 2 ^ 31

/-- The answer `out` to a request when the whole result is `R`: at most `chunk` elements of `R` from the target on. After it the
iterator stands behind the last element delivered; when none is, it stands where it stood or at the end. -/
structure Answers (R : List Nat) (chunk pos : Nat) (a : Ask) (out : List Nat) (pos' : Nat) : Prop where
  given : out = (R.drop (a.target pos)).take chunk
  moved : out ≠ [] → pos' = a.target pos + out.length
  stuck : out = [] → pos' = pos ∨ pos' = R.length

/-- The answers to a sequence of requests. -/
inductive AnswersAll (R : List Nat) (chunk : Nat) : Nat → List Ask → List (List Nat) → Prop where
  | nil (pos : Nat) : AnswersAll R chunk pos [] []
  | cons {pos pos' : Nat} {a : Ask} {out : List Nat} {as : List Ask} {outs : List (List Nat)} : Answers R chunk pos a out pos' →
      AnswersAll R chunk pos' as outs → AnswersAll R chunk pos (a :: as) (out :: outs)

/-- The iterator is given a request while the reader is anywhere. -/
def askOne (pts : List Pt) (vs : List VLR) (count : Nat) (t : Iterator) (a : Ask) (r : RPos) : Outcome (List Nat × Iterator) :=
  match a with
  | .goto n => t.call pts vs count r n
  | .move n => t.next pts vs count r n

/-- A sequence of requests, each with where the reader then is. -/
def askAll (pts : List Pt) (vs : List VLR) (count : Nat) : Iterator → List (Ask × RPos) → Outcome (List (List Nat))
  | _, [] => .ok []
  | t, (a, r) :: as =>
    (askOne pts vs count t a r).bind fun o =>
      (askAll pts vs count o.2 as).bind fun os => .ok (o.1 :: os)

end LibLAS.Spec
