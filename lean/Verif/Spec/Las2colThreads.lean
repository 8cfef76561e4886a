import Verif.Model.Las2colThreads
/-
What is said about the threads of las2col (C80).
-/
namespace LibLAS.Spec.Threads
open Las2col

/-- The state after the schedule, from the beginning. -/
def Reaches (c : Cfg) (sched : List Choice) (s : St) : Prop := run c (start c) sched = some s

/-- There is something to do, somebody to do it, and reading a file is not undefined. -/
structure Sensible (c : Cfg) : Prop where
  files : 0 < c.files
  readers : 0 < c.readers
  read : ∀ k < c.files, c.read k ≠ .ub

/-- The column files hold the files in the given order: one column of each, nothing else. -/
def Holds (c : Cfg) (s : St) (order : List Nat) : Prop :=
  ∃ cols : Nat → Nat → List Byte, (∀ k ∈ order, c.read k = .ok (cols k)) ∧
    ∀ i < c.columns, s.out i = (order.map fun k => cols k i).flatten

/-- `main` has returned. -/
def Finished (s : St) : Prop := s.mn = .ended

/-- No thread can run (a wait ends only by a broadcast). -/
def Stuck (c : Cfg) (s : St) : Prop :=
  step c s .main = none ∧ (∀ j, step c s (.reader j) = none) ∧ ∀ i, step c s (.writer i) = none

/-- `main` sleeps until it is told that the current batch is written, and the batch is written. -/
def LostWakeup (c : Cfg) (s : St) : Prop :=
  s.mn = .doneWait ∧ ∃ b, s.cur = some b ∧ ∀ i < c.columns, b.cols i = none

/-- A schedule in which no wait ends without a broadcast. -/
def NoSpurious (sched : List Choice) : Prop :=
  ∀ ch ∈ sched, ch = .main ∨ (∃ j, ch = .reader j) ∨ ∃ i, ch = .writer i

end LibLAS.Spec.Threads
