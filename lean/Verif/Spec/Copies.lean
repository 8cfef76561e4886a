import Verif.Model.Copies
/-
Which file each object stands for, and what has been asked of each file.
-/
namespace LibLAS.Copies.Spec

variable {F S C R Z : Type}

/-- The bookkeeping of a program: for each object ever made the number of the file it stands for (`none` when it has been
destroyed), for each file opened what it was opened with and all calls made for it, in order, through whatever object. -/
structure Ledger (F C : Type) where
  stands : List (Option Nat)
  files : List (F × List C)

/-- A copy stands for the file of its original, an assigned object for the file of the other one. -/
def Ledger.note (l : Ledger F C) : Op F C → Ledger F C
  | .make f => ⟨l.stands ++ [some l.files.length], l.files ++ [(f, [])]⟩
  | .copy i => { l with stands := l.stands ++ [l.stands[i]?.join] }
  | .assign i j => { l with stands := l.stands.set i l.stands[j]?.join }
  | .destroy i => { l with stands := l.stands.set i none }
  | .call i c =>
    match l.stands[i]?.join with
    | some k => { l with files := l.files.modify k fun p => (p.1, p.2 ++ [c]) }
    | none => l

/-- The bookkeeping of a whole program. -/
def ledger (ops : List (Op F C)) : Ledger F C := ops.foldl Ledger.note ⟨[], []⟩

/-- The object has been made and not destroyed. -/
def Ledger.Alive (l : Ledger F C) (i : Nat) : Prop := ∃ k, l.stands[i]? = some (some k)

/-- The step uses living objects. -/
def Uses (l : Ledger F C) : Op F C → Prop
  | .make _ => True
  | .copy i => l.Alive i
  | .assign i j => l.Alive i ∧ l.Alive j
  | .destroy i => l.Alive i
  | .call i _ => l.Alive i

/-- Every step of the program uses objects that are alive then. -/
def WellUsed (ops : List (Op F C)) : Prop := ∀ pre op post, ops = pre ++ op :: post → Uses (ledger pre) op

/-- File `k` is open, in state `s`. -/
def IsOpen (w : World S Z) (k : Nat) (s : S) : Prop := ∃ n, w.impls[k]? = some (.live n s)

/-- File `k` has been closed, leaving `z`. -/
def Closed (w : World S Z) (k : Nat) (z : Z) : Prop := w.impls[k]? = some (.gone z)

end LibLAS.Copies.Spec
