import Verif.Model.MapAlloc
/-
The processes that use chippers.
-/
namespace LibLAS.MapAlloc
open LibLAS

/-- Everything a process can do with chippers: make and run them in any mode, store into their memory, destroy them
(any held address may go at any time). Fewer than 2^32 points each (the count is a `uint32_t`). -/
inductive Reach : Process → Prop where
  | start (disk) : Reach (Process.start disk)
  | run {p} (o : Options) (count : Nat) (opens maps : Bool) : Reach p → count < 2 ^ 32 → Reach (run p o count opens maps).2.2
  | store {p} (r : Region) (i : Nat) (b : Byte) : Reach p → r ∈ p.regions → Reach (store p r i b)
  | destroy {p} (l : List Nat) : Reach p → Reach (destroy p l)

/-- `After p q`: the process can go on from `p` to `q`. -/
inductive After (p : Process) : Process → Prop where
  | here : After p p
  | run {q} (o : Options) (count : Nat) (opens maps : Bool) : After p q → count < 2 ^ 32 → After p (run q o count opens maps).2.2
  | store {q} (r : Region) (i : Nat) (b : Byte) : After p q → r ∈ q.regions → After p (store q r i b)
  | destroy {q} (l : List Nat) : After p q → After p (destroy q l)

/-- Two regions have no byte of the file in common. -/
def Apart (r s : Region) : Prop := r.offset + r.size ≤ s.offset ∨ s.offset + s.size ≤ r.offset

end LibLAS.MapAlloc
