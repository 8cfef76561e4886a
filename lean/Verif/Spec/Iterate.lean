import Verif.Model.Iterator
/-
What a loop `for (; it != end; ++it) use(*it)` sees.
-/
namespace LibLAS.Spec

/-- The records an iterator visits before it compares equal to the end iterator. -/
inductive Visits : ReaderIter → List (List Byte) → Prop where
  | done {it} : it.equal ReaderIter.finish = true → Visits it []
  | step {it it' p ps} : it.equal ReaderIter.finish = false → it.deref = .ok p → it.incr = .ok it' → Visits it' ps →
      Visits it (p :: ps)

end LibLAS.Spec
