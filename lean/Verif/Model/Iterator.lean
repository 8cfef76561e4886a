import Verif.Model.Reader
/-
include/liblas/iterator.hpp: `reader_iterator`, `writer_iterator`.
-/
namespace LibLAS

/-- include/liblas/iterator.hpp:58-140 `reader_iterator`: a pointer to a reader, null at the end. The reader it points
to is carried along; there is one reader, so two non-null iterators are equal. -/
structure ReaderIter where
  reader : Option Reader

namespace ReaderIter

/-- include/liblas/iterator.hpp:69-71: past the end. -/
def finish : ReaderIter := ⟨none⟩

/-- include/liblas/iterator.hpp:131-137 `getval`. -/
def getval (it : ReaderIter) : Outcome ReaderIter :=
  match it.reader with
  | none => .ok it
  | some r =>
    match r.readNext with
    | (r, .ok true) => .ok ⟨some r⟩
    | (_, .ok false) => .ok ⟨none⟩
    | (_, .throw e) => .throw e
    | (_, .ub) => .ub

/-- include/liblas/iterator.hpp:75-82: the constructor reads the first point. -/
def start (r : Reader) : Outcome ReaderIter := getval ⟨some r⟩

/-- include/liblas/iterator.hpp:85-94 `operator*`. -/
def deref (it : ReaderIter) : Outcome (List Byte) :=
  match it.reader with
  | some r => .ok r.point
  | none => .throw .runtimeError

/-- include/liblas/iterator.hpp:105-110 `operator++`. -/
def incr (it : ReaderIter) : Outcome ReaderIter := it.getval

/-- include/liblas/iterator.hpp:124-127 `equal`: the same reader pointer. -/
def equal (a b : ReaderIter) : Bool := a.reader.isSome == b.reader.isSome

end ReaderIter
end LibLAS
