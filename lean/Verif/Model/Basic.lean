/-
Common vocabulary of the model: bytes, C++ outcomes, byte buffers.
-/
namespace LibLAS

/-- A byte of a record or stream (`uint8_t`, `char`). -/
abbrev Byte := BitVec 8

/-- The exception classes thrown by the modelled code.
`liblas::liblas_error`, `invalid_format`, `invalid_point_data`, ... are from
include/liblas/exception.hpp:52-118; the others are the standard ones. -/
inductive Exc where
  | invalidArgument   -- std::invalid_argument
  | outOfRange        -- std::out_of_range
  | runtimeError      -- std::runtime_error
  | domainError       -- std::domain_error
  | invalidFormat     -- liblas::invalid_format
  | invalidPointData  -- liblas::invalid_point_data
  | liblasError       -- liblas::liblas_error
  | configError       -- liblas::configuration_error
  deriving DecidableEq, Repr

/-- Result of running a piece of C++: a value, an exception, or undefined behaviour. -/
inductive Outcome (α : Type) where
  | ok (a : α)
  | throw (e : Exc)
  | ub
  deriving DecidableEq, Repr

namespace Outcome

def bind {α β : Type} (x : Outcome α) (f : α → Outcome β) : Outcome β :=
  match x with
  | ok a => f a
  | throw e => throw e
  | ub => ub

instance : Monad Outcome where
  pure := ok
  bind := bind

@[simp] theorem bind_ok {α β : Type} (a : α) (f : α → Outcome β) : (ok a >>= f) = f a := rfl
@[simp] theorem bind_throw {α β : Type} (e : Exc) (f : α → Outcome β) :
    ((throw e : Outcome α) >>= f) = throw e := rfl
@[simp] theorem bind_ub {α β : Type} (f : α → Outcome β) : ((ub : Outcome α) >>= f) = ub := rfl
@[simp] theorem pure_eq {α : Type} (a : α) : (pure a : Outcome α) = ok a := rfl

/-- The outcome is a value (neither an exception nor undefined behaviour). -/
def isOk {α : Type} : Outcome α → Bool
  | ok _ => true
  | _ => false

end Outcome

/-- Read `k` bytes at `pos` of a buffer; touching a byte outside the buffer is undefined behaviour
(pointer arithmetic on `&v[0]`, no bounds check). -/
def readAt (buf : List Byte) (pos k : Nat) : Outcome (List Byte) :=
  if pos + k ≤ buf.length then .ok ((buf.drop pos).take k) else .ub

/-- Overwrite the bytes of `buf` from `pos` on with `bs`; out of bounds is undefined behaviour. -/
def writeAt (buf : List Byte) (pos : Nat) (bs : List Byte) : Outcome (List Byte) :=
  if pos + bs.length ≤ buf.length then
    .ok (buf.take pos ++ bs ++ buf.drop (pos + bs.length))
  else .ub

end LibLAS
