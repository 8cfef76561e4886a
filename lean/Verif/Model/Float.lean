import Mathlib.Data.Rat.Floor
import Mathlib.Data.Int.Log
import Verif.Model.Basic
/-
IEEE 754 binary64 arithmetic as used by the coordinate code: every operation is the exact rational result rounded
once to nearest, ties to even, with gradual underflow and overflow to infinity. Signed zeros are not distinguished
(division by a zero is a NaN here); this is the C++ `double` of an IEC 559 implementation without extended precision.
This is the platform, not library code.
-/
namespace LibLAS

/-- A double: NaN, an infinity (with sign), or a finite rational. -/
inductive Fl where
  | nan
  | inf (neg : Bool)
  | fin (q : ℚ)
  deriving DecidableEq, Repr

namespace Fl

/-- Nearest integer, ties to even. -/
def rne (y : ℚ) : ℤ :=
  let f := ⌊y⌋
  let r := y - f
  if r < 1/2 then f
  else if 1/2 < r then f + 1
  else if f % 2 = 0 then f else f + 1

/-- Exponent of the unit in the last place at magnitude `x`: 53 significant bits, smallest exponent -1074. -/
def ulpExp (x : ℚ) : ℤ := max (Int.log 2 |x| - 52) (-1074)

/-- Round a rational to 53 bits (no overflow check). -/
def rnd (x : ℚ) : ℚ := rne (x / 2 ^ ulpExp x) * 2 ^ ulpExp x

/-- Round a rational to a double. -/
def ofRat (x : ℚ) : Fl :=
  let r := rnd x
  if 2 ^ (1024 : ℤ) ≤ r then inf false
  else if r ≤ -(2 ^ (1024 : ℤ)) then inf true
  else fin r

def add : Fl → Fl → Fl
  | fin a, fin b => ofRat (a + b)
  | inf a, inf b => if a = b then inf a else nan
  | inf a, fin _ => inf a
  | fin _, inf b => inf b
  | _, _ => nan

def neg : Fl → Fl
  | fin a => fin (-a)
  | inf a => inf (!a)
  | nan => nan

def sub (a b : Fl) : Fl := add a (neg b)

def mul : Fl → Fl → Fl
  | fin a, fin b => ofRat (a * b)
  | inf a, inf b => inf (a != b)
  | inf a, fin b => if b = 0 then nan else inf (a != decide (b < 0))
  | fin b, inf a => if b = 0 then nan else inf (a != decide (b < 0))
  | _, _ => nan

/-- Division; a zero divisor gives NaN (the real result, an infinity whose sign depends on the sign of zero, or NaN,
is in no case finite). -/
def div : Fl → Fl → Fl
  | fin a, fin b => if b = 0 then nan else ofRat (a / b)
  | inf a, fin b => if b = 0 then nan else inf (a != decide (b < 0))
  | fin _, inf _ => fin 0
  | _, _ => nan

/-- `<=`; false when a NaN is involved. -/
def le : Fl → Fl → Bool
  | fin a, fin b => decide (a ≤ b)
  | inf true, fin _ => true
  | fin _, inf false => true
  | inf a, inf b => a || !b
  | _, _ => false

/-- `<`. -/
def lt : Fl → Fl → Bool
  | fin a, fin b => decide (a < b)
  | inf true, fin _ => true
  | fin _, inf false => true
  | inf a, inf b => a && !b
  | _, _ => false

/-- `floor`, exact. -/
def floor : Fl → Fl
  | fin a => fin ⌊a⌋
  | x => x

/-- `ceil`, exact. -/
def ceil : Fl → Fl
  | fin a => fin ⌈a⌉
  | x => x

/-- `static_cast<int32_t>(double)`: truncation toward zero; undefined when the truncated value does not fit or the
operand is not finite. -/
def toInt32 : Fl → Outcome (BitVec 32)
  | fin a =>
    let t : ℤ := if 0 ≤ a then ⌊a⌋ else ⌈a⌉
    if -2147483648 ≤ t ∧ t ≤ 2147483647 then .ok (BitVec.ofInt 32 t) else .ub
  | _ => .ub

/-- Conversion of an `int32_t` to `double`, exact. -/
def ofInt32 (v : BitVec 32) : Fl := fin v.toInt

/-- The double with a given bit pattern (both zeros map to 0). -/
def ofBits (b : BitVec 64) : Fl :=
  let neg := b.getLsbD 63
  let e : Nat := (b.toNat / 2 ^ 52) % 2 ^ 11
  let m : Nat := b.toNat % 2 ^ 52
  let sgn : ℚ := if neg then -1 else 1
  if e = 2047 then (if m = 0 then inf neg else nan)
  else if e = 0 then fin (sgn * m * (2 : ℚ) ^ (-1074 : ℤ))
  else fin (sgn * (2 ^ 52 + m) * (2 : ℚ) ^ ((e : ℤ) - 1075))

end Fl
end LibLAS
