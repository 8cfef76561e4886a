import Verif.Model.Float
import Mathlib.Data.Nat.Bits
/-
Morton codes (Z-order): the binary digits of two numbers, taken in turn.
-/
namespace LibLAS.Spec

/-- `k` is the Morton code of `x` and `y`: its binary digits are those of `y` at the even places and those of `x` at the odd ones. -/
def Interleaves (k x y : Nat) : Prop := ∀ i, k.testBit (2 * i) = y.testBit i ∧ k.testBit (2 * i + 1) = x.testBit i

/-- The place of a raw coordinate on the grid of all multiples of the scale, counted from the global offset `g` (also a multiple);
the offset of the file is the multiple `q` of the scale. -/
def onGrid (raw : BitVec 32) (q g : Int) : Int := raw.toInt + q - g

/-- The offset is a multiple of the scale: exactly `q` times. -/
def Multiple (offset scale : Fl) (q : Int) : Prop :=
  ∃ o s : ℚ, offset = .fin o ∧ scale = .fin s ∧ s ≠ 0 ∧ o = q * s ∧ |q| < 2 ^ 53

end LibLAS.Spec
