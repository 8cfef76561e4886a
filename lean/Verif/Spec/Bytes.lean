import Verif.Model.Basic
/-
Specification of the LAS byte order, independent of the library's loops.
-/
namespace LibLAS.Spec

/-- The `n` little-endian bytes of `v`: byte `i` holds bits `8i .. 8i+7`. -/
def leBytes {w : Nat} (n : Nat) (v : BitVec w) : List Byte :=
  (List.range n).map fun i => v.extractLsb' (8 * i) 8

/-- The number denoted by little-endian bytes: `b₀ + 256 b₁ + 256² b₂ + ...`. -/
def leNat : List Byte → Nat
  | [] => 0
  | b :: bs => b.toNat + 256 * leNat bs

end LibLAS.Spec
