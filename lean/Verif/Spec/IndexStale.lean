import Verif.Model.IndexLife
/-
When an index is up to date.
-/
namespace LibLAS.Spec
open Index

/-- Two bounds that are the same up to 2^-52. -/
def SameValue (u v : BitVec 64) : Prop := ∃ p q, Fl.ofBits u = .fin p ∧ Fl.ofBits v = .fin q ∧ |p - q| ≤ 1 / 2 ^ 52

/-- Two bounds that differ by more than that (at least by the next larger double), or of which one is no number. -/
def Apart (u v : BitVec 64) : Prop :=
  (∀ p, Fl.ofBits u ≠ .fin p) ∨ (∀ q, Fl.ofBits v ≠ .fin q) ∨
    ∃ p q, Fl.ofBits u = .fin p ∧ Fl.ofBits v = .fin q ∧ 1 / 2 ^ 52 + 1 / 2 ^ 104 ≤ |p - q|

/-- An index with this header record describes a file with this header as it is. -/
structure Current (i : Info) (h : LibLAS.Header) : Prop where
  points : i.points = h.pointCount.toNat
  minX : SameValue i.minX h.min.x
  minY : SameValue i.minY h.min.y
  minZ : SameValue i.minZ h.min.z
  maxX : SameValue i.maxX h.max.x
  maxY : SameValue i.maxY h.max.y
  maxZ : SameValue i.maxZ h.max.z

/-- ... or not: the number of points or a bound is another. -/
def Outdated (i : Info) (h : LibLAS.Header) : Prop :=
  i.points ≠ h.pointCount.toNat ∨ Apart i.minX h.min.x ∨ Apart i.minY h.min.y ∨ Apart i.minZ h.min.z ∨
    Apart i.maxX h.max.x ∨ Apart i.maxY h.max.y ∨ Apart i.maxZ h.max.z

/-- The first index record among the records of a header is the index header with the contents `i`. -/
def HasIndex (h : LibLAS.Header) (i : Info) : Prop :=
  ∃ pre post, h.vlrs = pre ++ headerRecord i :: post ∧
    ∀ v ∈ pre, ¬ (v.getUserId false = lit "liblas" ∧ (v.recordId = 42#16 ∨ v.recordId = 43#16))

end LibLAS.Spec
