import Verif.Spec.Header
import Mathlib.Data.List.Basic
namespace LibLAS
open Spec

theorem cstr_nil : cstr [] = [] := rfl
theorem cstr_cons (b : Byte) (bs : List Byte) : cstr (b :: bs) = if b = 0#8 then [] else b :: cstr bs := by
  unfold cstr
  by_cases h : b = 0#8
  · subst h; simp
  · rw [List.takeWhile_cons_of_pos (p := fun x : Byte => x != 0#8) (a := b) (by simpa using h), if_neg h]

theorem cstr_eq (bs : List Byte) : cstr bs = untilNul bs := by
  induction bs with
  | nil => rfl
  | cons b bs ih => rw [cstr_cons, ih]; rfl

theorem cstr_length_le (bs : List Byte) : (cstr bs).length ≤ bs.length := (List.takeWhile_prefix _).length_le

theorem cstr_cstr (bs : List Byte) : cstr (cstr bs) = cstr bs := by
  induction bs with
  | nil => rfl
  | cons b bs ih =>
    rw [cstr_cons]
    split
    · rfl
    · rename_i h; rw [cstr_cons, if_neg h, ih]

theorem cstr_append_zeros (bs : List Byte) (n : Nat) : cstr (bs ++ List.replicate n 0#8) = cstr bs := by
  induction bs with
  | nil => cases n <;> simp [List.replicate_succ, cstr_cons, cstr_nil]
  | cons b bs ih => rw [List.cons_append, cstr_cons, cstr_cons, ih]

theorem cstr_padTo (n : Nat) (bs : List Byte) : cstr (padTo n bs) = cstr bs := cstr_append_zeros _ _

theorem padTo_length {n : Nat} {bs : List Byte} (h : bs.length ≤ n) : (padTo n bs).length = n := by
  simp [padTo]; omega

/-- The padded getter of a field of width `n`. -/
def padded (n : Nat) (field : List Byte) : List Byte :=
  let t := cstr field
  if true && t.length < n then padTo n t else t

theorem padded_length {n : Nat} {f : List Byte} (h : f.length = n) : (padded n f).length = n := by
  have := cstr_length_le f
  unfold padded
  dsimp only
  split
  · exact padTo_length (by omega)
  · rename_i hh; simp at hh; omega

theorem padded_eq {n : Nat} {f : List Byte} (h : f.length = n) : padded n f = padTo n (cstr f) := by
  have := cstr_length_le f
  unfold padded
  dsimp only
  split
  · rfl
  · rename_i hh; simp at hh
    have : n - (cstr f).length = 0 := by omega
    simp [padTo, this]

end LibLAS
