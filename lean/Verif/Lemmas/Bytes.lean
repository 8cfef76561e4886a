import Verif.Model.Bytes
import Verif.Spec.Bytes
/-
Lemmas about byte order code and about reading/writing slices of buffers.
-/
set_option linter.unusedSimpArgs false
namespace LibLAS
open Spec

@[simp] theorem leBytes_length {w : Nat} (n : Nat) (v : BitVec w) : (leBytes n v).length = n := by
  simp [leBytes]

theorem leBytes_succ {w : Nat} (n : Nat) (v : BitVec w) :
    leBytes (n + 1) v = v.setWidth 8 :: leBytes n (v >>> 8) := by
  unfold leBytes
  rw [List.range_succ_eq_map]
  simp only [List.map_cons, List.map_map]
  congr 1
  · ext i hi
    simp [BitVec.getElem_extractLsb', hi]
  · apply List.map_congr_left
    intro a _
    ext i hi
    simp [BitVec.getElem_extractLsb', Function.comp]
    congr 1; omega

theorem leNat_leBytes {w : Nat} (n : Nat) (v : BitVec w) :
    leNat (leBytes n v) = v.toNat % 256 ^ n := by
  induction n generalizing v with
  | zero => simp [leBytes, leNat, Nat.mod_one]
  | succ n ih =>
    rw [leBytes_succ, leNat, ih]
    simp only [BitVec.toNat_setWidth, BitVec.toNat_ushiftRight, Nat.shiftRight_eq_div_pow]
    have h8 : (2 : Nat) ^ 8 = 256 := rfl
    rw [h8, Nat.pow_succ 256 n, Nat.mul_comm (256 ^ n) 256, Nat.mod_mul]

theorem leNat_lt (bs : List Byte) : leNat bs < 256 ^ bs.length := by
  induction bs with
  | nil => simp [leNat]
  | cons b bs ih =>
    have := b.isLt
    simp only [leNat, List.length_cons, Nat.pow_succ]
    omega

theorem memValue_little (w : Nat) (bs : List Byte) :
    memValue .little w bs = BitVec.ofNat w (leNat bs) := by
  unfold memValue
  simp only
  congr 1
  induction bs with
  | nil => rfl
  | cons b bs ih => simp [leNat, ih]

theorem memValue_big (w : Nat) (bs : List Byte) :
    memValue .big w bs = BitVec.ofNat w (leNat bs.reverse) := by
  have := memValue_little w bs.reverse
  unfold memValue at *
  simpa using this

theorem leNat_append (a b : List Byte) : leNat (a ++ b) = leNat a + 256 ^ a.length * leNat b := by
  induction a with
  | nil => simp [leNat]
  | cons x a ih =>
    simp only [List.cons_append, leNat, ih, List.length_cons, Nat.pow_succ]
    rw [Nat.mul_add, Nat.add_assoc, Nat.mul_comm (256 ^ a.length) 256, Nat.mul_assoc]

/-- Re-encoding the decoded number gives the original bytes. -/
theorem leBytes_ofNat_leNat (bs : List Byte) :
    leBytes bs.length (BitVec.ofNat (8 * bs.length) (leNat bs)) = bs := by
  have key : ∀ (w : Nat) (bs : List Byte), 8 * bs.length ≤ w →
      leBytes bs.length (BitVec.ofNat w (leNat bs)) = bs := by
    intro w bs
    induction bs generalizing w with
    | nil => intro _; rfl
    | cons b bs ih =>
      intro hw
      simp only [List.length_cons] at hw
      rw [List.length_cons, leBytes_succ]
      have hb := b.isLt
      have hlt := leNat_lt (b :: bs)
      have hp : (256 : Nat) ^ (b :: bs).length ≤ 2 ^ w := by
        have : (256 : Nat) = 2 ^ 8 := rfl
        rw [this, ← Nat.pow_mul]
        exact Nat.pow_le_pow_right (by omega) (by simpa using hw)
      congr 1
      · apply BitVec.eq_of_toNat_eq
        simp only [BitVec.toNat_setWidth, BitVec.toNat_ofNat, leNat]
        rw [Nat.mod_mod_of_dvd _ (Nat.pow_dvd_pow 2 (by omega))]
        omega
      · have hs : (BitVec.ofNat w (leNat (b :: bs))) >>> 8 = BitVec.ofNat w (leNat bs) := by
          apply BitVec.eq_of_toNat_eq
          have h1 : leNat (b :: bs) < 2 ^ w := by omega
          have h2 : leNat bs < 2 ^ w := by simp only [leNat] at h1; omega
          simp only [BitVec.toNat_ushiftRight, BitVec.toNat_ofNat, Nat.shiftRight_eq_div_pow,
            Nat.mod_eq_of_lt h1, Nat.mod_eq_of_lt h2]
          have h8 : (2 : Nat) ^ 8 = 256 := rfl
          rw [h8, leNat, Nat.add_mul_div_left _ _ (by omega), Nat.div_eq_of_lt hb]
          omega
        rw [hs]
        exact ih w (by omega)
  exact key _ bs (Nat.le_refl _)

theorem ofNat_leNat_leBytes (n : Nat) (v : BitVec (8 * n)) :
    BitVec.ofNat (8 * n) (leNat (leBytes n v)) = v := by
  rw [leNat_leBytes]
  apply BitVec.eq_of_toNat_eq
  have hp : (256 : Nat) ^ n = 2 ^ (8 * n) := by
    have : (256 : Nat) = 2 ^ 8 := rfl
    rw [this, ← Nat.pow_mul]
  rw [hp, BitVec.toNat_ofNat, Nat.mod_mod, Nat.mod_eq_of_lt v.isLt]

/-- The storing loop produces the little-endian bytes, for signed and unsigned types. -/
theorem storeForward_eq {w : Nat} (s : Bool) (n : Nat) (v : BitVec w) (h : 8 * n ≤ w) :
    storeForward s n v = leBytes n v := by
  have key : ∀ (m : Nat) (n : Nat) (u v : BitVec w), 8 * n + m ≤ w → (∀ i, i < 8 * n → u.getLsbD i = v.getLsbD i) →
      storeForward s n u = leBytes n v := by
    intro m n
    induction n generalizing m with
    | zero => intro u v _ _; simp [storeForward, leBytes]
    | succ n ih =>
      intro u v hw hu
      have hd : u.setWidth 8 = v.setWidth 8 := by
        ext i hi
        simp only [BitVec.getElem_setWidth]
        exact hu i (by omega)
      rw [leBytes_succ]
      cases n with
      | zero => simp [storeForward, leBytes, hd]
      | succ n =>
        simp only [storeForward, hd]
        congr 1
        apply ih (m + 8)
        · omega
        · intro i hi
          cases s with
          | false =>
            simp only [BitVec.getLsbD_ushiftRight, Bool.false_eq_true, if_false]
            exact hu _ (by omega)
          | true =>
            simp only [if_true, BitVec.getLsbD_sshiftRight, BitVec.getLsbD_ushiftRight]
            have h1 : ¬ (w ≤ i) := by omega
            have h2 : 8 + i < w := by omega
            simp only [h1, h2, decide_false, Bool.not_false, Bool.true_and, if_true]
            exact hu _ (by omega)
  exact key 0 n v v (by omega) (fun _ _ => rfl)

/-- The loading loop computes the little-endian number (for signed types too, at full width). -/
theorem loadForward_eq (w : Nat) (s : Bool) (bs : List Byte) (h : w = 8 * bs.length) :
    loadForward w s bs = BitVec.ofNat w (leNat bs) := by
  have key : ∀ (bs : List Byte) (i : Nat), i < 8 * bs.length → i < w →
      (loadForward w s bs).getLsbD i = (BitVec.ofNat w (leNat bs)).getLsbD i := by
    intro bs
    induction bs with
    | nil => intro i hi; simp at hi
    | cons b bs ih =>
      intro i hi hw
      cases bs with
      | nil =>
        simp only [List.length_singleton] at hi
        have hi8 : i < 8 := by omega
        simp only [loadForward, leNat]
        cases s
        · simp [BitVec.getLsbD_setWidth, BitVec.getLsbD_ofNat, hw, BitVec.getLsbD]
        · rw [if_pos rfl, BitVec.getLsbD_signExtend, BitVec.getLsbD_ofNat]
          simp [hw, hi8, BitVec.getLsbD]
      | cons c cs =>
        have hunf : loadForward w s (b :: c :: cs) = b.setWidth w ||| (loadForward w s (c :: cs) <<< 8) := rfl
        rw [hunf]
        simp only [BitVec.getLsbD_or, BitVec.getLsbD_setWidth, BitVec.getLsbD_shiftLeft, hw, decide_true,
          Bool.true_and, BitVec.getLsbD_ofNat]
        have hb := b.isLt
        have hl : leNat (b :: c :: cs) = b.toNat + 2 ^ 8 * leNat (c :: cs) := rfl
        rw [hl, Nat.add_comm, Nat.testBit_two_pow_mul_add _ hb]
        by_cases h8 : i < 8
        · simp [h8, BitVec.getLsbD]
        · have hlen : i - 8 < 8 * (c :: cs).length := by simp only [List.length_cons] at hi ⊢; omega
          have := ih (i - 8) hlen (by omega)
          rw [this]
          have hz : b.getLsbD i = false := BitVec.getLsbD_of_ge _ _ (by omega)
          simp [h8, hz, BitVec.getLsbD_ofNat]; omega
  apply BitVec.eq_of_getLsbD_eq
  intro i hi
  exact key bs i (by omega) hi

/-! ### Buffer slices -/

theorem readAt_ok {buf : List Byte} {pos k : Nat} (h : pos + k ≤ buf.length) :
    readAt buf pos k = .ok ((buf.drop pos).take k) := by simp [readAt, h]

theorem writeAt_ok {buf : List Byte} {pos : Nat} {bs : List Byte} (h : pos + bs.length ≤ buf.length) :
    writeAt buf pos bs = .ok (buf.take pos ++ bs ++ buf.drop (pos + bs.length)) := by simp [writeAt, h]

/-- The buffer after a successful `writeAt`. -/
def splice (buf : List Byte) (pos : Nat) (bs : List Byte) : List Byte :=
  buf.take pos ++ bs ++ buf.drop (pos + bs.length)

theorem splice_length {buf : List Byte} {pos : Nat} {bs : List Byte} (h : pos + bs.length ≤ buf.length) :
    (splice buf pos bs).length = buf.length := by
  simp [splice]; omega

theorem splice_read_same {buf : List Byte} {pos : Nat} {bs : List Byte} (h : pos + bs.length ≤ buf.length) :
    ((splice buf pos bs).drop pos).take bs.length = bs := by
  have hl : (buf.take pos).length = pos := by simp; omega
  unfold splice
  rw [List.append_assoc, List.drop_append_of_le_length (by omega), List.drop_of_length_le (by omega)]
  simp

theorem splice_getElem? {buf : List Byte} {pos : Nat} {bs : List Byte} (h : pos + bs.length ≤ buf.length)
    (i : Nat) : (splice buf pos bs)[i]? = if i < pos then buf[i]? else if i < pos + bs.length then bs[i - pos]?
      else buf[i]? := by
  unfold splice
  by_cases h1 : i < pos
  · rw [List.getElem?_append_left (by simp; omega), List.getElem?_append_left (by simp; omega)]
    simp [h1, List.getElem?_take]
  · by_cases h2 : i < pos + bs.length
    · rw [List.getElem?_append_left (by simp; omega), List.getElem?_append_right (by simp; omega)]
      simp only [h1, h2, if_false, if_true, List.length_take]
      congr 1; omega
    · rw [List.getElem?_append_right (by simp; omega)]
      simp only [h1, h2, if_false, List.length_append, List.length_take, List.getElem?_drop]
      congr 1; omega

theorem splice_read_other {buf : List Byte} {pos p k : Nat} {bs : List Byte}
    (h : pos + bs.length ≤ buf.length) (hd : p + k ≤ pos ∨ pos + bs.length ≤ p) :
    ((splice buf pos bs).drop p).take k = (buf.drop p).take k := by
  apply List.ext_getElem?
  intro i
  simp only [List.getElem?_take, List.getElem?_drop, splice_getElem? h]
  by_cases hi : i < k
  · simp only [hi, if_true]
    have h1 : ¬ (¬ (p + i < pos) ∧ p + i < pos + bs.length) := by omega
    by_cases h2 : p + i < pos
    · simp [h2]
    · have h3 : ¬ (p + i < pos + bs.length) := by omega
      simp [h2, h3]
  · simp [hi]

end LibLAS
