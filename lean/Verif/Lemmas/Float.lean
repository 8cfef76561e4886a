import Verif.Model.Float
import Mathlib.Tactic.Linarith
import Mathlib.Tactic.Ring
import Mathlib.Tactic.FieldSimp
import Mathlib.Tactic.NormNum
import Mathlib.Algebra.Order.Field.Power
/-
Error bounds for the rounded operations.
-/
namespace LibLAS.Fl

theorem rne_err (y : ℚ) : |(rne y : ℚ) - y| ≤ 1 / 2 := by
  have h1 := Int.floor_le y
  have h2 := Int.lt_floor_add_one y
  rw [abs_le]
  unfold rne
  simp only
  split
  · constructor <;> linarith
  · split
    · push_cast; constructor <;> linarith
    · split
      · constructor <;> linarith
      · push_cast; constructor <;> linarith

theorem rne_int (n : ℤ) : rne (n : ℚ) = n := by
  unfold rne
  simp

theorem rne_mono {x y : ℚ} (h : x ≤ y) : rne x ≤ rne y := by
  by_contra hc
  have hc : rne y + 1 ≤ rne x := by omega
  have hq : (rne y : ℚ) + 1 ≤ rne x := by exact_mod_cast hc
  have ex := rne_err x
  have ey := rne_err y
  rw [abs_le] at ex ey
  -- both errors are extremal: x = y = rne y + 1/2
  have hx : x = rne y + 1 / 2 := by linarith [ex.1, ex.2, ey.1, ey.2]
  have hy : y = rne y + 1 / 2 := by linarith [ex.1, ex.2, ey.1, ey.2]
  have : x = y := by rw [hx]; exact hy.symm
  rw [this] at hc
  omega

/-- Relative error 2^-53, absolute error 2^-1075 near zero. -/
theorem rnd_err (x : ℚ) : |rnd x - x| ≤ |x| / 2 ^ 53 + 1 / 2 ^ 1075 := by
  have hpos : (0 : ℚ) < 2 ^ ulpExp x := by positivity
  have h1 : rnd x - x = ((rne (x / 2 ^ ulpExp x) : ℚ) - x / 2 ^ ulpExp x) * 2 ^ ulpExp x := by
    unfold rnd
    rw [sub_mul, div_mul_cancel₀ _ hpos.ne']
  have h2 : |rnd x - x| ≤ 1 / 2 * 2 ^ ulpExp x := by
    rw [h1, abs_mul, abs_of_pos hpos]
    exact mul_le_mul_of_nonneg_right (rne_err _) hpos.le
  by_cases hx : x = 0
  · subst hx
    have : rnd 0 = 0 := by simp [rnd, rne]
    rw [this]
    simp only [sub_self, abs_zero]
    positivity
  refine h2.trans ?_
  have habs : (0 : ℚ) ≤ |x| / 2 ^ 53 := by positivity
  unfold ulpExp
  rcases le_total (Int.log 2 |x| - 52) (-1074) with h | h
  · rw [max_eq_right h]
    have : (1 / 2 : ℚ) * 2 ^ (-1074 : ℤ) = 1 / 2 ^ 1075 := by
      have h2 : (2 : ℚ) ^ (1074 : ℤ) = 2 ^ 1074 := zpow_ofNat _ _
      rw [zpow_neg, h2, pow_succ _ 1074, one_div, one_div, mul_inv, mul_comm]
    rw [this]
    exact le_add_of_nonneg_left habs
  · rw [max_eq_left h]
    have he : (0 : ℚ) ≤ 1 / 2 ^ 1075 := by positivity
    · have hxp : 0 < |x| := abs_pos.mpr hx
      have hl := Int.zpow_log_le_self (b := 2) (by norm_num) hxp
      have : (1 / 2 : ℚ) * 2 ^ (Int.log 2 |x| - 52) = 2 ^ Int.log 2 |x| / 2 ^ 53 := by
        rw [zpow_sub₀ (by norm_num)]
        have : (2 : ℚ) ^ (52 : ℤ) = 2 ^ 52 := by norm_cast
        rw [this]
        field_simp
      rw [this]
      have h3 : (2 : ℚ) ^ Int.log 2 |x| / 2 ^ 53 ≤ |x| / 2 ^ 53 := by
        apply div_le_div_of_nonneg_right _ (by positivity)
        exact_mod_cast hl
      linarith

theorem ofRat_fin {x : ℚ} (h : |x| ≤ 2 ^ 1023) : ofRat x = fin (rnd x) := by
  have he := rnd_err x
  have h0 : (1 : ℚ) / 2 ^ 1075 ≤ 1 := by
    rw [div_le_one (by positivity)]
    exact one_le_pow₀ (by norm_num)
  have hbig : (4 : ℚ) ≤ 2 ^ 1023 := by
    calc (4 : ℚ) = 2 ^ 2 := by norm_num
      _ ≤ 2 ^ 1023 := pow_le_pow_right₀ (by norm_num) (by norm_num)
  have hp : (2 : ℚ) ^ (1024 : ℤ) = 2 * 2 ^ 1023 := by
    have : (2 : ℚ) ^ (1024 : ℤ) = 2 ^ 1024 := zpow_ofNat _ _
    rw [this, pow_succ, mul_comm]
  unfold ofRat
  rw [hp]; clear hp
  generalize (2 : ℚ) ^ 1023 = B at *
  generalize (1 : ℚ) / 2 ^ 1075 = e at *
  have h1 : |x| / 2 ^ 53 ≤ B / 4 := by
    have : |x| / 2 ^ 53 ≤ |x| / 4 := by
      apply div_le_div_of_nonneg_left (abs_nonneg x) (by norm_num) (by norm_num)
    linarith
  rw [abs_le] at he h
  simp only
  rw [if_neg, if_neg]
  · rw [not_le]
    linarith [he.1, h.1]
  · rw [not_le]
    linarith [he.2, h.2]

/-- `static_cast<int32_t>` of a double holding an in-range integer. -/
theorem toInt32_int {n : ℤ} (h1 : -2147483648 ≤ n) (h2 : n ≤ 2147483647) :
    toInt32 (fin (n : ℚ)) = .ok (BitVec.ofInt 32 n) := by
  unfold toInt32
  simp [h1, h2]

end LibLAS.Fl
