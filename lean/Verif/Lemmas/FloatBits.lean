import Verif.Model.FloatText
import Verif.Lemmas.FloatOrder
/-
Bit patterns of doubles; order of rounding; 16-digit decimals.
-/
namespace LibLAS
namespace Fl

/-- Numbers a double can hold. -/
def Rep (q : ℚ) : Prop := ∃ (k e : ℤ), q = k * 2 ^ e ∧ |k| < 2 ^ 53 ∧ -1074 ≤ e ∧ |q| < 2 ^ (1024 : ℤ)

theorem two_zpow_pos (e : ℤ) : (0 : ℚ) < 2 ^ e := zpow_pos (by norm_num) _

theorem log_two_le {q : ℚ} (h0 : q ≠ 0) : (2 : ℚ) ^ Int.log 2 |q| ≤ |q| :=
  Int.zpow_log_le_self (by norm_num) (abs_pos.2 h0)

theorem lt_log_two (q : ℚ) : |q| < 2 ^ (Int.log 2 |q| + 1) := Int.lt_zpow_succ_log_self (by norm_num) _

theorem log_lt {q : ℚ} {e : ℤ} (h0 : q ≠ 0) (h : |q| < 2 ^ e) : Int.log 2 |q| < e := by
  have := lt_of_le_of_lt (log_two_le h0) h
  exact (zpow_lt_zpow_iff_right₀ (by norm_num : (1 : ℚ) < 2)).1 this

theorem le_ulpExp (q : ℚ) : -1074 ≤ ulpExp q := le_max_right _ _

theorem abs_lt_ulp (q : ℚ) : |q| < 2 ^ 53 * 2 ^ ulpExp q := by
  refine lt_of_lt_of_le (lt_log_two q) ?_
  rw [show ((2 : ℚ) ^ 53) = 2 ^ (53 : ℤ) by norm_cast, ← zpow_add₀ (by norm_num)]
  apply zpow_le_zpow_right₀ (by norm_num)
  have : Int.log 2 |q| - 52 ≤ ulpExp q := le_max_left _ _
  omega

theorem Rep.scaled {q : ℚ} (h : Rep q) : ∃ n : ℤ, q = n * 2 ^ ulpExp q ∧ |n| < 2 ^ 53 := by
  obtain ⟨k, e, h1, h2, h3, h4⟩ := h
  by_cases h0 : q = 0
  · exact ⟨0, by simp [h0], by norm_num⟩
  have hk : |(k : ℚ)| < 2 ^ 53 := by exact_mod_cast h2
  have hq : |q| < 2 ^ (e + 53) := by
    rw [h1, abs_mul, abs_of_pos (two_zpow_pos e), add_comm, zpow_add₀ (by norm_num)]
    exact mul_lt_mul_of_pos_right (by exact_mod_cast hk) (two_zpow_pos e)
  have hl := log_lt h0 hq
  have hu : ulpExp q ≤ e := by unfold ulpExp; omega
  obtain ⟨d, hd⟩ := Int.le.dest hu
  have hn : q = ((k * 2 ^ d : ℤ) : ℚ) * 2 ^ ulpExp q := by
    rw [h1]
    conv_lhs => rw [← hd]
    rw [zpow_add₀ (by norm_num), ← h1]
    push_cast
    rw [zpow_natCast]; ring
  refine ⟨_, hn, ?_⟩
  have h5 := abs_lt_ulp q
  rw [hn, abs_mul, abs_of_pos (two_zpow_pos _)] at h5
  rw [← hn] at h5
  have h6 : |((k * 2 ^ d : ℤ) : ℚ)| < 2 ^ 53 := lt_of_mul_lt_mul_right h5 (two_zpow_pos _).le
  exact_mod_cast h6

theorem rnd_rep_of {x : ℚ} (h : |rnd x| < 2 ^ (1024 : ℤ)) : Rep (rnd x) := by
  set k := rne (x / 2 ^ ulpExp x) with hk
  have hb : |x / 2 ^ ulpExp x| ≤ 2 ^ 53 := by
    rw [abs_div, abs_of_pos (two_zpow_pos _), div_le_iff₀ (two_zpow_pos _)]
    exact (abs_lt_ulp x).le
  have hle : |k| ≤ 2 ^ 53 := by
    rw [abs_le] at hb ⊢
    constructor
    · exact int_le_rne (by push_cast; linarith [hb.1])
    · exact rne_le_int (by push_cast; linarith [hb.2])
  have hr : rnd x = k * 2 ^ ulpExp x := rfl
  rcases lt_or_eq_of_le hle with hl | he
  · exact ⟨k, ulpExp x, hr, hl, le_ulpExp x, h⟩
  · have : k = 2 * (k / 2) := by
      rcases abs_eq (by norm_num : (0 : ℤ) ≤ 2 ^ 53) |>.1 he with h1 | h1 <;> rw [h1] <;> norm_num
    refine ⟨k / 2, ulpExp x + 1, ?_, ?_, by have := le_ulpExp x; omega, h⟩
    · rw [hr, zpow_add₀ (by norm_num)]
      conv_lhs => rw [this]
      push_cast; ring
    · rcases abs_eq (by norm_num : (0 : ℤ) ≤ 2 ^ 53) |>.1 he with h1 | h1 <;> rw [h1] <;> norm_num

theorem ofRat_rep {x q : ℚ} (h : ofRat x = fin q) : Rep q := by
  unfold ofRat at h
  dsimp only at h
  generalize hb : (2 : ℚ) ^ (1024 : ℤ) = B at h
  split at h
  · cases h
  · rename_i ha
    split at h
    · cases h
    · rename_i hc
      injection h with h
      rw [← h]
      apply rnd_rep_of
      rw [hb, abs_lt]
      exact ⟨not_le.1 hc, not_le.1 ha⟩

/-- The mantissa and exponent of a number a double can hold. -/
theorem Rep.parts {q : ℚ} (h : Rep q) : |q| = (mant q : ℚ) * 2 ^ ulpExp q ∧ mant q < 2 ^ 53 ∧ ulpExp q ≤ 971 ∧
    (q ≠ 0 → mant q < 2 ^ 52 → ulpExp q = -1074) := by
  obtain ⟨n, h1, h2⟩ := h.scaled
  have hm : mant q = n.natAbs := by
    unfold mant
    have : |q| / 2 ^ ulpExp q = ((n.natAbs : ℤ) : ℚ) := by
      rw [div_eq_iff (two_zpow_pos _).ne']
      conv_lhs => rw [h1, abs_mul, abs_of_pos (two_zpow_pos _)]
      simp
    rw [this, Int.floor_intCast]; rfl
  have hlt : n.natAbs < 2 ^ 53 := by have : ((n.natAbs : ℕ) : ℤ) < 2 ^ 53 := by rwa [Int.natCast_natAbs]
                                     exact_mod_cast this
  have habs : |q| = (mant q : ℚ) * 2 ^ ulpExp q := by
    rw [hm]
    conv_lhs => rw [h1, abs_mul, abs_of_pos (two_zpow_pos _)]
    simp
  refine ⟨habs, hm ▸ hlt, ?_, ?_⟩
  · unfold ulpExp
    by_cases h0 : q = 0
    · simp [h0]
    · obtain ⟨_, _, _, _, _, h4⟩ := h
      have := log_lt h0 h4
      omega
  · intro h0 hsm
    · by_contra hne
      have hgt : Int.log 2 |q| - 52 = ulpExp q := by unfold ulpExp at hne ⊢; omega
      have h3 := log_two_le h0
      rw [show Int.log 2 |q| = 52 + ulpExp q by omega, zpow_add₀ (by norm_num)] at h3
      conv_rhs at h3 => rw [habs]
      have h4 := le_of_mul_le_mul_right h3 (two_zpow_pos _)
      have h5 : (2 ^ 52 : ℕ) ≤ mant q := by
        have h6 : ((2 ^ 52 : ℕ) : ℚ) ≤ (mant q : ℚ) := by
          refine le_trans (le_of_eq ?_) h4
          norm_num
        exact_mod_cast h6
      omega

theorem sgn_mul_abs (q : ℚ) : (if decide (q < 0) = true then (-1 : ℚ) else 1) * |q| = q := by
  by_cases h : q < 0
  · simp [h, abs_of_neg h]
  · push Not at h
    simp [not_lt.2 h, abs_of_nonneg h]

/-- A double survives being stored as a bit pattern. -/
theorem ofBits_toBits {q : ℚ} (h : Rep q) : ofBits (toBits (fin q)) = fin q := by
  obtain ⟨h1, h2, h3, h4⟩ := h.parts
  have hlow := le_ulpExp q
  have hE : biased q < 2047 := by unfold biased; split <;> omega
  have hM : mant q % 2 ^ 52 < 2 ^ 52 := Nat.mod_lt _ (by norm_num)
  generalize hs : (if q < 0 then 2 ^ 63 else 0) = S
  have hS : S = 0 ∨ S = 2 ^ 63 := by rw [← hs]; split <;> simp
  have hN : (toBits (fin q)).toNat = S + biased q * 2 ^ 52 + mant q % 2 ^ 52 := by
    unfold toBits
    rw [BitVec.toNat_ofNat, hs, Nat.mod_eq_of_lt]
    rcases hS with h | h <;> rw [h] <;> omega
  have hneg : (toBits (fin q)).getLsbD 63 = decide (q < 0) := by
    rw [BitVec.getLsbD, Nat.testBit_eq_decide_div_mod_eq, hN]
    rw [← hs]
    by_cases hq : q < 0
    · simp only [hq, if_true, decide_true, decide_eq_true_eq]; omega
    · simp only [hq, if_false, decide_false, decide_eq_false_iff_not]; omega
  have he : (toBits (fin q)).toNat / 2 ^ 52 % 2 ^ 11 = biased q := by
    rw [hN]; rcases hS with h | h <;> rw [h] <;> omega
  have hm : (toBits (fin q)).toNat % 2 ^ 52 = mant q % 2 ^ 52 := by
    rw [hN]; rcases hS with h | h <;> rw [h] <;> omega
  unfold ofBits
  dsimp only
  rw [hneg, he, hm, if_neg (by omega)]
  by_cases hsm : mant q < 2 ^ 52
  · have hb : biased q = 0 := by unfold biased; rw [if_pos hsm]
    rw [hb, if_pos rfl, Nat.mod_eq_of_lt hsm]
    by_cases h0 : q = 0
    · subst h0
      simp [mant]
    rw [h4 h0 hsm] at h1
    congr 1
    rw [mul_assoc, ← h1, sgn_mul_abs]
  · have hb : biased q = (ulpExp q + 1075).toNat := by unfold biased; rw [if_neg hsm]
    rw [if_neg (by omega)]
    congr 1
    have e1 : ((biased q : ℕ) : ℤ) - 1075 = ulpExp q := by omega
    have e2 : (2 ^ 52 + ((mant q % 2 ^ 52 : ℕ) : ℚ)) = (mant q : ℚ) := by
      have : mant q = 2 ^ 52 + mant q % 2 ^ 52 := by omega
      conv_rhs => rw [this]
      push_cast; ring
    rw [e1, e2, mul_assoc, ← h1, sgn_mul_abs]

end Fl
end LibLAS
