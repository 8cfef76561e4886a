import Verif.Lemmas.Float
/-
Rounding keeps the order of the numbers.
-/
namespace LibLAS.Fl

theorem ulpExp_mono {x y : ℚ} (hx : 0 < x) (h : x ≤ y) : ulpExp x ≤ ulpExp y := by
  unfold ulpExp
  rw [abs_of_pos hx, abs_of_pos (hx.trans_le h)]
  have := Int.log_mono_right (b := 2) hx h
  exact max_le_max (by omega) (le_refl _)

theorem rnd_zero : rnd 0 = 0 := by simp [rnd, rne]

theorem rne_nonneg {x : ℚ} (h : 0 ≤ x) : 0 ≤ rne x := by
  have := rne_mono h
  have h0 : rne 0 = 0 := by simpa using rne_int 0
  rwa [h0] at this

theorem rnd_nonneg {x : ℚ} (h : 0 ≤ x) : 0 ≤ rnd x := by
  unfold rnd
  have : (0 : ℚ) < 2 ^ ulpExp x := by positivity
  have h2 : (0 : ℤ) ≤ rne (x / 2 ^ ulpExp x) := rne_nonneg (by positivity)
  have h3 : (0 : ℚ) ≤ rne (x / 2 ^ ulpExp x) := by exact_mod_cast h2
  positivity

/-- `rne` does not pass an integer. -/
theorem rne_le_int {x : ℚ} {n : ℤ} (h : x ≤ n) : rne x ≤ n := by
  have := rne_mono h; rwa [rne_int] at this
theorem int_le_rne {x : ℚ} {n : ℤ} (h : (n : ℚ) ≤ x) : n ≤ rne x := by
  have := rne_mono h; rwa [rne_int] at this

theorem rnd_mono {x y : ℚ} (hx : 0 ≤ x) (h : x ≤ y) : rnd x ≤ rnd y := by
  rcases hx.eq_or_lt with rfl | hx
  · rw [rnd_zero]; exact rnd_nonneg h
  have he := ulpExp_mono hx h
  have hy := hx.trans_le h
  rcases he.eq_or_lt with he | he
  · unfold rnd
    rw [he]
    have hp : (0 : ℚ) < 2 ^ ulpExp y := by positivity
    apply mul_le_mul_of_nonneg_right _ hp.le
    exact_mod_cast rne_mono (div_le_div_of_nonneg_right h hp.le)
  · -- a power of two lies between
    have e1 : ulpExp y = Int.log 2 y - 52 := by
      unfold ulpExp at he ⊢
      rw [abs_of_pos hx, abs_of_pos hy] at *
      omega
    have e2 : Int.log 2 x < ulpExp y + 52 := by
      have : Int.log 2 x - 52 ≤ ulpExp x := by unfold ulpExp; rw [abs_of_pos hx]; exact le_max_left _ _
      omega
    have b1 : x < 2 ^ (ulpExp y + 52) := by
      have h1 := Int.lt_zpow_succ_log_self (b := 2) (by norm_num) x
      refine lt_of_lt_of_le (by exact_mod_cast h1) ?_
      exact zpow_le_zpow_right₀ (by norm_num) (by omega)
    have b2 : (2 : ℚ) ^ (ulpExp y + 52) ≤ y := by
      have h1 := Int.zpow_log_le_self (b := 2) (by norm_num) hy
      rw [e1]
      have : Int.log 2 y - 52 + 52 = Int.log 2 y := by omega
      rw [this]; exact_mod_cast h1
    have key : ∀ e : ℤ, e ≤ ulpExp y → ∃ n : ℤ, (n : ℚ) * 2 ^ e = 2 ^ (ulpExp y + 52) := by
      intro e hle
      refine ⟨2 ^ (ulpExp y + 52 - e).toNat, ?_⟩
      push_cast
      rw [← zpow_natCast, ← zpow_add₀ (by norm_num)]
      congr 1
      omega
    have l1 : rnd x ≤ 2 ^ (ulpExp y + 52) := by
      obtain ⟨n, hn⟩ := key (ulpExp x) he.le
      unfold rnd
      rw [← hn]
      have hp : (0 : ℚ) < 2 ^ ulpExp x := by positivity
      apply mul_le_mul_of_nonneg_right _ hp.le
      have : rne (x / 2 ^ ulpExp x) ≤ n := by
        apply rne_le_int
        rw [div_le_iff₀ hp, hn]; exact b1.le
      exact_mod_cast this
    have l2 : (2 : ℚ) ^ (ulpExp y + 52) ≤ rnd y := by
      obtain ⟨n, hn⟩ := key (ulpExp y) (le_refl _)
      conv_rhs => unfold rnd
      rw [← hn]
      have hp : (0 : ℚ) < 2 ^ ulpExp y := by positivity
      apply mul_le_mul_of_nonneg_right _ hp.le
      have : n ≤ rne (y / 2 ^ ulpExp y) := by
        apply int_le_rne
        rw [le_div_iff₀ hp, hn]; exact b2
      exact_mod_cast this
    exact l1.trans l2

theorem rnd_one : rnd 1 = 1 := by
  have hl : Int.log 2 (1 : ℚ) = 0 := Int.log_one_right 2
  have : ulpExp 1 = -52 := by unfold ulpExp; rw [abs_one, hl]; norm_num
  unfold rnd
  rw [this]
  have h1 : (1 : ℚ) / 2 ^ (-52 : ℤ) = ((2 ^ 52 : ℤ) : ℚ) := by
    rw [zpow_neg, one_div, inv_inv]; norm_num [zpow_ofNat]
  rw [h1, rne_int]
  rw [zpow_neg]
  norm_num [zpow_ofNat]

theorem log_half : Int.log 2 (1 / 2 : ℚ) = -1 := by
  have h : (1 / 2 : ℚ) = ((2 : ℕ) : ℚ) ^ (-1 : ℤ) := by norm_num
  rw [h]
  exact Int.log_zpow (by norm_num) _

/-- A number whose rounding is below one rounds at most to the largest double below one. -/
theorem rnd_lt_one {q : ℚ} (h : rnd q < 1) : rnd q ≤ 1 - 1 / 2 ^ 53 := by
  rcases le_or_gt q (1 / 2) with hq | hq
  · rcases le_or_gt 0 q with h0 | h0
    · have h1 := rnd_err q
      rw [abs_of_nonneg h0] at h1
      rw [abs_le] at h1
      have : (1 : ℚ) / 2 ^ 1075 ≤ 1 / 2 ^ 10 := one_div_le_one_div_of_le (by positivity) (pow_le_pow_right₀ (by norm_num) (by norm_num))
      generalize (1 : ℚ) / 2 ^ 1075 = e at *
      have h2 : q / 2 ^ 53 ≤ 1 / 2 ^ 10 := by
        apply div_le_div₀ <;> norm_num; linarith
      norm_num at *
      linarith [h1.2]
    · have : rnd q ≤ 0 := by
        unfold rnd
        have hp : (0 : ℚ) < 2 ^ ulpExp q := by positivity
        have h3 : rne (q / 2 ^ ulpExp q) ≤ 0 := by
          apply rne_le_int
          rw [div_le_iff₀ hp]; push_cast; linarith
        have h4 : (rne (q / 2 ^ ulpExp q) : ℚ) ≤ 0 := by exact_mod_cast h3
        nlinarith
      have h5 : (0 : ℚ) ≤ 1 - 1 / 2 ^ 53 := by norm_num
      exact this.trans h5
  · have hq1 : q < 1 := by
      by_contra hc
      have := rnd_mono (by norm_num) (not_lt.1 hc)
      rw [rnd_one] at this
      exact absurd h (not_lt.2 this)
    have hq0 : 0 < q := lt_trans (by norm_num) hq
    have hl : Int.log 2 q = -1 := by
      have l1 := Int.log_mono_right (b := 2) (by norm_num) hq.le
      rw [log_half] at l1
      have l2 : Int.log 2 q < 0 := by
        rw [← Int.lt_zpow_iff_log_lt (by norm_num) hq0]
        simpa using hq1
      omega
    have he : ulpExp q = -53 := by
      unfold ulpExp; rw [abs_of_pos hq0, hl]; norm_num
    unfold rnd at h ⊢
    rw [he] at h ⊢
    have hp : (2 : ℚ) ^ (-53 : ℤ) = 1 / 2 ^ 53 := by
      rw [zpow_neg, one_div]; norm_num [zpow_ofNat]
    rw [hp] at h ⊢
    generalize rne (q / (1 / 2 ^ 53)) = n at *
    have hn : n < 2 ^ 53 := by
      have : (n : ℚ) < 2 ^ 53 := by
        rw [mul_one_div, div_lt_one (by positivity)] at h
        exact h
      exact_mod_cast this
    have hn' : (n : ℚ) ≤ 2 ^ 53 - 1 := by
      have : n ≤ 2 ^ 53 - 1 := by omega
      exact_mod_cast this
    rw [mul_one_div, div_le_iff₀ (by positivity)]
    have e9 : ((1 : ℚ) - 1 / 2 ^ 53) * 2 ^ 53 = 2 ^ 53 - 1 := by norm_num
    rw [e9]; exact hn'

/-- A rounded fraction below one times `n` rounds below `n`. -/
theorem rnd_mul_lt {a : ℚ} {n : ℕ} (h0 : 0 ≤ a) (h1 : a ≤ 1 - 1 / 2 ^ 53) (hn : 0 < n) : rnd (a * n) < n := by
  have he := rnd_err (a * n)
  have hn' : (1 : ℚ) ≤ n := by exact_mod_cast hn
  have hp : (0 : ℚ) ≤ a * n := by positivity
  rw [abs_of_nonneg hp, abs_le] at he
  have hs : (1 : ℚ) / 2 ^ 1075 ≤ 1 / 2 ^ 200 := one_div_le_one_div_of_le (by positivity) (pow_le_pow_right₀ (by norm_num) (by norm_num))
  generalize (1 : ℚ) / 2 ^ 1075 = e at *
  have h2 : a * n ≤ (1 - 1 / 2 ^ 53) * n := mul_le_mul_of_nonneg_right h1 (by positivity)
  have h3 := he.2
  have h4 : a * n + a * n / 2 ^ 53 ≤ (1 - 1 / 2 ^ 106) * n := by
    have : a * n + a * n / 2 ^ 53 = (a * n) * (1 + 1 / 2 ^ 53) := by ring
    rw [this]
    have h5 : (a * n) * (1 + 1 / 2 ^ 53) ≤ ((1 - 1 / 2 ^ 53) * n) * (1 + 1 / 2 ^ 53) :=
      mul_le_mul_of_nonneg_right h2 (by positivity)
    refine h5.trans (le_of_eq ?_)
    ring
  have h6 : (1 - 1 / 2 ^ 106) * (n : ℚ) + 1 / 2 ^ 200 < n := by
    have : (1 : ℚ) / 2 ^ 200 < 1 / 2 ^ 106 * n := by
      calc (1 : ℚ) / 2 ^ 200 < 1 / 2 ^ 106 * 1 := by norm_num
        _ ≤ 1 / 2 ^ 106 * (n : ℚ) := mul_le_mul_of_nonneg_left hn' (by positivity)
    have e : (1 - 1 / 2 ^ 106) * (n : ℚ) = n - 1 / 2 ^ 106 * n := by ring
    rw [e]; linarith
  have : rnd (a * n) ≤ a * n + (a * n / 2 ^ 53 + e) := by linarith
  calc rnd (a * n) ≤ a * n + (a * n / 2 ^ 53 + e) := this
    _ = (a * n + a * n / 2 ^ 53) + e := by ring
    _ ≤ (1 - 1 / 2 ^ 106) * n + 1 / 2 ^ 200 := add_le_add h4 hs
    _ < n := h6

theorem rne_neg (y : ℚ) : rne (-y) = - rne y := by
  by_cases hy : y = ⌊y⌋
  · rw [hy, rne_int]
    have : (-((⌊y⌋ : ℤ) : ℚ)) = ((-⌊y⌋ : ℤ) : ℚ) := by push_cast; ring
    rw [this, rne_int]
  · have hf : ⌊-y⌋ = -⌊y⌋ - 1 := by
      rw [Int.floor_eq_iff]
      have h1 := Int.floor_le y
      have h2 := Int.lt_floor_add_one y
      have h3 : (⌊y⌋ : ℚ) < y := lt_of_le_of_ne h1 (fun h => hy h.symm)
      push_cast
      constructor <;> linarith
    unfold rne
    rw [hf]
    simp only
    push_cast
    by_cases c1 : y - ⌊y⌋ < 1 / 2
    · rw [if_neg (by linarith), if_pos (by linarith), if_pos c1]; ring
    · by_cases c2 : 1 / 2 < y - ⌊y⌋
      · rw [if_pos (by linarith), if_neg c1, if_pos c2]; ring
      · rw [if_neg (by linarith), if_neg (by linarith), if_neg c1, if_neg c2]
        split <;> split <;> omega

theorem rnd_neg (x : ℚ) : rnd (-x) = - rnd x := by
  unfold rnd ulpExp
  rw [abs_neg, neg_div, rne_neg]
  push_cast; ring

/-- Rounding keeps the order. -/
theorem rnd_le_rnd {x y : ℚ} (h : x ≤ y) : rnd x ≤ rnd y := by
  rcases le_total 0 x with hx | hx
  · exact rnd_mono hx h
  · rcases le_total 0 y with hy | hy
    · have h1 : rnd (-x) = - rnd x := rnd_neg x
      have h2 := rnd_nonneg (x := -x) (by linarith)
      have h3 := rnd_nonneg hy
      linarith
    · have := rnd_mono (x := -y) (y := -x) (by linarith) (by linarith)
      rw [rnd_neg, rnd_neg] at this
      linarith

end LibLAS.Fl
