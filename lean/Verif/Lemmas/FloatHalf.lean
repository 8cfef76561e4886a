import Verif.Lemmas.FloatBits
import Verif.Lemmas.IndexAxis
/-
Rounding of a double plus or minus one half.
-/
namespace LibLAS
namespace Fl

theorem rnd_rep {q : ℚ} (h : Rep q) : rnd q = q := by
  obtain ⟨n, h1, -⟩ := h.scaled
  have : rnd q = rne (q / 2 ^ ulpExp q) * 2 ^ ulpExp q := rfl
  rw [this]
  have h2 : q / 2 ^ ulpExp q = (n : ℚ) := by rw [div_eq_iff (two_zpow_pos _).ne']; exact h1
  rw [h2, rne_int, ← h1]

theorem ulpExp_of {q : ℚ} {j : ℤ} (hj : -1022 ≤ j) (h1 : (2 : ℚ) ^ j ≤ q) (h2 : q < 2 ^ (j + 1)) : ulpExp q = j - 52 := by
  have hq : 0 < q := lt_of_lt_of_le (two_zpow_pos j) h1
  have a1 : Int.log 2 |q| = j := by
    rw [abs_of_pos hq]
    have l1 : j ≤ Int.log 2 q := by
      have := Int.zpow_le_iff_le_log (b := 2) (R := ℚ) (by norm_num) hq (x := j)
      exact this.mp (by exact_mod_cast h1)
    have l2 : Int.log 2 q < j + 1 := by
      have := Int.lt_zpow_iff_log_lt (b := 2) (R := ℚ) (by norm_num) hq (x := j + 1)
      exact this.mp (by exact_mod_cast h2)
    omega
  unfold ulpExp
  rw [a1]; omega

/-- Multiples of a power of two, in integers. -/
theorem grid_sub {a b g : ℚ} {m n : ℤ} (hg : 0 < g) (ha : a = m * g) (hb : b = n * g) (h : a < b) : a ≤ b - g := by
  have : m < n := by
    have : (m : ℚ) * g < n * g := by rw [← ha, ← hb]; exact h
    exact_mod_cast lt_of_mul_lt_mul_right this hg.le
  have h2 : (m : ℚ) ≤ n - 1 := by exact_mod_cast Int.le_sub_one_of_lt this
  rw [ha, hb]
  nlinarith

theorem half_grid {e : ℤ} (h : e ≤ -1) : ∃ k : ℤ, (1 / 2 : ℚ) = k * 2 ^ e := by
  obtain ⟨d, hd⟩ := Int.le.dest h
  refine ⟨2 ^ d, ?_⟩
  push_cast
  rw [← zpow_natCast, ← zpow_add₀ (by norm_num), show (d : ℤ) + e = -1 by omega]
  norm_num

theorem pow_grid {e j : ℤ} (h : e ≤ j) : ∃ k : ℤ, (2 : ℚ) ^ j = k * 2 ^ e := by
  obtain ⟨d, hd⟩ := Int.le.dest h
  refine ⟨2 ^ d, ?_⟩
  push_cast
  rw [← zpow_natCast, ← zpow_add₀ (by norm_num)]
  congr 1; omega

/-- Half subtracted from a double between 1/2 and 2^40 is exact. -/
theorem rnd_sub_half {x : ℚ} (hx : Rep x) (h1 : 1 / 2 ≤ x) (h2 : x < 2 ^ 40) : rnd (x - 1 / 2) = x - 1 / 2 := by
  apply rnd_rep
  obtain ⟨n, e, hn⟩ := hx.scaled
  have hl : ulpExp x ≤ -12 := by
    have : Int.log 2 |x| < 40 := log_lt (by linarith) (by rw [abs_of_nonneg (by linarith)]; exact_mod_cast h2)
    unfold ulpExp; omega
  obtain ⟨k, hk⟩ := half_grid (e := ulpExp x) (by omega)
  have e2 : x - 1 / 2 = ((n - k : ℤ) : ℚ) * 2 ^ ulpExp x := by rw [hk]; push_cast; rw [sub_mul, ← e]
  refine ⟨n - k, ulpExp x, e2, ?_, le_ulpExp x, ?_⟩
  · have a1 : (0 : ℚ) ≤ ((n - k : ℤ) : ℚ) * 2 ^ ulpExp x := by rw [← e2]; linarith
    have a2 : ((n - k : ℤ) : ℚ) * 2 ^ ulpExp x < n * 2 ^ ulpExp x := by rw [← e2, ← e]; linarith
    have b1 : 0 ≤ n - k := by
      by_contra hc
      have : ((n - k : ℤ) : ℚ) < 0 := by exact_mod_cast not_le.mp hc
      have := mul_neg_of_neg_of_pos this (two_zpow_pos (ulpExp x))
      linarith
    have b2 : n - k < n := by exact_mod_cast lt_of_mul_lt_mul_right a2 (two_zpow_pos _).le
    rw [abs_lt] at hn ⊢
    omega
  · rw [abs_of_nonneg (by linarith)]
    calc x - 1 / 2 < (2 : ℚ) ^ (40 : ℤ) := by have : (2 : ℚ) ^ (40 : ℤ) = 2 ^ 40 := by norm_cast
                                              rw [this]; linarith
      _ ≤ 2 ^ (1024 : ℤ) := zpow_le_zpow_right₀ (by norm_num) (by norm_num)

/-- A double from 1/2 on that stays below an integer with one half added is not rounded up to it. -/
theorem rnd_add_half {x : ℚ} {n : ℤ} (hx : Rep x) (h1 : 1 / 2 ≤ x) (hn : (n : ℚ) ≤ 2 ^ 40) (h : x + 1 / 2 < n) :
    rnd (x + 1 / 2) < n := by
  set H : ℚ := n - 1 / 2 with hH
  have n2 : 2 ≤ n := by
    have : (1 : ℚ) < n := by linarith
    have : (1 : ℤ) < n := by exact_mod_cast this
    omega
  have n2' : (2 : ℚ) ≤ n := by exact_mod_cast n2
  have Hpos : 0 < H := by linarith
  set j : ℤ := Int.log 2 H with hj
  have j1 : (2 : ℚ) ^ j ≤ H := by exact_mod_cast Int.zpow_log_le_self (b := 2) (by norm_num) Hpos
  have j2 : H < 2 ^ (j + 1) := by exact_mod_cast Int.lt_zpow_succ_log_self (b := 2) (by norm_num) H
  have j0 : 0 ≤ j := by
    have : (2 : ℚ) ^ (0 : ℤ) < 2 ^ (j + 1) := by
      refine lt_trans ?_ j2
      simp; linarith
    have := (zpow_lt_zpow_iff_right₀ (by norm_num : (1 : ℚ) < 2)).1 this
    omega
  have j40 : j < 40 := by
    have : (2 : ℚ) ^ j < 2 ^ (40 : ℤ) := by
      have e : (2 : ℚ) ^ (40 : ℤ) = 2 ^ 40 := by norm_cast
      rw [e]; linarith
    exact (zpow_lt_zpow_iff_right₀ (by norm_num : (1 : ℚ) < 2)).1 this
  obtain ⟨d, hd⟩ := Int.eq_ofNat_of_zero_le j0
  have pj : (2 : ℚ) ^ j = ((2 ^ d : ℤ) : ℚ) := by rw [hd]; norm_cast
  have pj1 : (2 : ℚ) ^ (j + 1) = ((2 ^ (d + 1) : ℤ) : ℚ) := by rw [hd]; norm_cast
  have nle : n ≤ 2 ^ (d + 1) := by
    by_contra hc
    have : ((2 ^ (d + 1) : ℤ) : ℚ) + 1 ≤ n := by exact_mod_cast not_le.mp hc
    rw [pj1] at j2
    linarith
  have hne : (2 : ℚ) ^ j < H := by
    rcases lt_or_eq_of_le j1 with h | h
    · exact h
    · exfalso
      rw [pj, hH] at h
      have : ((2 * n - 1 : ℤ) : ℚ) = ((2 * 2 ^ d : ℤ) : ℚ) := by push_cast at h ⊢; linarith
      have : 2 * n - 1 = 2 * 2 ^ d := by exact_mod_cast this
      generalize (2 : ℤ) ^ d = q at this
      omega
  set g : ℚ := 2 ^ (j - 52) with hg
  have gpos : 0 < g := two_zpow_pos _
  obtain ⟨kh, ekh⟩ := half_grid (e := j - 52) (by omega)
  obtain ⟨k1, ek1⟩ := pow_grid (e := j - 52) (j := 0) (by omega)
  obtain ⟨kj, ekj⟩ := pow_grid (e := j - 52) (j := j) (by omega)
  rw [← hg] at ekh ek1 ekj
  have en : (n : ℚ) = ((n * k1 : ℤ) : ℚ) * g := by
    push_cast
    rw [mul_assoc, ← ek1]; simp
  have eH : H = ((n * k1 - kh : ℤ) : ℚ) * g := by
    rw [hH, ekh]; push_cast; rw [sub_mul, mul_assoc, ← ek1]; simp
  have xle : x ≤ H - g := by
    by_cases hc : (2 : ℚ) ^ j ≤ x
    · obtain ⟨m, em, -⟩ := hx.scaled
      rw [ulpExp_of (by omega) hc (by linarith)] at em
      exact grid_sub gpos em eH (by linarith)
    · have := grid_sub gpos ekj eH hne
      linarith [not_le.mp hc]
  have rep : Rep (n - g) := by
    have e : (n : ℚ) - g = ((n * k1 - 1 : ℤ) : ℚ) * 2 ^ (j - 52) := by rw [← hg]; push_cast; rw [sub_mul, mul_assoc, ← ek1]; simp
    have lt : (n : ℚ) - g < 2 ^ (j + 1) := by
      rw [pj1]
      have : (n : ℚ) ≤ ((2 ^ (d + 1) : ℤ) : ℚ) := by exact_mod_cast nle
      linarith
    have nn : 0 ≤ (n : ℚ) - g := by
      have : g ≤ 1 := by
        rw [hg]
        calc (2 : ℚ) ^ (j - 52) ≤ 2 ^ (0 : ℤ) := zpow_le_zpow_right₀ (by norm_num) (by omega)
          _ = 1 := by norm_num
      linarith
    refine ⟨_, _, e, ?_, by omega, ?_⟩
    · have lt2 : ((n * k1 - 1 : ℤ) : ℚ) * 2 ^ (j - 52) < ((2 ^ 53 : ℤ) : ℚ) * 2 ^ (j - 52) := by
        rw [← e]
        refine lt.trans_eq ?_
        have : (((2 : ℤ) ^ 53 : ℤ) : ℚ) = 2 ^ (53 : ℤ) := by norm_cast
        rw [this, ← zpow_add₀ (by norm_num)]
        congr 1; omega
      have a1 := lt_of_mul_lt_mul_right lt2 (two_zpow_pos _).le
      have a2 : n * k1 - 1 < 2 ^ 53 := by exact_mod_cast a1
      have a3 : 0 ≤ n * k1 - 1 := by
        by_contra hc
        have : ((n * k1 - 1 : ℤ) : ℚ) < 0 := by exact_mod_cast not_le.mp hc
        have := mul_neg_of_neg_of_pos this (two_zpow_pos (j - 52))
        rw [← e] at this
        linarith
      rw [abs_of_nonneg a3]; exact a2
    · rw [abs_of_nonneg nn]
      exact lt.trans_le (zpow_le_zpow_right₀ (by norm_num) (by omega))
  have := rnd_le_rnd (x := x + 1 / 2) (y := n - g) (by linarith)
  rw [rnd_rep rep] at this
  linarith

/-- Rounding to the nearest integer by adding a half, and the same for a number larger by one. -/
theorem floor_half {x : ℚ} (hx : Rep x) (h1 : 1 / 2 ≤ x) (h2 : x < 2 ^ 39) :
    ⌊rnd (x - 1 / 2)⌋ = ⌊rnd (x + 1 / 2)⌋ - 1 := by
  rw [rnd_sub_half hx h1 (by norm_num at h2 ⊢; linarith)]
  have e : ⌊x - 1 / 2⌋ = ⌊x + 1 / 2⌋ - 1 := by
    rw [show x - 1 / 2 = x + 1 / 2 - (1 : ℤ) by push_cast; ring, Int.floor_sub_intCast]
  rw [e]
  congr 1
  symm
  set n := ⌊x + 1 / 2⌋ with hn
  have f1 : (n : ℚ) ≤ x + 1 / 2 := Int.floor_le _
  have f2 : x + 1 / 2 < ((n + 1 : ℤ) : ℚ) := by push_cast; exact Int.lt_floor_add_one _
  have hb : ((n + 1 : ℤ) : ℚ) ≤ 2 ^ 40 := by push_cast; norm_num at h2 ⊢; linarith
  have n0 : 0 ≤ n := by rw [hn]; exact Int.floor_nonneg.mpr (by linarith)
  rw [Int.floor_eq_iff]
  constructor
  · have := rnd_le_rnd f1
    rwa [Index.rnd_int (by rw [abs_of_nonneg n0]; have : (n : ℚ) ≤ ((2 ^ 40 : ℤ) : ℚ) := by push_cast at hb ⊢; linarith
                           exact_mod_cast this)] at this
  · have := rnd_add_half hx h1 hb f2
    push_cast at this; exact this

end Fl
end LibLAS
