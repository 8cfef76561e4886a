import Verif.Lemmas.FloatHalf
import Verif.Lemmas.FloatOrder
/-
Every finite bit pattern is a double, and the difference of two different doubles is not zero.
-/
namespace LibLAS.Fl

theorem rep_of_mant {k : ℤ} {e : ℤ} (hk : |k| < 2 ^ 53) (h1 : -1074 ≤ e) (h2 : e ≤ 971) : Rep ((k : ℚ) * 2 ^ e) := by
  refine ⟨k, e, rfl, ?_, h1, ?_⟩
  · exact_mod_cast hk
  · rw [abs_mul, abs_of_pos (two_zpow_pos e)]
    have hk' : |(k : ℚ)| < 2 ^ 53 := by
      have : ((|k| : ℤ) : ℚ) < ((2 ^ 53 : ℤ) : ℚ) := by exact_mod_cast hk
      push_cast at this
      exact this
    calc |(k : ℚ)| * 2 ^ e < 2 ^ 53 * 2 ^ e := by gcongr
      _ = 2 ^ (53 + e) := by rw [zpow_add₀ (by norm_num)]; norm_num
      _ ≤ 2 ^ (1024 : ℤ) := zpow_le_zpow_right₀ (by norm_num) (by omega)

theorem ofBits_rep {b : BitVec 64} {q : ℚ} (h : ofBits b = fin q) : Rep q := by
  unfold ofBits at h
  have hm : b.toNat % 2 ^ 52 < 2 ^ 52 := Nat.mod_lt _ (by norm_num)
  have he : (b.toNat / 2 ^ 52) % 2 ^ 11 < 2048 := Nat.mod_lt _ (by norm_num)
  simp only at h
  generalize b.toNat % 2 ^ 52 = m at *
  generalize (b.toNat / 2 ^ 52) % 2 ^ 11 = e at *
  split at h
  · split at h <;> cases h
  · split at h
    · cases h
      cases b.getLsbD 63
      · have := rep_of_mant (k := m) (e := -1074) (by rw [abs_of_nonneg (by positivity)]; omega) (by omega) (by omega)
        simpa using this
      · have := rep_of_mant (k := -m) (e := -1074) (by rw [abs_neg, abs_of_nonneg (by positivity)]; omega) (by omega) (by omega)
        simpa using this
    · cases h
      cases b.getLsbD 63
      · have := rep_of_mant (k := 2 ^ 52 + m) (e := e - 1075) (by rw [abs_of_nonneg (by positivity)]; omega) (by omega) (by omega)
        have e2 : (((2 ^ 52 + m : ℤ) : ℚ)) = (if false = true then (-1 : ℚ) else 1) * (2 ^ 52 + m) := by push_cast; norm_num
        rwa [e2] at this
      · have := rep_of_mant (k := -(2 ^ 52 + m)) (e := e - 1075) (by rw [abs_neg, abs_of_nonneg (by positivity)]; omega) (by omega) (by omega)
        have e2 : (((-(2 ^ 52 + m) : ℤ) : ℚ)) = (if true = true then (-1 : ℚ) else 1) * (2 ^ 52 + m) := by push_cast; norm_num
        rwa [e2] at this

theorem rep_smallest : Rep ((2 : ℚ) ^ (-1074 : ℤ)) := by
  have := rep_of_mant (k := 1) (e := -1074) (by norm_num) (by omega) (by omega)
  simpa using this

theorem Rep.multiple {q : ℚ} (h : Rep q) : ∃ n : ℤ, q = n * 2 ^ (-1074 : ℤ) := by
  obtain ⟨k, e, rfl, -, he, -⟩ := h
  obtain ⟨j, hj⟩ := pow_grid he
  refine ⟨k * j, ?_⟩
  rw [hj]; push_cast; ring

theorem ofRat_cases {x : ℚ} (h : 0 < rnd x) : Fl.ofRat x = .fin (rnd x) ∨ Fl.ofRat x = .inf false := by
  unfold ofRat
  simp only
  have hb := two_zpow_pos 1024
  generalize (2 : ℚ) ^ (1024 : ℤ) = B at hb ⊢
  split
  · right; rfl
  · rw [if_neg (by linarith)]; left; rfl

/-- The subtraction of a smaller double from a larger one gives something positive. -/
theorem sub_pos_of_lt {a b : ℚ} (ha : Rep a) (hb : Rep b) (h : a < b) : Fl.lt (.fin 0) (Fl.sub (.fin b) (.fin a)) = true := by
  have e : Fl.sub (.fin b) (.fin a) = ofRat (b - a) := by
    show ofRat (b + -a) = _
    rw [sub_eq_add_neg]
  obtain ⟨m, hm⟩ := ha.multiple
  obtain ⟨n, hn⟩ := hb.multiple
  have hp := two_zpow_pos (-1074)
  have h1 := grid_sub hp hm hn h
  have h2 : (2 : ℚ) ^ (-1074 : ℤ) ≤ b - a := by linarith
  have h3 := rnd_le_rnd h2
  rw [rnd_rep rep_smallest] at h3
  rw [e]
  have h4 : 0 < rnd (b - a) := lt_of_lt_of_le hp h3
  have h5 := ofRat_cases h4
  rcases h5 with h5 | h5 <;> rw [h5]
  · exact decide_eq_true h4
  · rfl

end LibLAS.Fl
