import Verif.Lemmas.FloatBits
import Verif.Model.Point
/-
16-digit decimals: how far they are from the number; coordinates are finite and keep the order of the raw values.
-/
namespace LibLAS
namespace Fl

theorem round16_err (q : ℚ) : |round16 q - q| ≤ |q| / (2 * 10 ^ 15) := by
  by_cases h0 : q = 0
  · simp [h0, round16, rne]
  have hp : (0 : ℚ) < 10 ^ decExp q := zpow_pos (by norm_num) _
  have h1 : round16 q - q = ((rne (q / 10 ^ decExp q) : ℚ) - q / 10 ^ decExp q) * 10 ^ decExp q := by
    unfold round16
    rw [sub_mul, div_mul_cancel₀ _ hp.ne']
  have h2 : (10 : ℚ) ^ decExp q * 10 ^ 15 ≤ |q| := by
    have := Int.zpow_log_le_self (b := 10) (by norm_num) (abs_pos.2 h0)
    rw [show ((10 : ℚ) ^ 15) = 10 ^ (15 : ℤ) by norm_cast, ← zpow_add₀ (by norm_num)]
    unfold decExp
    rw [sub_add_cancel]
    exact_mod_cast this
  rw [h1, abs_mul, abs_of_pos hp]
  calc _ ≤ 1 / 2 * (10 : ℚ) ^ decExp q := mul_le_mul_of_nonneg_right (rne_err _) hp.le
    _ ≤ 1 / 2 * (|q| / 10 ^ 15) := by
        apply mul_le_mul_of_nonneg_left _ (by norm_num)
        rw [le_div_iff₀ (by norm_num)]; exact h2
    _ = _ := by ring

/-- A number that is not too large survives the way through text up to a relative error of `10⁻¹⁵`. -/
theorem viaText_spec {q : ℚ} (h : |q| ≤ 2 ^ 1022) :
    ∃ r, viaText (fin q) = .ok (fin r) ∧ Rep r ∧ |r - q| ≤ |q| / 10 ^ 15 + 1 / 2 ^ 1075 := by
  have h1 := round16_err q
  have hq := abs_nonneg q
  have h2 : |round16 q| ≤ |q| + |q| / (2 * 10 ^ 15) := by
    have := abs_sub_abs_le_abs_sub (round16 q) q
    linarith
  have h3 : |round16 q| ≤ 2 ^ 1023 := by
    have e : (2 : ℚ) ^ 1023 = 2 * 2 ^ 1022 := by rw [← pow_succ']
    rw [e]
    clear e
    generalize (2 : ℚ) ^ 1022 = B at *
    have : |q| / (2 * 10 ^ 15) ≤ |q| := div_le_self hq (by norm_num)
    linarith
  have h4 := ofRat_fin h3
  refine ⟨rnd (round16 q), by simp only [viaText, h4], ofRat_rep h4, ?_⟩
  have h5 := rnd_err (round16 q)
  have h6 := abs_add_le (rnd (round16 q) - round16 q) (round16 q - q)
  rw [sub_add_sub_cancel] at h6
  generalize (1 : ℚ) / 2 ^ 1075 = E at *
  have h7 : |round16 q| / 2 ^ 53 ≤ (|q| + |q| / (2 * 10 ^ 15)) / 2 ^ 53 :=
    div_le_div_of_nonneg_right h2 (by norm_num)
  have h8 : |q| / (2 * 10 ^ 15) + (|q| + |q| / (2 * 10 ^ 15)) / 2 ^ 53 ≤ |q| / 10 ^ 15 := by
    norm_num
    linarith
  linarith

/-- What comes back from text is a number a double can hold. -/
theorem viaText_rep {x y : Fl} (h : viaText x = .ok y) : ∃ r, y = fin r ∧ Rep r := by
  cases x with
  | fin q =>
    simp only [viaText] at h
    cases e : ofRat (round16 q) with
    | fin r => rw [e] at h; injection h with h; exact ⟨r, h.symm, ofRat_rep e⟩
    | inf n => rw [e] at h; cases h
    | nan => rw [e] at h; cases h
  | inf n => cases h
  | nan => cases h

theorem bits_viaText {x y : Fl} (h : viaText x = .ok y) : ofBits (toBits y) = y := by
  obtain ⟨r, rfl, hr⟩ := viaText_rep h
  exact ofBits_toBits hr

end Fl

open Fl

/-- Bounds on a scale and an offset under which every coordinate is a finite number. -/
theorem scaled_fin (v : BitVec 32) {s o : ℚ} (hs : |s| ≤ 2 ^ 900) (ho : |o| ≤ 2 ^ 900) :
    Point.scaled v (fin s) (fin o) = fin (rnd (rnd (v.toInt * s) + o)) ∧
      |rnd (rnd (v.toInt * s) + o)| ≤ 2 ^ 1022 := by
  have hv : |(v.toInt : ℚ)| ≤ 2 ^ 31 := by
    have h1 := v.isLt
    have h2 : |v.toInt| ≤ 2 ^ 31 := by rw [BitVec.toInt_eq_toNat_cond]; split <;> rw [abs_le] <;> omega
    exact_mod_cast h2
  have e1 : (2 : ℚ) ^ 1023 = 2 ^ 123 * 2 ^ 900 := by rw [← pow_add]
  have e2 : (2 : ℚ) ^ 1022 = 2 ^ 122 * 2 ^ 900 := by rw [← pow_add]
  have hB : (1 : ℚ) ≤ 2 ^ 900 := one_le_pow₀ (by norm_num)
  have hE : (1 : ℚ) / 2 ^ 1075 ≤ 1 := by
    rw [div_le_one (by positivity)]; exact one_le_pow₀ (by norm_num)
  have hm : |(v.toInt : ℚ) * s| ≤ 2 ^ 31 * 2 ^ 900 := by
    rw [abs_mul]; exact mul_le_mul hv hs (abs_nonneg _) (by norm_num)
  have r1 := rnd_err (v.toInt * s)
  have r2 := rnd_err (rnd (v.toInt * s) + o)
  have f1 : |(v.toInt : ℚ) * s| ≤ 2 ^ 1023 → ofRat (v.toInt * s) = fin (rnd (v.toInt * s)) := ofRat_fin
  have f2 : |rnd (v.toInt * s) + o| ≤ 2 ^ 1023 → ofRat (rnd (v.toInt * s) + o) = fin (rnd (rnd (v.toInt * s) + o)) :=
    ofRat_fin
  rw [e1] at f1 f2
  rw [e2]
  clear e1 e2
  generalize (2 : ℚ) ^ 900 = B at *
  generalize (1 : ℚ) / 2 ^ 1075 = E at *
  have half : ∀ x : ℚ, 0 ≤ x → x / 2 ^ 53 ≤ x := fun x hx => div_le_self hx (by norm_num)
  have b1 : |rnd (v.toInt * s)| ≤ 2 * (2 ^ 31 * B) + 1 := by
    have := abs_sub_abs_le_abs_sub (rnd (v.toInt * s)) (v.toInt * s)
    have := half _ (abs_nonneg ((v.toInt : ℚ) * s))
    linarith
  have b2 : |rnd (v.toInt * s) + o| ≤ 2 * (2 ^ 31 * B) + 1 + B := (abs_add_le _ _).trans (by linarith)
  have b3 : |rnd (rnd (v.toInt * s) + o)| ≤ 2 * (2 * (2 ^ 31 * B) + 1 + B) + 1 := by
    have := abs_sub_abs_le_abs_sub (rnd (rnd (v.toInt * s) + o)) (rnd (v.toInt * s) + o)
    have := half _ (abs_nonneg (rnd ((v.toInt : ℚ) * s) + o))
    linarith
  constructor
  · unfold Point.scaled ofInt32
    simp only [Fl.mul, f1 (hm.trans (by linarith)), Fl.add]
    exact f2 (b2.trans (by linarith))
  · linarith

/-- With a positive scale the coordinate grows with the raw value. -/
theorem scaled_le {v w : BitVec 32} {s o : ℚ} (hpos : 0 < s) (hs : |s| ≤ 2 ^ 900) (ho : |o| ≤ 2 ^ 900)
    (h : v.toInt ≤ w.toInt) : Fl.le (Point.scaled v (fin s) (fin o)) (Point.scaled w (fin s) (fin o)) = true := by
  rw [(scaled_fin v hs ho).1, (scaled_fin w hs ho).1]
  simp only [Fl.le, decide_eq_true_eq]
  apply rnd_le_rnd
  have : rnd (v.toInt * s) ≤ rnd (w.toInt * s) := by
    apply rnd_le_rnd
    exact mul_le_mul_of_nonneg_right (by exact_mod_cast h) hpos.le
  linarith

end LibLAS
