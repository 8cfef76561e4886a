import Verif.Lemmas.Float
import Verif.Lemmas.Point
/-
Error analysis of the coordinate scaling.
-/
namespace LibLAS
open Fl

theorem pow_le_1023 {n : Nat} (h : n ≤ 1023) : (2 : ℚ) ^ n ≤ 2 ^ 1023 := pow_le_pow_right₀ (by norm_num) h

/-- Rounding error in units of `s`. -/
theorem rnd_err_div {y s : ℚ} (hs : 1 / 2 ^ 1000 ≤ |s|) :
    |rnd y / s - y / s| ≤ |y / s| / 2 ^ 53 + 1 / 2 ^ 75 := by
  have hs0 : 0 < |s| := lt_of_lt_of_le (by positivity) hs
  rw [← sub_div, abs_div]
  have h1 := rnd_err y
  have h2 : |rnd y - y| / |s| ≤ (|y| / 2 ^ 53 + 1 / 2 ^ 1075) / |s| := div_le_div_of_nonneg_right h1 hs0.le
  refine h2.trans ?_
  rw [add_div, abs_div]
  have h3 : |y| / 2 ^ 53 / |s| = |y| / |s| / 2 ^ 53 := by rw [div_div, div_div, mul_comm]
  have h4 : (1 : ℚ) / 2 ^ 1075 / |s| ≤ 1 / 2 ^ 75 := by
    rw [div_le_iff₀ hs0]
    have h5 : (1 : ℚ) / 2 ^ 1075 = 1 / 2 ^ 75 * (1 / 2 ^ 1000) := by
      rw [show (1075 : Nat) = 75 + 1000 from rfl, pow_add, one_div, one_div, one_div, mul_inv]
    rw [h5]
    exact mul_le_mul_of_nonneg_left hs (by positivity)
  rw [h3]
  exact add_le_add le_rfl h4

theorem rnd_err_unit (y : ℚ) : |rnd y - y| ≤ |y| / 2 ^ 53 + 1 / 2 ^ 75 := by
  have := rnd_err_div (y := y) (s := 1) (by
    rw [abs_one, div_le_one (by positivity)]
    exact one_le_pow₀ (by norm_num))
  simpa using this

/-- `sround` lands within half a unit (plus rounding) of its argument and on an integer. -/
theorem sround_spec {r : ℚ} (hr : |r| ≤ 2 ^ 33) :
    ∃ n : ℤ, Point.sround (fin r) = fin (n : ℚ) ∧ |(n : ℚ) - r| ≤ 1 / 2 + 1 / 2 ^ 19 ∧
      ∀ m : ℤ, |r - m| ≤ 1 / 4 → n = m := by
  have hb : ∀ y : ℚ, |y| ≤ 2 ^ 34 → ofRat y = fin (rnd y) := fun y hy =>
    ofRat_fin (hy.trans (pow_le_1023 (by norm_num)))
  rw [abs_le] at hr
  unfold Point.sround
  by_cases h : (0 : ℚ) < r
  · have hlt : Fl.lt (fin 0) (fin r) = true := by simp [Fl.lt, h]
    rw [if_pos hlt]
    have habs : |r + 1 / 2| ≤ 2 ^ 34 := by rw [abs_le]; constructor <;> norm_num at hr ⊢ <;> linarith [hr.1, hr.2]
    have e := rnd_err_unit (r + 1 / 2)
    have e' : |rnd (r + 1 / 2) - (r + 1 / 2)| ≤ 1 / 2 ^ 19 := by
      have : |r + 1 / 2| / 2 ^ 53 ≤ 1 / 2 ^ 19 - 1 / 2 ^ 75 - 0 ∨ True := Or.inr trivial
      have h2 : |r + 1 / 2| / 2 ^ 53 ≤ (2 ^ 33 + 1) / 2 ^ 53 := by
        apply div_le_div_of_nonneg_right _ (by positivity)
        rw [abs_le]; constructor <;> linarith [hr.1, hr.2]
      norm_num at h2 e ⊢
      linarith
    refine ⟨⌊rnd (r + 1 / 2)⌋, ?_, ?_, ?_⟩
    · simp only [Fl.add]
      rw [hb _ habs]
      rfl
    · have f1 := Int.floor_le (rnd (r + 1 / 2))
      have f2 := Int.lt_floor_add_one (rnd (r + 1 / 2))
      rw [abs_le] at e' ⊢
      constructor <;> linarith [e'.1, e'.2]
    · intro m hm
      rw [abs_le] at e' hm
      rw [Int.floor_eq_iff]
      norm_num at e'
      constructor <;> linarith [e'.1, e'.2, hm.1, hm.2]
  · have hlt : Fl.lt (fin 0) (fin r) = false := by simp [Fl.lt]; linarith
    rw [if_neg (by simp [hlt])]
    have habs : |r + -(1 / 2)| ≤ 2 ^ 34 := by rw [abs_le]; constructor <;> norm_num at hr ⊢ <;> linarith [hr.1, hr.2]
    have e := rnd_err_unit (r + -(1 / 2))
    have e' : |rnd (r + -(1 / 2)) - (r + -(1 / 2))| ≤ 1 / 2 ^ 19 := by
      have h2 : |r + -(1 / 2)| / 2 ^ 53 ≤ (2 ^ 33 + 1) / 2 ^ 53 := by
        apply div_le_div_of_nonneg_right _ (by positivity)
        rw [abs_le]; constructor <;> linarith [hr.1, hr.2]
      norm_num at h2 e ⊢
      linarith
    refine ⟨⌈rnd (r + -(1 / 2))⌉, ?_, ?_, ?_⟩
    · simp only [Fl.sub, Fl.neg, Fl.add]
      rw [hb _ habs]
      rfl
    · have f1 := Int.le_ceil (rnd (r + -(1 / 2)))
      have f2 := Int.ceil_lt_add_one (rnd (r + -(1 / 2)))
      rw [abs_le] at e' ⊢
      constructor <;> linarith [e'.1, e'.2]
    · intro m hm
      rw [abs_le] at e' hm
      rw [Int.ceil_eq_iff]
      norm_num at e'
      constructor <;> linarith [e'.1, e'.2, hm.1, hm.2]

/-- The descaling chain on rationals: value minus offset, divided by scale, rounded. -/
theorem descaled_spec {x s o : ℚ} (hs : 1 / 2 ^ 1000 ≤ |s|) (hs2 : |s| ≤ 2 ^ 900)
    (hr : |(x - o) / s| ≤ 2 ^ 32) :
    ∃ n : ℤ, Point.sround (Fl.div (Fl.sub (fin x) (fin o)) (fin s)) = fin (n : ℚ) ∧
      |(n : ℚ) - (x - o) / s| ≤ 1 / 2 + 1 / 2 ^ 18 ∧
      ∀ m : ℤ, |(x - o) / s - m| ≤ 1 / 4 - 1 / 2 ^ 19 → n = m := by
  have hs0 : 0 < |s| := lt_of_lt_of_le (by positivity) hs
  have hsne : s ≠ 0 := by intro h; simp [h] at hs0
  have hxo : |x - o| ≤ 2 ^ 932 := by
    rw [abs_div, div_le_iff₀ hs0] at hr
    calc |x - o| ≤ 2 ^ 32 * |s| := hr
      _ ≤ 2 ^ 32 * 2 ^ 900 := mul_le_mul_of_nonneg_left hs2 (by positivity)
      _ = 2 ^ 932 := by rw [← pow_add]
  have h1 : Fl.sub (fin x) (fin o) = fin (rnd (x - o)) := by
    have : Fl.sub (fin x) (fin o) = ofRat (x - o) := by simp [Fl.sub, Fl.neg, Fl.add, sub_eq_add_neg]
    rw [this, ofRat_fin (hxo.trans (pow_le_1023 (by norm_num)))]
  have e1 := rnd_err_div (y := x - o) hs
  have e1' : |rnd (x - o) / s - (x - o) / s| ≤ 1 / 2 ^ 20 := by
    have : |(x - o) / s| / 2 ^ 53 ≤ 2 ^ 32 / 2 ^ 53 := div_le_div_of_nonneg_right hr (by positivity)
    norm_num at this e1 ⊢
    linarith
  have hq : |rnd (x - o) / s| ≤ 2 ^ 32 + 1 := by
    rw [abs_le] at hr e1' ⊢
    norm_num at e1'
    constructor <;> linarith [hr.1, hr.2, e1'.1, e1'.2]
  have h2 : Fl.div (fin (rnd (x - o))) (fin s) = fin (rnd (rnd (x - o) / s)) := by
    simp only [Fl.div, hsne, if_false]
    refine ofRat_fin (hq.trans ?_)
    refine le_trans ?_ (pow_le_1023 (n := 33) (by norm_num))
    norm_num
  have e2 := rnd_err_unit (rnd (x - o) / s)
  have e2' : |rnd (rnd (x - o) / s) - rnd (x - o) / s| ≤ 1 / 2 ^ 20 := by
    have : |rnd (x - o) / s| / 2 ^ 53 ≤ (2 ^ 32 + 1) / 2 ^ 53 := div_le_div_of_nonneg_right hq (by positivity)
    norm_num at this e2 ⊢
    linarith
  have hr' : |rnd (rnd (x - o) / s)| ≤ 2 ^ 33 := by
    rw [abs_le] at hq e2' ⊢
    norm_num at e2' hq ⊢
    constructor <;> linarith [hq.1, hq.2, e2'.1, e2'.2]
  obtain ⟨n, hn1, hn2, hn3⟩ := sround_spec hr'
  refine ⟨n, by rw [h1, h2, hn1], ?_, ?_⟩
  · rw [abs_le] at *
    norm_num at *
    constructor <;> linarith [hn2.1, hn2.2, e1'.1, e1'.2, e2'.1, e2'.2]
  · intro m hm
    apply hn3
    rw [abs_le] at hm e1' e2' ⊢
    norm_num at hm e1' e2' ⊢
    constructor <;> linarith [hm.1, hm.2, e1'.1, e1'.2, e2'.1, e2'.2]

/-- Scaling then descaling recovers the integer. -/
theorem descaled_scaled {v : BitVec 32} {s o : ℚ} (hs : 1 / 2 ^ 1000 ≤ |s|) (hs2 : |s| ≤ 2 ^ 900)
    (ho : |o| ≤ 2 ^ 50 * |s|) :
    ∃ x : ℚ, Point.scaled v (fin s) (fin o) = fin x ∧ Point.descaled (fin x) (fin s) (fin o) = .ok v := by
  have hs0 : 0 < |s| := lt_of_lt_of_le (by positivity) hs
  have hsne : s ≠ 0 := by intro h; simp [h] at hs0
  have hv1 := BitVec.le_toInt v
  have hv2 := BitVec.toInt_lt (x := v)
  have hvq : |(v.toInt : ℚ)| ≤ 2 ^ 31 := by
    rw [abs_le]
    constructor
    · have : ((-2 ^ 31 : ℤ) : ℚ) ≤ v.toInt := by exact_mod_cast hv1
      push_cast at this; exact this
    · have : (v.toInt : ℚ) ≤ ((2 ^ 31 : ℤ) : ℚ) := by exact_mod_cast hv2.le
      push_cast at this; exact this
  have hoS : |o / s| ≤ 2 ^ 50 := by rwa [abs_div, div_le_iff₀ hs0]
  -- product
  have hvs : |(v.toInt : ℚ) * s| ≤ 2 ^ 931 := by
    rw [abs_mul]
    calc _ ≤ 2 ^ 31 * (2 : ℚ) ^ 900 := mul_le_mul hvq hs2 hs0.le (by positivity)
      _ = 2 ^ 931 := by rw [← pow_add]
  have h1 : Fl.mul (Fl.ofInt32 v) (fin s) = fin (rnd (v.toInt * s)) := by
    simp only [Fl.ofInt32, Fl.mul]
    exact ofRat_fin (hvs.trans (pow_le_1023 (by norm_num)))
  have e1 := rnd_err_div (y := (v.toInt : ℚ) * s) hs
  rw [mul_div_cancel_right₀ _ hsne] at e1
  have e1' : |rnd (v.toInt * s) / s - v.toInt| ≤ 1 / 2 ^ 21 := by
    have : |(v.toInt : ℚ)| / 2 ^ 53 ≤ 2 ^ 31 / 2 ^ 53 := div_le_div_of_nonneg_right hvq (by positivity)
    norm_num at this e1 ⊢
    linarith
  generalize ha : rnd (v.toInt * s) = a at *
  -- sum
  have hA : |a / s + o / s| ≤ 2 ^ 50 + 2 ^ 31 + 1 := by
    rw [abs_le] at *
    norm_num at *
    constructor <;> linarith [hvq.1, hvq.2, e1'.1, e1'.2, hoS.1, hoS.2]
  have hao : |a + o| ≤ 2 ^ 951 := by
    have : a + o = (a / s + o / s) * s := by field_simp
    rw [this, abs_mul]
    calc _ ≤ (2 ^ 50 + 2 ^ 31 + 1) * (2 : ℚ) ^ 900 := mul_le_mul hA hs2 hs0.le (by positivity)
      _ ≤ 2 ^ 51 * 2 ^ 900 := mul_le_mul_of_nonneg_right (by norm_num) (by positivity)
      _ = 2 ^ 951 := by rw [← pow_add]
  have h2 : Fl.add (fin a) (fin o) = fin (rnd (a + o)) := by
    simp only [Fl.add]
    exact ofRat_fin (hao.trans (pow_le_1023 (by norm_num)))
  have e2 := rnd_err_div (y := a + o) hs
  rw [add_div] at e2
  have e2' : |rnd (a + o) / s - (a / s + o / s)| ≤ 1 / 2 ^ 3 + 1 / 2 ^ 20 := by
    have : |a / s + o / s| / 2 ^ 53 ≤ (2 ^ 50 + 2 ^ 31 + 1) / 2 ^ 53 := div_le_div_of_nonneg_right hA (by positivity)
    norm_num at this e2 ⊢
    linarith
  refine ⟨rnd (a + o), by simp only [Point.scaled]; rw [h1, h2], ?_⟩
  generalize rnd (a + o) = x at *
  have hd : |(x - o) / s - (v.toInt : ℤ)| ≤ 1 / 4 - 1 / 2 ^ 19 := by
    rw [sub_div]
    rw [abs_le] at *
    norm_num at *
    constructor <;> linarith [e1'.1, e1'.2, e2'.1, e2'.2]
  have hb : |(x - o) / s| ≤ 2 ^ 32 := by
    rw [abs_le] at *
    norm_num at *
    constructor <;> linarith [hd.1, hd.2, hvq.1, hvq.2]
  obtain ⟨n, hn1, _, hn3⟩ := descaled_spec hs hs2 hb
  have hnv := hn3 v.toInt hd
  subst hnv
  unfold Point.descaled
  rw [hn1, toInt32_int (by norm_num at hv1; omega) (by norm_num at hv2; omega)]
  simp

end LibLAS
