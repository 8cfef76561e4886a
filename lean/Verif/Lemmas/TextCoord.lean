import Verif.Lemmas.Las2txt
import Verif.Lemmas.Coord
import Verif.Lemmas.FloatText
/-
Lemmas for C74: a coordinate as text and back.
-/
namespace LibLAS
open Spec.Text Fl

namespace Spec.Text

theorem decimal_unique {p : Nat} {v w : ℚ} {t : List Char} (h1 : Decimal p v t) (h2 : Decimal p w t) : v = w := by
  obtain ⟨n1, i1, f1, e1, ⟨⟨a1, d1⟩, -⟩, l1, -, r1⟩ := h1
  obtain ⟨n2, i2, f2, e2, ⟨⟨a2, d2⟩, -⟩, l2, -, r2⟩ := h2
  have hn : ∀ (n : Bool) (i f : List Char), t = (if n then ['-'] else []) ++ i ++ (if p = 0 then [] else '.' :: f) → i ≠ [] →
      (∀ c ∈ i, '0' ≤ c ∧ c ≤ '9') → (n = true ↔ t.head? = some '-') := by
    intro n i f e a d
    cases n with
    | true => simp [e]
    | false =>
      simp only [Bool.false_eq_true, if_false, List.nil_append] at e
      rw [e, List.head?_append_of_ne_nil _ a]
      simp only [Bool.false_eq_true, false_iff]
      exact Las2txt.head_digit d
  have hnn : n1 = n2 := by
    have := (hn n1 i1 f1 e1 a1 d1).trans (hn n2 i2 f2 e2 a2 d2).symm
    cases n1 <;> cases n2 <;> simp_all
  subst hnn
  rw [e1] at e2
  rw [List.append_assoc, List.append_assoc] at e2
  have e := List.append_cancel_left e2
  have hlen : i1.length = i2.length := by
    have := congrArg List.length e
    by_cases hp : p = 0
    · simpa [hp] using this
    · simp [hp, l1, l2] at this; exact this
  obtain ⟨rfl, ef⟩ := List.append_inj e hlen
  have : f1 = f2 := by
    by_cases hp : p = 0
    · rw [hp] at l1 l2
      rw [List.eq_nil_of_length_eq_zero l1, List.eq_nil_of_length_eq_zero l2]
    · simpa [hp] using ef
  subst this
  rw [r1, r2]

theorem decimal_multiple {p : Nat} {v : ℚ} {t : List Char} (h : Decimal p v t) : ∃ m : ℤ, v = m / 10 ^ p := by
  obtain ⟨n, i, f, -, -, -, -, r⟩ := h
  cases n with
  | true => exact ⟨-(numeral (i ++ f) : ℤ), by rw [r]; push_cast; simp; ring⟩
  | false => exact ⟨(numeral (i ++ f) : ℤ), by rw [r]; push_cast; simp⟩

end Spec.Text

/-- The double of a stored coordinate is close to the coordinate. -/
theorem scaled_close (v : BitVec 32) {s o : ℚ} (hs : 1 / 2 ^ 1000 ≤ |s|) (hs2 : |s| ≤ 2 ^ 900) (ho : |o| ≤ 2 ^ 45 * |s|) :
    ∃ c : ℚ, Point.scaled v (fin s) (fin o) = fin c ∧ |(c - (v.toInt * s + o)) / s| ≤ 1 / 64 ∧ |c / s| ≤ 2 ^ 46 := by
  have hs0 : 0 < |s| := lt_of_lt_of_le (by positivity) hs
  have hsne : s ≠ 0 := by intro h; simp [h] at hs0
  have hv1 := BitVec.le_toInt v
  have hv2 := BitVec.toInt_lt (x := v)
  have hvq : |(v.toInt : ℚ)| ≤ 2 ^ 31 := by
    rw [abs_le]
    constructor
    · have : ((-2 ^ 31 : ℤ) : ℚ) ≤ v.toInt := by exact_mod_cast hv1
      push_cast at this; exact this
    · have : (v.toInt : ℚ) ≤ ((2 ^ 31 : ℤ) : ℚ) := by exact_mod_cast hv2.le
      push_cast at this; exact this
  have hoS : |o / s| ≤ 2 ^ 45 := by rwa [abs_div, div_le_iff₀ hs0]
  have hvs : |(v.toInt : ℚ) * s| ≤ 2 ^ 931 := by
    rw [abs_mul]
    calc _ ≤ 2 ^ 31 * (2 : ℚ) ^ 900 := mul_le_mul hvq hs2 hs0.le (by positivity)
      _ = 2 ^ 931 := by rw [← pow_add]
  have h1 : Fl.mul (Fl.ofInt32 v) (fin s) = fin (rnd (v.toInt * s)) := by
    simp only [Fl.ofInt32, Fl.mul]
    exact ofRat_fin (hvs.trans (pow_le_1023 (by norm_num)))
  have e1 := rnd_err_div (y := (v.toInt : ℚ) * s) hs
  rw [mul_div_cancel_right₀ _ hsne] at e1
  have e1' : |rnd (v.toInt * s) / s - v.toInt| ≤ 1 / 2 ^ 21 := by
    have : |(v.toInt : ℚ)| / 2 ^ 53 ≤ 2 ^ 31 / 2 ^ 53 := div_le_div_of_nonneg_right hvq (by positivity)
    norm_num at this e1 ⊢
    linarith
  generalize ha : rnd (v.toInt * s) = a at *
  have hA : |(a + o) / s| ≤ 2 ^ 45 + 2 ^ 31 + 1 := by
    rw [add_div]
    rw [abs_le] at e1' hvq hoS ⊢
    norm_num at e1' hvq hoS ⊢
    constructor <;> linarith [e1'.1, e1'.2, hvq.1, hvq.2, hoS.1, hoS.2]
  have hao : |a + o| ≤ 2 ^ 1023 := by
    rw [abs_div, div_le_iff₀ hs0] at hA
    calc |a + o| ≤ (2 ^ 45 + 2 ^ 31 + 1) * |s| := hA
      _ ≤ 2 ^ 46 * 2 ^ 900 := mul_le_mul (by norm_num) hs2 hs0.le (by positivity)
      _ = 2 ^ 946 := by rw [← pow_add]
      _ ≤ 2 ^ 1023 := pow_le_1023 (by norm_num)
  have h2 : Fl.add (fin a) (fin o) = fin (rnd (a + o)) := by
    simp only [Fl.add]; exact ofRat_fin hao
  have e2 := rnd_err_div (y := a + o) hs
  have e2' : |rnd (a + o) / s - (a + o) / s| ≤ 1 / 100 := by
    have : |(a + o) / s| / 2 ^ 53 ≤ (2 ^ 45 + 2 ^ 31 + 1) / 2 ^ 53 := div_le_div_of_nonneg_right hA (by positivity)
    norm_num at this e2 ⊢
    linarith
  refine ⟨rnd (a + o), ?_, ?_, ?_⟩
  · unfold Point.scaled
    rw [h1, h2]
  · have : (rnd (a + o) - (v.toInt * s + o)) / s = (rnd (a + o) / s - (a + o) / s) + (a / s - v.toInt) := by
      field_simp; ring
    rw [this]
    rw [abs_le] at e1' e2' ⊢
    norm_num at e1' e2' ⊢
    constructor <;> linarith [e1'.1, e1'.2, e2'.1, e2'.2]
  · rw [abs_le] at e2' hA ⊢
    norm_num at e2' hA ⊢
    constructor <;> linarith [e2'.1, e2'.2, hA.1, hA.2]

/-- Text with `p` decimals of a stored coordinate, read back and stored, gives the stored integer, provided some number
with `p` decimals is within two fifths of a unit of the exact coordinate. -/
theorem text_axis (v : BitVec 32) {s o : ℚ} (hs : 1 / 2 ^ 1000 ≤ |s|) (hs2 : |s| ≤ 2 ^ 900) (ho : |o| ≤ 2 ^ 45 * |s|)
    {p : Nat} {m : ℤ} (hm : |(m : ℚ) / 10 ^ p - (v.toInt * s + o)| ≤ 2 / 5 * |s|) {t : List Char} {w : ℚ}
    (ht : ShowsReal p (Point.scaled v (fin s) (fin o)) t) (hw : Decimal p w t) :
    Point.descaled (Fl.ofRat w) (fin s) (fin o) = .ok v := by
  obtain ⟨c, hc, h1, h2⟩ := scaled_close v hs hs2 ho
  rw [hc] at ht
  obtain ⟨w', hw', hnear, -⟩ := ht
  rw [decimal_unique hw' hw] at hnear
  have hs0 : 0 < |s| := lt_of_lt_of_le (by positivity) hs
  have hsne : s ≠ 0 := by intro h; simp [h] at hs0
  have h10 : (0 : ℚ) < 10 ^ p := by positivity
  -- the text is no further from the double than the multiple
  have hbest : |w - c| ≤ |(m : ℚ) / 10 ^ p - c| := by
    obtain ⟨k, rfl⟩ := decimal_multiple hw
    by_cases hk : k = m
    · rw [hk]
    · have hd : 1 / 10 ^ p ≤ |(k : ℚ) / 10 ^ p - m / 10 ^ p| := by
        rw [← sub_div, abs_div, abs_of_pos h10, div_le_div_iff_of_pos_right h10]
        have : (1 : ℤ) ≤ |k - m| := Int.one_le_abs (sub_ne_zero.2 hk)
        exact_mod_cast this
      have htri : |(k : ℚ) / 10 ^ p - m / 10 ^ p| ≤ |(k : ℚ) / 10 ^ p - c| + |(m : ℚ) / 10 ^ p - c| := by
        have := abs_sub_le ((k : ℚ) / 10 ^ p) c (m / 10 ^ p)
        rwa [abs_sub_comm c] at this
      have e : (1 : ℚ) / 2 / 10 ^ p = 1 / 10 ^ p / 2 := by ring
      rw [e] at hnear
      linarith
  have hu : |((m : ℚ) / 10 ^ p - (v.toInt * s + o)) / s| ≤ 2 / 5 := by
    rw [abs_div, div_le_iff₀ hs0]; exact hm
  have hbest' : |(w - c) / s| ≤ 2 / 5 + 1 / 64 := by
    have h3 : |(m : ℚ) / 10 ^ p - c| / |s| ≤ 2 / 5 + 1 / 64 := by
      have e : (((m : ℚ) / 10 ^ p - c)) / s = ((m : ℚ) / 10 ^ p - (v.toInt * s + o)) / s - (c - (v.toInt * s + o)) / s := by
        ring
      rw [← abs_div, e]
      exact (abs_sub _ _).trans (add_le_add hu h1)
    rw [abs_div]
    exact (div_le_div_of_nonneg_right hbest hs0.le).trans h3
  have hw46 : |w / s| ≤ 2 ^ 46 + 1 := by
    have e : w / s = (w - c) / s + c / s := by ring
    rw [e]
    exact (abs_add_le _ _).trans ((add_le_add hbest' h2).trans (by norm_num))
  have hwfin : Fl.ofRat w = fin (rnd w) := by
    apply ofRat_fin
    rw [abs_div, div_le_iff₀ hs0] at hw46
    calc |w| ≤ (2 ^ 46 + 1) * |s| := hw46
      _ ≤ 2 ^ 47 * 2 ^ 900 := mul_le_mul (by norm_num) hs2 hs0.le (by positivity)
      _ = 2 ^ 947 := by rw [← pow_add]
      _ ≤ 2 ^ 1023 := pow_le_1023 (by norm_num)
  have e3 := rnd_err_div (y := w) hs
  have e3' : |rnd w / s - w / s| ≤ 1 / 100 := by
    have : |w / s| / 2 ^ 53 ≤ (2 ^ 46 + 1) / 2 ^ 53 := div_le_div_of_nonneg_right hw46 (by positivity)
    norm_num at this e3 ⊢
    linarith
  have htot : |(rnd w - o) / s - v.toInt| ≤ 9 / 20 := by
    have e : (rnd w - o) / s - v.toInt = (rnd w / s - w / s) + (w - c) / s + (c - (v.toInt * s + o)) / s := by
      field_simp; ring
    rw [e]
    refine (abs_add_le _ _).trans ?_
    have := abs_add_le (rnd w / s - w / s) ((w - c) / s)
    linarith
  have hvq : |(v.toInt : ℚ)| ≤ 2 ^ 31 := by
    have hv1 := BitVec.le_toInt v
    have hv2 := BitVec.toInt_lt (x := v)
    rw [abs_le]
    constructor
    · have : ((-2 ^ 31 : ℤ) : ℚ) ≤ v.toInt := by exact_mod_cast hv1
      push_cast at this; exact this
    · have : (v.toInt : ℚ) ≤ ((2 ^ 31 : ℤ) : ℚ) := by exact_mod_cast hv2.le
      push_cast at this; exact this
  obtain ⟨n, hn1, hn2, -⟩ := descaled_spec (x := rnd w) (o := o) hs hs2 (by
    rw [abs_le] at htot hvq ⊢
    constructor <;> linarith [htot.1, htot.2, hvq.1, hvq.2])
  have hnv : n = v.toInt := by
    have : |(n : ℚ) - v.toInt| < 1 := by
      have e : (n : ℚ) - v.toInt = (n - (rnd w - o) / s) + ((rnd w - o) / s - v.toInt) := by ring
      rw [e]
      refine lt_of_le_of_lt (abs_add_le _ _) ?_
      have : (1 : ℚ) / 2 ^ 18 < 1 / 100 := by norm_num
      linarith
    have : |n - v.toInt| < 1 := by exact_mod_cast this
    have := Int.abs_lt_one_iff.1 this
    omega
  unfold Point.descaled
  rw [hwfin, hn1, hnv, toInt32_int (by simpa using BitVec.le_toInt v) (by have := BitVec.toInt_lt (x := v); omega)]
  simp

end LibLAS
