import Verif.Model.Chipper
import Verif.Lemmas.Float
import Mathlib.Tactic.Linarith
import Mathlib.Tactic.Positivity
import Mathlib.Tactic.NormNum
import Mathlib.Tactic.FieldSimp
import Mathlib.Tactic.Ring
/-
The partition table of the chipper: `Partition` accumulates a rounded step in floating point. For point counts up to
`size * blocks <= 2^48` the accumulated error stays small enough.
-/
namespace LibLAS.Chipper

open Fl

/-- One rounding of a number of moderate size. -/
theorem rnd_small {x : ℚ} (h1 : 1 / 2 ≤ x) : |rnd x - x| ≤ x / 2 ^ 52 := by
  have h := rnd_err x
  have ha : |x| = x := abs_of_nonneg (by linarith)
  rw [ha] at h
  refine h.trans ?_
  have h3 : (1 : ℚ) / 2 ^ 1075 ≤ 1 / 2 ^ 54 := by
    apply one_div_le_one_div_of_le (by positivity)
    exact pow_le_pow_right₀ (by norm_num) (by norm_num)
  generalize (1 : ℚ) / 2 ^ 1075 = z at *
  have : x / 2 ^ 53 + x / 2 ^ 53 = x / 2 ^ 52 := by ring
  have : (1 : ℚ) / 2 ^ 54 ≤ x / 2 ^ 53 := by
    rw [div_le_div_iff₀ (by positivity) (by positivity)]; nlinarith [pow_pos (show (0:ℚ) < 2 by norm_num) 53]
  linarith

theorem two_pow_le_1023 {x : ℚ} (h : |x| ≤ 2 ^ 60) : |x| ≤ 2 ^ 1023 :=
  h.trans (pow_le_pow_right₀ (by norm_num) (by norm_num))

theorem ofRat_small {x : ℚ} (h0 : 0 ≤ x) (h : x ≤ 2 ^ 60) : ofRat x = fin (rnd x) :=
  ofRat_fin (two_pow_le_1023 (by rwa [abs_of_nonneg h0]))

/-- The rational totals that the loop goes through. -/
def totals (q : ℚ) : Nat → ℚ
  | 0 => 0
  | i + 1 => rnd (totals q i + q)

/-- What is rounded down to give partition `i`. -/
def shifted (q : ℚ) (i : Nat) : ℚ := rnd (totals q i + 1 / 2)

theorem totals_err {q m : ℚ} {n k : Nat} (hn : 1 ≤ n) (hk : 1 ≤ k) (hkn : k ≤ n) (hm : m * k = n)
    (hq : |q - m| ≤ m / 2 ^ 52) (hb : n * k ≤ 2 ^ 48) (i : Nat) (hi : i ≤ k) :
    |totals q i - i * m| ≤ i * (4 * n / 2 ^ 52) := by
  have hnq : (1 : ℚ) ≤ n := by exact_mod_cast hn
  have hkq : (1 : ℚ) ≤ k := by exact_mod_cast hk
  have hbq : (n : ℚ) * k ≤ 2 ^ 48 := by exact_mod_cast hb
  have hm1 : 1 ≤ m := by
    have : (k : ℚ) ≤ n := by exact_mod_cast hkn
    by_contra hc
    have : m * k < 1 * k := by
      apply mul_lt_mul_of_pos_right (by linarith) (by linarith)
    linarith
  have hmn : m ≤ n := by nlinarith
  induction i with
  | zero => simp [totals]
  | succ i ih =>
    have ih := ih (by omega)
    have hik : (i : ℚ) + 1 ≤ k := by exact_mod_cast hi
    have hi0 : (0 : ℚ) ≤ i := by positivity
    have hT : (i + 1 : ℚ) * m ≤ n := by rw [← hm]; nlinarith
    have herr : (i : ℚ) * (4 * n / 2 ^ 52) ≤ 1 / 4 := by
      have h1 : (i : ℚ) * n ≤ 2 ^ 48 := by nlinarith
      have : (i : ℚ) * (4 * n / 2 ^ 52) = 4 * (i * n) / 2 ^ 52 := by ring
      rw [this, div_le_div_iff₀ (by positivity) (by norm_num)]
      norm_num at h1 ⊢; linarith
    have hq2 : m / 2 ^ 52 ≤ 1 / 4 := by
      rw [div_le_div_iff₀ (by positivity) (by norm_num)]
      have : (n : ℚ) ≤ 2 ^ 48 := by nlinarith
      have h2 : (2 : ℚ) ^ 48 * 4 ≤ 2 ^ 52 := by norm_num
      linarith
    rw [abs_le] at ih hq
    have hs1 : 1 / 2 ≤ totals q i + q := by
      have : 0 ≤ (i : ℚ) * m := by positivity
      linarith
    have hs2 : totals q i + q ≤ n + 1 / 2 := by nlinarith
    have hr := rnd_small hs1
    have hr2 : (totals q i + q) / 2 ^ 52 ≤ 2 * n / 2 ^ 52 := by
      apply div_le_div_of_nonneg_right _ (by positivity); linarith
    have hr3 : m / 2 ^ 52 ≤ n / 2 ^ 52 := div_le_div_of_nonneg_right hmn (by positivity)
    rw [abs_le] at hr
    show |rnd (totals q i + q) - ((i + 1 : Nat) : ℚ) * m| ≤ ((i + 1 : Nat) : ℚ) * (4 * n / 2 ^ 52)
    push_cast
    have e : (i + 1 : ℚ) * (4 * n / 2 ^ 52) = i * (4 * n / 2 ^ 52) + 2 * n / 2 ^ 52 + n / 2 ^ 52 + n / 2 ^ 52 := by ring
    have hnn : (0 : ℚ) ≤ n / 2 ^ 52 := by positivity
    have e2 : (i + 1 : ℚ) * m = i * m + m := by ring
    rw [e, e2, abs_le]
    generalize (i : ℚ) * (4 * n / 2 ^ 52) = a at *
    generalize (i : ℚ) * m = b at *
    generalize 2 * (n : ℚ) / 2 ^ 52 = c at *
    generalize (n : ℚ) / 2 ^ 52 = d at *
    generalize m / 2 ^ 52 = e' at *
    generalize (totals q i + q) / 2 ^ 52 = e'' at *
    constructor <;> linarith

section
variable {q m : ℚ} {n k : Nat} (hn : 1 ≤ n) (hk : 1 ≤ k) (hkn : k ≤ n) (hm : m * k = n)
    (hq : |q - m| ≤ m / 2 ^ 52) (hb : n * k ≤ 2 ^ 48)
include hn hk hkn hm hq hb

omit hq in
theorem mean_bounds : 1 ≤ m ∧ m ≤ n ∧ (n : ℚ) / 2 ^ 52 * 16 * k ≤ 1 := by
  have hnq : (1 : ℚ) ≤ n := by exact_mod_cast hn
  have hkq : (1 : ℚ) ≤ k := by exact_mod_cast hk
  have hbq : (n : ℚ) * k ≤ 2 ^ 48 := by exact_mod_cast hb
  have hm1 : 1 ≤ m := by
    have : (k : ℚ) ≤ n := by exact_mod_cast hkn
    by_contra hc
    have : m * k < 1 * k := by
      apply mul_lt_mul_of_pos_right (by linarith) (by linarith)
    linarith
  refine ⟨hm1, by nlinarith, ?_⟩
  have : (n : ℚ) / 2 ^ 52 * 16 * k = n * k / 2 ^ 48 := by ring
  rw [this, div_le_one (by positivity)]; exact hbq

theorem totals_bounds (i : Nat) (hi : i ≤ k) : -(1 / 4) ≤ totals q i ∧ totals q i ≤ n + 1 / 4 := by
  obtain ⟨h1, h2, h3⟩ := mean_bounds hn hk hkn hm hb
  have h := totals_err hn hk hkn hm hq hb i hi
  have hik : (i : ℚ) ≤ k := by exact_mod_cast hi
  have hi0 : (0 : ℚ) ≤ i := by positivity
  have hd : (0 : ℚ) ≤ n / 2 ^ 52 := by positivity
  have he : (i : ℚ) * (4 * n / 2 ^ 52) ≤ 1 / 4 := by
    have : (i : ℚ) * (4 * n / 2 ^ 52) = 4 * (n / 2 ^ 52 * i) := by ring
    rw [this]
    have : (n : ℚ) / 2 ^ 52 * i ≤ n / 2 ^ 52 * k := mul_le_mul_of_nonneg_left hik hd
    linarith
  have h0 : 0 ≤ (i : ℚ) * m := by positivity
  have hT : (i : ℚ) * m ≤ n := by rw [← hm]; nlinarith
  rw [abs_le] at h
  constructor <;> linarith

theorem shifted_err (i : Nat) (hi : i ≤ k) : |shifted q i - (totals q i + 1 / 2)| ≤ 2 * n / 2 ^ 52 := by
  have hnq : (1 : ℚ) ≤ n := by exact_mod_cast hn
  obtain ⟨h1, h2⟩ := totals_bounds hn hk hkn hm hq hb i hi
  rcases Nat.eq_zero_or_pos i with rfl | hi'
  · have : shifted q 0 = 1 / 2 := by
      unfold shifted totals; decide +kernel
    rw [this]; simp [totals]; positivity
  · refine (rnd_small ?_).trans ?_
    · have h := totals_err hn hk hkn hm hq hb i hi
      have := mean_bounds hn hk hkn hm hb
      have hi1 : (1 : ℚ) ≤ i := by exact_mod_cast hi'
      have hik : (i : ℚ) ≤ k := by exact_mod_cast hi
      have hd : (0 : ℚ) ≤ n / 2 ^ 52 := by positivity
      have he : (i : ℚ) * (4 * n / 2 ^ 52) ≤ 1 / 4 := by
        have : (i : ℚ) * (4 * n / 2 ^ 52) = 4 * (n / 2 ^ 52 * i) := by ring
        rw [this]
        have : (n : ℚ) / 2 ^ 52 * i ≤ n / 2 ^ 52 * k := mul_le_mul_of_nonneg_left hik hd
        linarith
      rw [abs_le] at h
      have : 1 ≤ (i : ℚ) * m := by nlinarith
      linarith
    · apply div_le_div_of_nonneg_right _ (by positivity); linarith

/-- The error of the number that is rounded down. -/
theorem shifted_abs (i : Nat) (hi : i ≤ k) : |shifted q i - (i * m + 1 / 2)| ≤ 3 / 8 := by
  have h := totals_err hn hk hkn hm hq hb i hi
  have h' := shifted_err hn hk hkn hm hq hb i hi
  obtain ⟨h1, h2, h3⟩ := mean_bounds hn hk hkn hm hb
  have hik : (i : ℚ) ≤ k := by exact_mod_cast hi
  have hd : (0 : ℚ) ≤ n / 2 ^ 52 := by positivity
  have hkq : (1 : ℚ) ≤ k := by exact_mod_cast hk
  have he : (i : ℚ) * (4 * n / 2 ^ 52) ≤ 1 / 4 := by
    have : (i : ℚ) * (4 * n / 2 ^ 52) = 4 * (n / 2 ^ 52 * i) := by ring
    rw [this]
    have : (n : ℚ) / 2 ^ 52 * i ≤ n / 2 ^ 52 * k := mul_le_mul_of_nonneg_left hik hd
    linarith
  have he2 : 2 * (n : ℚ) / 2 ^ 52 ≤ 1 / 8 := by
    have : 2 * (n : ℚ) / 2 ^ 52 = 2 * (n / 2 ^ 52) := by ring
    rw [this]; nlinarith
  rw [abs_le] at *
  constructor <;> linarith

/-- The difference of two neighbours, each close to the exact step. -/
theorem shifted_step (i : Nat) (hi : i + 1 ≤ k) : |shifted q (i + 1) - shifted q i - m| ≤ 16 * n / 2 ^ 52 := by
  have a := shifted_err hn hk hkn hm hq hb i (by omega)
  have b := shifted_err hn hk hkn hm hq hb (i + 1) hi
  obtain ⟨h1, h2, h3⟩ := mean_bounds hn hk hkn hm hb
  obtain ⟨t1, t2⟩ := totals_bounds hn hk hkn hm hq hb i (by omega)
  have hnq : (1 : ℚ) ≤ n := by exact_mod_cast hn
  have hkq : (1 : ℚ) ≤ k := by exact_mod_cast hk
  have hd : (0 : ℚ) ≤ n / 2 ^ 52 := by positivity
  have hr3 : m / 2 ^ 52 ≤ n / 2 ^ 52 := div_le_div_of_nonneg_right h2 (by positivity)
  have hn8 : (n : ℚ) / 2 ^ 52 ≤ 1 / 16 := by nlinarith
  rw [abs_le] at hq
  have hs1 : 1 / 2 ≤ totals q i + q := by linarith
  have hr := rnd_small hs1
  have hr2 : (totals q i + q) / 2 ^ 52 ≤ 4 * n / 2 ^ 52 := by
    apply div_le_div_of_nonneg_right _ (by positivity); linarith
  have e : totals q (i + 1) = rnd (totals q i + q) := rfl
  rw [e] at b
  have e1 : 2 * (n : ℚ) / 2 ^ 52 = 2 * (n / 2 ^ 52) := by ring
  have e2 : 4 * (n : ℚ) / 2 ^ 52 = 4 * (n / 2 ^ 52) := by ring
  have e3 : 16 * (n : ℚ) / 2 ^ 52 = 16 * (n / 2 ^ 52) := by ring
  rw [e1] at a b
  rw [e2] at hr2
  rw [e3]
  rw [abs_le] at *
  generalize (n : ℚ) / 2 ^ 52 = d at *
  generalize m / 2 ^ 52 = e' at *
  generalize (totals q i + q) / 2 ^ 52 = e'' at *
  constructor <;> linarith

/-- The partition numbers. -/
theorem floor_shifted_end : ⌊shifted q k⌋ = n := by
  have h := shifted_abs hn hk hkn hm hq hb k le_rfl
  rw [mul_comm, hm, abs_le] at h
  rw [Int.floor_eq_iff]
  constructor
  · push_cast; linarith
  · push_cast; linarith

theorem floor_shifted_nonneg (i : Nat) (hi : i ≤ k) : 0 ≤ ⌊shifted q i⌋ := by
  have h := shifted_abs hn hk hkn hm hq hb i hi
  have := (mean_bounds hn hk hkn hm hb).1
  rw [abs_le] at h
  apply Int.floor_nonneg.mpr
  have : 0 ≤ (i : ℚ) * m := by positivity
  linarith

theorem floor_shifted_le (i : Nat) (hi : i ≤ k) : ⌊shifted q i⌋ ≤ n := by
  have h := shifted_abs hn hk hkn hm hq hb i hi
  have h1 := (mean_bounds hn hk hkn hm hb).1
  rw [abs_le] at h
  have hik : (i : ℚ) ≤ k := by exact_mod_cast hi
  have hT : (i : ℚ) * m ≤ n := by rw [← hm, mul_comm m]; nlinarith
  rw [← Int.lt_add_one_iff, Int.floor_lt]
  push_cast; linarith

theorem floor_shifted_step {t : Nat} (h1 : k * t < n + t) (h2 : n ≤ k * t) (i : Nat) (hi : i + 1 ≤ k) :
    ⌊shifted q i⌋ < ⌊shifted q (i + 1)⌋ ∧ ⌊shifted q (i + 1)⌋ ≤ ⌊shifted q i⌋ + t := by
  obtain ⟨m1, m2, m3⟩ := mean_bounds hn hk hkn hm hb
  have hkq : (1 : ℚ) ≤ k := by exact_mod_cast hk
  have hd : (0 : ℚ) ≤ n / 2 ^ 52 := by positivity
  by_cases hint : ∃ z : Nat, m = z
  · obtain ⟨z, rfl⟩ := hint
    have key : ∀ j, j ≤ k → ⌊shifted q j⌋ = (j * z : ℤ) := by
      intro j hj
      have h := shifted_abs hn hk hkn hm hq hb j hj
      rw [abs_le] at h
      rw [Int.floor_eq_iff]
      push_cast
      constructor <;> linarith
    rw [key i (by omega), key (i + 1) hi]
    push_cast
    have hz : z * k = n := by exact_mod_cast hm
    have hz1 : 1 ≤ z := by exact_mod_cast m1
    have hzt : z ≤ t := by
      by_contra hc
      have : (t + 1) * k ≤ z * k := Nat.mul_le_mul_right _ (by omega)
      nlinarith
    have : (1 : ℤ) ≤ z := by exact_mod_cast hz1
    have : (z : ℤ) ≤ t := by exact_mod_cast hzt
    constructor <;> nlinarith
  · have h := shifted_step hn hk hkn hm hq hb i hi
    have e3 : 16 * (n : ℚ) / 2 ^ 52 = n / 2 ^ 52 * 16 := by ring
    rw [e3, abs_le] at h
    have hgap : (n : ℚ) / 2 ^ 52 * 16 ≤ 1 / k := by
      rw [le_div_iff₀ (by linarith)]; exact m3
    have hk0 : (0 : ℚ) < k := by linarith
    have hlow : 1 + 1 / (k : ℚ) ≤ m := by
      have hne : n ≠ k := by
        rintro rfl
        apply hint; refine ⟨1, ?_⟩
        have : m * n = 1 * n := by linarith
        push_cast; exact mul_right_cancel₀ (by linarith) this
      have : (k : ℚ) + 1 ≤ n := by exact_mod_cast (by omega : k + 1 ≤ n)
      have : (1 + 1 / (k : ℚ)) * k ≤ m * k := by
        rw [hm, add_mul, div_mul_cancel₀ _ (by linarith)]; linarith
      exact le_of_mul_le_mul_right this hk0
    have hup : m ≤ t - 1 / (k : ℚ) := by
      have hne : n ≠ k * t := by
        rintro rfl
        apply hint; refine ⟨t, ?_⟩
        have : m * k = t * k := by rw [hm]; push_cast; ring
        exact mul_right_cancel₀ (by linarith) this
      have : (n : ℚ) + 1 ≤ k * t := by exact_mod_cast (by omega : n + 1 ≤ k * t)
      have : m * k ≤ (t - 1 / (k : ℚ)) * k := by
        rw [hm, sub_mul, div_mul_cancel₀ _ (by linarith)]; linarith
      exact le_of_mul_le_mul_right this hk0
    have d1 : shifted q i + 1 ≤ shifted q (i + 1) := by linarith
    have d2 : shifted q (i + 1) ≤ shifted q i + t := by linarith
    constructor
    · have := Int.floor_mono d1
      rw [Int.floor_add_one] at this; omega
    · have := Int.floor_mono d2
      rwa [Int.floor_add_natCast] at this

end

theorem sround_pos {x : ℚ} (h0 : 0 < x) (h : x + 1 / 2 ≤ 2 ^ 60) : sround (.fin x) = .fin ⌊rnd (x + 1 / 2)⌋ := by
  unfold sround
  rw [if_pos (by simp [Fl.lt, h0])]
  show Fl.floor (ofRat (x + 1 / 2)) = _
  rw [ofRat_small (by linarith) h]; rfl

theorem toUInt32_int {z : ℤ} (h0 : 0 ≤ z) (h : z ≤ 4294967295) : toUInt32 (.fin z) = .ok z.toNat := by
  have : (0 : ℚ) ≤ z := by exact_mod_cast h0
  unfold toUInt32
  simp [h0, h]

theorem numPartitions_spec {n t : Nat} (ht : 1 ≤ t) (hn : 1 ≤ n) :
    numPartitions n t * t < n + t ∧ n ≤ numPartitions n t * t ∧ 1 ≤ numPartitions n t ∧ numPartitions n t ≤ n := by
  unfold numPartitions
  have h := Nat.div_add_mod n t
  have h2 := Nat.mod_lt n (show 0 < t by omega)
  have hc : t * (n / t) = n / t * t := Nat.mul_comm _ _
  have h3 : n / t ≤ n / t * t := Nat.le_mul_of_pos_right _ (by omega)
  split
  · have e : (n / t + 1) * t = n / t * t + t := by ring
    rw [e]
    have h5 : n % t ≠ 0 := by assumption
    clear e
    generalize n / t = d at *
    generalize n % t = m at *
    generalize d * t = dt at *
    refine ⟨by omega, by omega, by omega, by omega⟩
  · have : 1 ≤ n / t := by
      rcases Nat.eq_zero_or_pos (n / t) with h0 | h0
      · rw [h0] at h; omega
      · exact h0
    refine ⟨by omega, by omega, by omega, by omega⟩

/-- The loop from iteration `i` on. -/
theorem partitionLoop_eq {q m : ℚ} {n k : Nat} (hn : 1 ≤ n) (hk : 1 ≤ k) (hkn : k ≤ n) (hm : m * k = n)
    (hq : |q - m| ≤ m / 2 ^ 52) (hb : n * k ≤ 2 ^ 48) (h32 : n < 2 ^ 32) (j i : Nat) (hij : i + j = k) :
    partitionLoop (.fin q) j (.fin (totals q i)) =
      .ok ((List.range' (i + 1) j).map fun p => ⌊shifted q p⌋.toNat) := by
  induction j generalizing i with
  | zero => rfl
  | succ j ih =>
    obtain ⟨b1, b2⟩ := totals_bounds hn hk hkn hm hq hb i (by omega)
    obtain ⟨c1, c2⟩ := totals_bounds hn hk hkn hm hq hb (i + 1) (by omega)
    obtain ⟨m1, m2, m3⟩ := mean_bounds hn hk hkn hm hb
    have hnq : (1 : ℚ) ≤ n := by exact_mod_cast hn
    have hkq : (1 : ℚ) ≤ k := by exact_mod_cast hk
    have hd : (0 : ℚ) ≤ n / 2 ^ 52 := by positivity
    have hr3 : m / 2 ^ 52 ≤ n / 2 ^ 52 := div_le_div_of_nonneg_right m2 (by positivity)
    have hn8 : (n : ℚ) / 2 ^ 52 ≤ 1 / 16 := by nlinarith
    have hn32 : (n : ℚ) < 2 ^ 32 := by exact_mod_cast h32
    have hq' := hq
    rw [abs_le] at hq'
    have hp : 0 < totals q (i + 1) := by
      have h := totals_err hn hk hkn hm hq hb (i + 1) (by omega)
      have hik : ((i + 1 : Nat) : ℚ) ≤ k := by exact_mod_cast (by omega : i + 1 ≤ k)
      have he : ((i + 1 : Nat) : ℚ) * (4 * n / 2 ^ 52) ≤ 1 / 4 := by
        have : ((i + 1 : Nat) : ℚ) * (4 * n / 2 ^ 52) = 4 * (n / 2 ^ 52 * (i + 1 : Nat)) := by ring
        rw [this]
        have : (n : ℚ) / 2 ^ 52 * (i + 1 : Nat) ≤ n / 2 ^ 52 * k := mul_le_mul_of_nonneg_left hik hd
        linarith
      have hi1 : (1 : ℚ) ≤ (i + 1 : Nat) := by exact_mod_cast (by omega : 1 ≤ i + 1)
      rw [abs_le] at h
      have : 1 ≤ ((i + 1 : Nat) : ℚ) * m := by nlinarith
      linarith
    have hadd : Fl.add (.fin (totals q i)) (.fin q) = .fin (totals q (i + 1)) := by
      show ofRat _ = _
      rw [ofRat_small (by linarith)]
      · rfl
      · norm_num at hn32 ⊢; linarith
    have hz1 := floor_shifted_nonneg hn hk hkn hm hq hb (i + 1) (by omega)
    have hz2 := floor_shifted_le hn hk hkn hm hq hb (i + 1) (by omega)
    have hsr : toUInt32 (sround (.fin (totals q (i + 1)))) = .ok ⌊shifted q (i + 1)⌋.toNat := by
      rw [sround_pos hp (by norm_num at hn32 ⊢; linarith)]
      exact toUInt32_int hz1 (hz2.trans (by norm_num at h32; omega))
    unfold partitionLoop
    simp only [hadd, hsr, Outcome.bind_ok, Outcome.pure_eq]
    rw [ih (i + 1) (by omega)]
    simp [List.range'_succ]

/-- The partition table. -/
theorem partition_spec {n t : Nat} (hn : 1 ≤ n) (ht : 1 ≤ t) (h32 : n < 2 ^ 32)
    (hb : n * numPartitions n t ≤ 2 ^ 48) :
    ∃ ps, partition n t = .ok ps ∧ ps.length = numPartitions n t + 1 ∧ ps[0]? = some 0 ∧
      ps[numPartitions n t]? = some n ∧
      (∀ i a b, ps[i]? = some a → ps[i + 1]? = some b → a < b ∧ b ≤ a + t) := by
  obtain ⟨h1, h2, hk, hkn⟩ := numPartitions_spec ht hn
  set k := numPartitions n t with hkdef
  have hkq : (1 : ℚ) ≤ k := by exact_mod_cast hk
  have hnq : (1 : ℚ) ≤ n := by exact_mod_cast hn
  have hm : (n : ℚ) / k * k = n := div_mul_cancel₀ _ (by linarith)
  have hm1 : 1 ≤ (n : ℚ) / k := by
    rw [le_div_iff₀ (by linarith), one_mul]; exact_mod_cast hkn
  have hq : |rnd ((n : ℚ) / k) - n / k| ≤ n / k / 2 ^ 52 := rnd_small (by linarith)
  have hn32 : (n : ℚ) < 2 ^ 32 := by exact_mod_cast h32
  have hdiv : Fl.div (.fin n) (.fin k) = .fin (rnd ((n : ℚ) / k)) := by
    show (if (k : ℚ) = 0 then _ else ofRat _) = _
    rw [if_neg (by linarith), ofRat_small (by linarith)]
    have : (n : ℚ) / k ≤ n := div_le_self (by linarith) hkq
    have h2 : (2 : ℚ) ^ 32 ≤ 2 ^ 60 := by norm_num
    linarith
  set q := rnd ((n : ℚ) / k)
  have hloop := partitionLoop_eq hn hk hkn hm hq hb h32 k 0 (by omega)
  have e0 : (0 : ℕ) = ⌊shifted q 0⌋.toNat := by
    have : shifted q 0 = 1 / 2 := by unfold shifted totals; decide +kernel
    rw [this]; norm_num
  have hget : ∀ i, i ≤ k → ((0 : ℕ) :: (List.range' 1 k).map fun p => ⌊shifted q p⌋.toNat)[i]? = some ⌊shifted q i⌋.toNat := by
    intro i hi
    cases i with
    | zero => simpa using e0
    | succ i =>
      simp only [List.getElem?_cons_succ, List.getElem?_map]
      rw [List.getElem?_range' (by omega)]
      simp [Nat.add_comm]
  refine ⟨0 :: (List.range' 1 k).map fun p => ⌊shifted q p⌋.toNat, ?_, by simp, rfl, ?_, ?_⟩
  · unfold partition
    rw [if_neg (by omega)]
    simp only [← hkdef, hdiv]
    have : partitionLoop (.fin q) k (.fin 0) = _ := hloop
    rw [this]; simp
  · rw [hget k le_rfl, floor_shifted_end hn hk hkn hm hq hb]; simp
  · intro i a b ha hb'
    have hi : i + 1 ≤ k := by
      have := (List.getElem?_eq_some_iff.mp hb').1
      simp at this; omega
    rw [hget i (by omega)] at ha
    rw [hget (i + 1) hi] at hb'
    have hs := floor_shifted_step hn hk hkn hm hq hb h1 h2 i hi
    have hz := floor_shifted_nonneg hn hk hkn hm hq hb i (by omega)
    simp only [Option.some.injEq] at ha hb'
    subst ha hb'
    omega

end LibLAS.Chipper
