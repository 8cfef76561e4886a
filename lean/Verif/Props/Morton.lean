import Verif.Model.Morton
import Verif.Spec.Morton
import Verif.Lemmas.FloatHalf
import Mathlib.Tactic.IntervalCases
/-
C81: Morton codes.
-/
namespace LibLAS.Morton
open LibLAS.Spec

theorem expand1_bit (a : BitVec 32) (i : Nat) (hi : i < 64) :
    (expand1 a).getLsbD i = (i % 2 == 0 && i / 2 != 31 && a.getLsbD (i / 2)) := by
  interval_cases i <;> simp [expand1]

theorem encode_bit (x y : BitVec 32) (i : Nat) (hi : i < 64) :
    (encode x y).getLsbD i = (i / 2 != 31 && if i % 2 = 0 then y.getLsbD (i / 2) else x.getLsbD (i / 2)) := by
  have hd : (expand1 x <<< 1) &&& expand1 y = 0#64 := by
    apply BitVec.eq_of_getLsbD_eq
    intro j hj
    simp only [BitVec.getLsbD_and, BitVec.getLsbD_shiftLeft, BitVec.getLsbD_zero, expand1_bit y j hj, hj, decide_true, Bool.true_and]
    rcases Nat.mod_two_eq_zero_or_one j with h | h
    · by_cases h0 : j < 1
      · simp [h0]
      · rw [expand1_bit x (j - 1) (by omega)]
        have : ((j - 1) % 2 == 0) = false := by simp; omega
        simp [this]
    · simp [h]
  rw [encode, BitVec.add_eq_or_of_and_eq_zero _ _ hd]
  simp only [BitVec.getLsbD_or, BitVec.getLsbD_shiftLeft, expand1_bit y i hi, hi, decide_true, Bool.true_and]
  rcases Nat.mod_two_eq_zero_or_one i with h | h
  · by_cases h0 : i < 1
    · obtain rfl : i = 0 := by omega
      simp
    · rw [expand1_bit x (i - 1) (by omega)]
      have : ((i - 1) % 2 == 0) = false := by simp; omega
      simp [this, h]
  · have h1 : ¬ i < 1 := by omega
    have h2 : (i - 1) / 2 = i / 2 := by omega
    have h3 : (i - 1) % 2 = 0 := by omega
    rw [expand1_bit x (i - 1) (by omega)]
    simp [h1, h2, h3, h]

/-- **C81.** The key is the Morton code of the two numbers, of which the lowest 31 binary digits count. -/
theorem encode_interleaves (x y : BitVec 32) :
    Interleaves (encode x y).toNat (x.toNat % 2 ^ 31) (y.toNat % 2 ^ 31) := by
  have bit : ∀ (z : BitVec 32) (i : Nat), (z.toNat % 2 ^ 31).testBit i = (decide (i < 31) && z.getLsbD i) := by
    intro z i
    rw [Nat.testBit_mod_two_pow, BitVec.testBit_toNat]
  intro i
  rw [bit, bit, BitVec.testBit_toNat, BitVec.testBit_toNat]
  have h1 : (2 * i) / 2 = i := by omega
  have h2 : (2 * i) % 2 = 0 := by omega
  have h3 : (2 * i + 1) / 2 = i := by omega
  have h4 : (2 * i + 1) % 2 = 1 := by omega
  by_cases hi : i < 32
  · rw [encode_bit x y _ (by omega), encode_bit x y _ (by omega), h1, h2, h3, h4]
    rcases Nat.lt_or_ge i 31 with h | h
    · have : (i != 31) = true := by simp; omega
      simp [h, this]
    · obtain rfl : i = 31 := by omega
      simp
  · have e1 : (encode x y).getLsbD (2 * i) = false := BitVec.getLsbD_of_ge _ _ (by omega)
    have e2 : (encode x y).getLsbD (2 * i + 1) = false := BitVec.getLsbD_of_ge _ _ (by omega)
    have : ¬ i < 31 := by omega
    simp [e1, e2, this]

/-- C81: no two pairs of numbers have the same code. -/
theorem interleaves_injective {k x y x' y' : Nat} (h : Interleaves k x y) (h' : Interleaves k x' y') : x = x' ∧ y = y' :=
  ⟨Nat.eq_of_testBit_eq fun i => (h i).2.symm.trans (h' i).2, Nat.eq_of_testBit_eq fun i => (h i).1.symm.trans (h' i).1⟩

/-- C81: a pair of numbers has one code. -/
theorem interleaves_unique {k k' x y : Nat} (h : Interleaves k x y) (h' : Interleaves k' x y) : k = k' := by
  apply Nat.eq_of_testBit_eq
  intro i
  rcases Nat.even_or_odd' i with ⟨j, rfl | rfl⟩
  · rw [(h j).1, (h' j).1]
  · rw [(h j).2, (h' j).2]

theorem interleaves_half {k x y : Nat} (h : Interleaves k x y) :
    Interleaves (k / 4) (x / 2) (y / 2) ∧ k = 4 * (k / 4) + 2 * (x % 2) + y % 2 := by
  constructor
  · intro i
    have := h (i + 1)
    have e : k / 4 = k / 2 ^ 2 := rfl
    have e2 : ∀ z : Nat, z / 2 = z / 2 ^ 1 := fun z => rfl
    rw [e, e2 x, e2 y, Nat.testBit_div_two_pow, Nat.testBit_div_two_pow, Nat.testBit_div_two_pow, Nat.testBit_div_two_pow]
    have h1 : 2 + 2 * i = 2 * (i + 1) := by ring
    have h2 : 2 + (2 * i + 1) = 2 * (i + 1) + 1 := by ring
    have h3 : 1 + i = i + 1 := by ring
    have h4 : 2 * i + 2 = 2 * (i + 1) := by ring
    have h5 : 2 * i + 1 + 2 = 2 * (i + 1) + 1 := by ring
    simpa [h1, h2, h3, h4, h5] using this
  · have h0 := h 0
    simp only [Nat.mul_zero, Nat.zero_add] at h0
    have a : k % 2 = y % 2 := by
      have := h0.1
      simp only [Nat.testBit_zero, decide_eq_decide] at this
      omega
    have b : k / 2 % 2 = x % 2 := by
      have := h0.2
      rw [Nat.testBit_succ] at this
      simp only [Nat.testBit_zero, decide_eq_decide] at this
      omega
    omega

theorem interleaves_zero {k : Nat} (h : Interleaves k 0 0) : k = 0 := by
  apply interleaves_unique h
  intro i
  simp

/-- C81: codes grow with the coordinates, so that the codes of the places in a rectangle lie between those of its corners. -/
theorem interleaves_mono {k x y k' x' y' : Nat} (h : Interleaves k x y) (h' : Interleaves k' x' y') (hx : x ≤ x') (hy : y ≤ y') :
    k ≤ k' := by
  induction hn : x' + y' using Nat.strong_induction_on generalizing k x y k' x' y' with
  | _ n ih =>
    subst hn
    by_cases hz : x' + y' = 0
    · obtain ⟨rfl, rfl⟩ : x' = 0 ∧ y' = 0 := by omega
      obtain ⟨rfl, rfl⟩ : x = 0 ∧ y = 0 := by omega
      rw [interleaves_zero h]; exact Nat.zero_le _
    obtain ⟨g, e⟩ := interleaves_half h
    obtain ⟨g', e'⟩ := interleaves_half h'
    have hle := ih (x' / 2 + y' / 2) (by omega) g g' (by omega) (by omega) rfl
    by_cases hs : x / 2 = x' / 2 ∧ y / 2 = y' / 2
    · rw [hs.1, hs.2] at g
      have := interleaves_unique g g'
      omega
    · have hne : k / 4 ≠ k' / 4 := by
        intro hk
        rw [hk] at g
        exact hs (interleaves_injective g g')
      omega

theorem rep_int {q : Int} (h : |q| < 2 ^ 53) : Fl.Rep (q : ℚ) := by
  refine ⟨q, 0, by simp, h, by norm_num, ?_⟩
  have h1 : |(q : ℚ)| < 2 ^ 53 := by exact_mod_cast h
  refine lt_trans h1 ?_
  have : (2 : ℚ) ^ (53 : ℤ) < 2 ^ (1024 : ℤ) := zpow_lt_zpow_right₀ (by norm_num) (by norm_num)
  exact_mod_cast this

theorem ofRat_int {q : Int} (h : |q| < 2 ^ 53) : Fl.ofRat (q : ℚ) = .fin q := by
  have h1 : |(q : ℚ)| < 2 ^ 53 := by exact_mod_cast h
  have h2 : |(q : ℚ)| ≤ 2 ^ 1023 := h1.le.trans (pow_le_pow_right₀ (by norm_num) (by norm_num))
  rw [Fl.ofRat_fin h2, Fl.rnd_rep (rep_int h)]

theorem div_multiple {offset scale : Fl} {q : Int} (h : Multiple offset scale q) : Fl.div offset scale = .fin q := by
  obtain ⟨o, s, rfl, rfl, hs, rfl, hq⟩ := h
  rw [Fl.div, if_neg hs, mul_div_cancel_right₀ _ hs, ofRat_int hq]

theorem factor_multiple {offset scale : Fl} {q g : Int} (h : Multiple offset scale q) (hg : |g| < 2 ^ 62) :
    factor offset scale g = .ok (q - g) := by
  have hq : |q| < 2 ^ 53 := by obtain ⟨o, s, -, -, -, -, hq⟩ := h; exact hq
  rw [abs_lt] at hq hg
  rw [factor, div_multiple h]
  have ht : toInt64 (.fin (q : ℚ)) = .ok q := by
    simp only [toInt64, Int.floor_intCast, Int.ceil_intCast, ite_self]
    rw [if_pos (by constructor <;> omega)]
  rw [ht, Outcome.bind_ok, int64, if_pos (by constructor <;> omega)]

theorem ofInt_toNat {z : Int} (h0 : 0 ≤ z) (h1 : z < 2 ^ 31) : (BitVec.ofInt 32 z).toNat % 2 ^ 31 = z.toNat := by
  obtain ⟨n, rfl⟩ := Int.eq_ofNat_of_zero_le h0
  rw [BitVec.toNat_ofInt]
  omega

/-- **C81.** The code las2pg writes for a point, if the offsets of the file are multiples of the scales: the Morton code of its
place on the grid, if that place is within 2^31 units from the global offset. -/
theorem code_on_grid {ox sx oy sy : Fl} {qx qy gx gy : Int} (hx : Multiple ox sx qx) (hy : Multiple oy sy qy)
    (hgx : |gx| < 2 ^ 62) (hgy : |gy| < 2 ^ 62) (rawX rawY : BitVec 32)
    (h0 : 0 ≤ onGrid rawX qx gx ∧ onGrid rawX qx gx < 2 ^ 31) (h1 : 0 ≤ onGrid rawY qy gy ∧ onGrid rawY qy gy < 2 ^ 31) :
    ∃ fx fy k, factor ox sx gx = .ok fx ∧ factor oy sy gy = .ok fy ∧ code rawX rawY fx fy = .ok k ∧ codeCol rawX rawY fx fy = k ∧
      Interleaves k.toNat (onGrid rawX qx gx).toNat (onGrid rawY qy gy).toNat := by
  refine ⟨_, _, encode (BitVec.ofInt 32 (rawX.toInt + (qx - gx))) (BitVec.ofInt 32 (rawY.toInt + (qy - gy))), factor_multiple hx hgx,
    factor_multiple hy hgy, ?_, ?_, ?_⟩
  · have ex : rawX.toInt + (qx - gx) = onGrid rawX qx gx := by unfold onGrid; ring
    have ey : rawY.toInt + (qy - gy) = onGrid rawY qy gy := by unfold onGrid; ring
    rw [code, ex, ey, int64, int64, if_pos (by constructor <;> omega), Outcome.bind_ok, if_pos (by constructor <;> omega), Outcome.bind_ok]
    rfl
  · have wrap : ∀ r f : Int, BitVec.ofInt 32 (r + (BitVec.ofInt 32 f).toNat) = BitVec.ofInt 32 (r + f) := by
      intro r f
      rw [BitVec.ofInt_add, BitVec.ofInt_add]
      congr 1
      apply BitVec.eq_of_toNat_eq
      simp
      omega
    rw [codeCol, wrap, wrap]
  · have := encode_interleaves (BitVec.ofInt 32 (rawX.toInt + (qx - gx))) (BitVec.ofInt 32 (rawY.toInt + (qy - gy)))
    rw [show rawX.toInt + (qx - gx) = onGrid rawX qx gx by unfold onGrid; ring, show rawY.toInt + (qy - gy) = onGrid rawY qy gy by unfold onGrid; ring,
      ofInt_toNat h0.1 h0.2, ofInt_toNat h1.1 h1.2] at this
    rw [show rawX.toInt + (qx - gx) = onGrid rawX qx gx by unfold onGrid; ring, show rawY.toInt + (qy - gy) = onGrid rawY qy gy by unfold onGrid; ring]
    exact this

/-- The hypotheses are met: scale 0.25, offset -3, global offset -100, raw coordinates 7 and 1000. -/
example : ∃ k, (do
      let fx ← factor (.fin (-3)) (.fin (1 / 4)) (-100)
      let fy ← factor (.fin (-3)) (.fin (1 / 4)) (-100)
      code 7 1000 fx fy) = .ok k ∧ Interleaves k.toNat 95 1088 := by
  have hm : Multiple (.fin (-3)) (.fin (1 / 4)) (-12) := ⟨-3, 1 / 4, rfl, rfl, by norm_num, by norm_num, by norm_num⟩
  obtain ⟨fx, fy, k, e1, e2, e3, -, e4⟩ := code_on_grid hm hm (gx := -100) (gy := -100) (by norm_num) (by norm_num) 7 1000
    (by constructor <;> decide) (by constructor <;> decide)
  refine ⟨k, ?_, e4⟩
  rw [e1, Outcome.bind_ok] at *
  rw [e2, Outcome.bind_ok, e3]

/-- C81 fails for offsets that are decimal multiples of the scale only: raw coordinate 0 in a file with offset 0.29 and raw coordinate
29 in a file with offset 0, both with scale 0.01, are the same coordinate, but their codes differ. -/
theorem same_place_other_code :
    (Fl.add (Fl.mul (.fin 0) (Fl.ofRat (1 / 100))) (Fl.ofRat (29 / 100)) = Fl.add (Fl.mul (.fin 29) (Fl.ofRat (1 / 100))) (.fin 0)) ∧
    factor (Fl.ofRat (29 / 100)) (Fl.ofRat (1 / 100)) 0 = .ok 28 ∧ factor (.fin 0) (Fl.ofRat (1 / 100)) 0 = .ok 0 ∧
    code 0 0 28 0 ≠ code 29 0 0 0 := by
  decide +kernel

/-- C81: `--check` lets files pass with places below the global offset: with scale 1 and smallest coordinate -1/2, the raw coordinate -1
(of -1/2, offset 1/2) gets the code of the place 2^31 - 1. -/
theorem check_below : checkAxis (.fin 1) (.fin 1) (.fin (-1 / 2)) (.fin 5) 0 = true ∧ factor (.fin (1 / 2)) (.fin 1) 0 = .ok 0 ∧
    code (-1) 0 0 0 = code 2147483647 0 0 0 := by
  decide +kernel

/-- C81: `--check` lets files pass with the place 2^31, which gets the code of the place 0. -/
theorem check_above : checkAxis (.fin 1) (.fin 1) (.fin 1) (.fin 2147483648) 0 = true ∧ factor (.fin 1) (.fin 1) 0 = .ok 1 ∧
    code 2147483647 0 1 0 = code (-1) 0 1 0 := by
  decide +kernel

end LibLAS.Morton
