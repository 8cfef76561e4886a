import Verif.Model.IndexLife
import Verif.Lemmas.FloatHalf
import Verif.Lemmas.FloatOrder
/-
The choice of the grid of an index.
-/
namespace LibLAS.Index
open Fl

theorem rep_nat {n : Nat} (h : n < 2 ^ 53) : Rep (n : ℚ) := by
  refine ⟨n, 0, by simp, ?_, by norm_num, ?_⟩
  · rw [abs_of_nonneg (by positivity)]; exact_mod_cast h
  · rw [abs_of_nonneg (by positivity)]
    have h1 : (n : ℚ) < 2 ^ 53 := by exact_mod_cast h
    refine h1.trans ?_
    rw [show (2 : ℚ) ^ (1024 : ℤ) = 2 ^ (1024 : ℕ) from zpow_natCast 2 1024]
    exact pow_lt_pow_right₀ (by norm_num) (by norm_num)

theorem rnd_nat {n : Nat} (h : n < 2 ^ 53) : rnd (n : ℚ) = n := rnd_rep (rep_nat h)

theorem tiny : (1 : ℚ) / 2 ^ 1075 ≤ 1 / 2 ^ 100 :=
  one_div_le_one_div_of_le (by positivity) (pow_le_pow_right₀ (by norm_num) (by norm_num))

/-- Rounding, as a relative error. -/
theorem rnd_rel {x : ℚ} (h : 1 / 2 ^ 20 ≤ x) : x * (1 - 1 / 2 ^ 52) ≤ rnd x ∧ rnd x ≤ x * (1 + 1 / 2 ^ 52) := by
  have h0 : 0 < x := lt_of_lt_of_le (by positivity) h
  have he := rnd_err x
  have ht := tiny
  rw [abs_of_pos h0, abs_le] at he
  generalize (1 : ℚ) / 2 ^ 1075 = e at he ht
  have h2 : e ≤ x / 2 ^ 53 := by
    refine ht.trans ?_
    rw [le_div_iff₀ (by positivity)]
    norm_num at h ⊢
    linarith
  constructor
  · have : x * (1 - 1 / 2 ^ 52) = x - x / 2 ^ 53 - x / 2 ^ 53 := by ring
    linarith [he.1]
  · have : x * (1 + 1 / 2 ^ 52) = x + x / 2 ^ 53 + x / 2 ^ 53 := by ring
    linarith [he.2]

theorem ofRat_small {x : ℚ} (h0 : 0 ≤ x) (h : x ≤ 2 ^ 40) : ofRat x = fin (rnd x) := by
  apply ofRat_fin
  rw [abs_of_nonneg h0]
  exact h.trans (pow_le_pow_right₀ (by norm_num) (by norm_num))

/-- `sqrtRat` once the whole root is known. -/
def sqrtOf (m : Nat) (q : ℚ) : ℚ := (2 * m + if (m : ℚ) ^ 2 = q * 4 ^ 64 then 0 else 1) / 2 ^ 65

theorem sqrtRat_of {q : ℚ} {N : Nat} (h : ⌊q * 4 ^ 64⌋ = N) : sqrtRat q = sqrtOf (Nat.sqrt N) q := by
  have : sqrtRat q = sqrtOf (Nat.sqrt ⌊q * 4 ^ 64⌋.toNat) q := rfl
  rw [this, h]; rfl

/-- The error of `sqrtRat`. -/
theorem sqrtRat_err {q : ℚ} (h : 0 ≤ q) : 0 ≤ sqrtRat q ∧ q ≤ (sqrtRat q + 1 / 2 ^ 65) ^ 2 ∧
    (1 / 2 ^ 65 ≤ sqrtRat q → (sqrtRat q - 1 / 2 ^ 65) ^ 2 ≤ q) ∧ (q ≤ 1 → sqrtRat q ≤ 1) := by
  have hf : (0 : ℤ) ≤ ⌊q * 4 ^ 64⌋ := Int.floor_nonneg.2 (by positivity)
  obtain ⟨N, hN⟩ := Int.eq_ofNat_of_zero_le hf
  have n1 : (N : ℚ) ≤ q * 4 ^ 64 := by
    have := Int.floor_le (q * 4 ^ 64); rw [hN] at this; exact_mod_cast this
  have n2 : q * 4 ^ 64 < N + 1 := by
    have := Int.lt_floor_add_one (q * 4 ^ 64); rw [hN] at this; exact_mod_cast this
  rw [sqrtRat_of hN]
  have s1 : Nat.sqrt N * Nat.sqrt N ≤ N := Nat.sqrt_le N
  have s2 : N < (Nat.sqrt N + 1) * (Nat.sqrt N + 1) := Nat.lt_succ_sqrt N
  generalize Nat.sqrt N = m at s1 s2 ⊢
  have s1 : (m : ℚ) * m ≤ N := by exact_mod_cast s1
  have s2 : (N : ℚ) + 1 ≤ (m + 1) * (m + 1) := by exact_mod_cast s2
  have e4 : (4 : ℚ) ^ 64 = 2 ^ 64 * 2 ^ 64 := by norm_num
  have hm : (0 : ℚ) ≤ m := by positivity
  unfold sqrtOf
  by_cases hx : (m : ℚ) ^ 2 = q * 4 ^ 64
  · rw [if_pos hx]
    have e : (2 * (m : ℚ) + 0) / 2 ^ 65 = m / 2 ^ 64 := by rw [div_eq_div_iff (by positivity) (by positivity)]; ring
    rw [e]
    have e2 : (m / 2 ^ 64 : ℚ) ^ 2 = q := by rw [div_pow, hx, e4]; field_simp
    refine ⟨by positivity, ?_, ?_, ?_⟩
    · have : (0 : ℚ) ≤ m / 2 ^ 64 := by positivity
      nlinarith
    · intro hk; nlinarith
    · intro h1
      nlinarith
  · rw [if_neg hx]
    have e : (2 * (m : ℚ) + 1) / 2 ^ 65 = m / 2 ^ 64 + 1 / 2 ^ 65 := by rw [add_div]; congr 1; rw [div_eq_div_iff (by positivity) (by positivity)]; ring
    rw [e]
    refine ⟨by positivity, ?_, ?_, ?_⟩
    · have e3 : (m / 2 ^ 64 + 1 / 2 ^ 65 + 1 / 2 ^ 65 : ℚ) ^ 2 = (m + 1) * (m + 1) / 4 ^ 64 := by rw [e4]; field_simp; ring
      rw [e3, le_div_iff₀ (by positivity)]
      linarith
    · intro _
      have e3 : (m / 2 ^ 64 + 1 / 2 ^ 65 - 1 / 2 ^ 65 : ℚ) ^ 2 = m * m / 4 ^ 64 := by rw [e4]; field_simp; ring
      rw [e3, div_le_iff₀ (by positivity)]
      linarith
    · intro h1
      have h2 : (m : ℚ) ^ 2 < (2 ^ 64) ^ 2 := by
        refine lt_of_le_of_ne ?_ ?_
        · calc (m : ℚ) ^ 2 ≤ q * 4 ^ 64 := by rw [pow_two]; linarith
            _ ≤ 1 * 4 ^ 64 := by gcongr
            _ = (2 ^ 64) ^ 2 := by norm_num
        · intro h3
          apply hx
          have h4 : (m : ℚ) ^ 2 ≤ q * 4 ^ 64 := by rw [pow_two]; linarith
          have h5 : q * 4 ^ 64 ≤ 1 * 4 ^ 64 := by gcongr
          have h6 : (1 : ℚ) * 4 ^ 64 = (2 ^ 64) ^ 2 := by norm_num
          linarith
      have h3 : (m : ℚ) < 2 ^ 64 := lt_of_pow_lt_pow_left₀ 2 (by positivity) h2
      have h4 : m + 1 ≤ 2 ^ 64 := by
        have : m < 2 ^ 64 := by exact_mod_cast h3
        omega
      have h5 : (m : ℚ) + 1 ≤ 2 ^ 64 := by exact_mod_cast h4
      have e3 : (m / 2 ^ 64 + 1 / 2 ^ 65 : ℚ) ≤ (m + 1) / 2 ^ 64 := by
        rw [add_div]
        have : (1 : ℚ) / 2 ^ 65 ≤ 1 / 2 ^ 64 := by norm_num
        linarith
      refine e3.trans ?_
      rw [div_le_one (by positivity)]
      exact h5

theorem le_sqrtRat {q : ℚ} {k : Nat} (h : (k : ℚ) * k ≤ q) : (k : ℚ) ≤ sqrtRat q := by
  have h0 : 0 ≤ q := le_trans (by positivity) h
  have hf : (0 : ℤ) ≤ ⌊q * 4 ^ 64⌋ := Int.floor_nonneg.2 (by positivity)
  obtain ⟨N, hN⟩ := Int.eq_ofNat_of_zero_le hf
  have h1 : k * 2 ^ 64 ≤ Nat.sqrt N := by
    rw [Nat.le_sqrt]
    have : ((k * 2 ^ 64 * (k * 2 ^ 64) : Nat) : ℤ) ≤ ⌊q * 4 ^ 64⌋ := by
      rw [Int.le_floor]
      push_cast
      have e4 : (4 : ℚ) ^ 64 = 2 ^ 64 * 2 ^ 64 := by norm_num
      have : (k : ℚ) * k * 4 ^ 64 ≤ q * 4 ^ 64 := by gcongr
      rw [e4] at this ⊢
      linarith
    rw [hN] at this
    exact_mod_cast this
  rw [sqrtRat_of hN]
  generalize Nat.sqrt N = m at *
  unfold sqrtOf
  have h2 : (k : ℚ) * 2 ^ 64 ≤ m := by exact_mod_cast h1
  rw [le_div_iff₀ (by positivity)]
  have h3 : (0 : ℚ) ≤ if (m : ℚ) ^ 2 = q * 4 ^ 64 then 0 else 1 := by split <;> norm_num
  linarith

theorem toUInt32_floor {a : ℚ} (h0 : 0 ≤ a) (h : a < 2 ^ 32) : toUInt32 (.fin a) = .ok ⌊a⌋.toNat := by
  unfold toUInt32
  simp only [h0, if_true]
  have h1 : 0 ≤ ⌊a⌋ := Int.floor_nonneg.2 h0
  have h2 : ⌊a⌋ < 4294967296 := by
    rw [Int.floor_lt]; push_cast; linarith
  rw [if_pos ⟨h1, by omega⟩]

theorem floor_toNat {a : ℚ} (h0 : 0 ≤ a) : ((⌊a⌋.toNat : Nat) : ℚ) ≤ a ∧ a < (⌊a⌋.toNat : Nat) + 1 := by
  have h1 : 0 ≤ ⌊a⌋ := Int.floor_nonneg.2 h0
  obtain ⟨N, hN⟩ := Int.eq_ofNat_of_zero_le h1
  rw [hN]
  simp only [Int.ofNat_eq_natCast, Int.toNat_natCast]
  constructor
  · have := Int.floor_le a; rw [hN] at this; exact_mod_cast this
  · have := Int.lt_floor_add_one a; rw [hN] at this; exact_mod_cast this

/-- The whole part of the square root of a number of cells is exact. -/
theorem sqrt_nat {N : Nat} (h : N ≤ 42949672) : toUInt32 (Fl.sqrt (Grid.num N)) = .ok (Nat.sqrt N) := by
  have hq : (0 : ℚ) ≤ N := by positivity
  obtain ⟨e0, e1, e2, -⟩ := sqrtRat_err hq
  have e : Fl.sqrt (Grid.num N) = ofRat (sqrtRat N) := by
    show (if (N : ℚ) < 0 then Fl.nan else ofRat (sqrtRat N)) = _
    rw [if_neg (by linarith)]
  rw [e]
  clear e
  have hs : ((Nat.sqrt N : Nat) : ℚ) ≤ sqrtRat N := le_sqrtRat (by exact_mod_cast Nat.sqrt_le N)
  generalize sqrtRat (N : ℚ) = s at *
  have k1 : Nat.sqrt N * Nat.sqrt N ≤ N := Nat.sqrt_le N
  have k2 : N < (Nat.sqrt N + 1) * (Nat.sqrt N + 1) := Nat.lt_succ_sqrt N
  have k3 : Nat.sqrt N ≤ 6553 := by
    by_contra hh
    have : 6554 * 6554 ≤ Nat.sqrt N * Nat.sqrt N := Nat.mul_le_mul (by omega) (by omega)
    omega
  generalize Nat.sqrt N = k at *
  have q1 : (k : ℚ) * k ≤ N := by exact_mod_cast k1
  have q2 : (N : ℚ) + 1 ≤ (k + 1) * (k + 1) := by exact_mod_cast k2
  have q3 : (k : ℚ) ≤ 6553 := by exact_mod_cast k3
  have q0 : (0 : ℚ) ≤ k := by positivity
  have hup : s ≤ k + 1 - 1 / 2 ^ 20 := by
    by_contra hc
    have hc : (k : ℚ) + 1 - 1 / 2 ^ 20 < s := not_le.1 hc
    have h1 := e2 (by have : (1 : ℚ) / 2 ^ 65 ≤ 1 - 1 / 2 ^ 20 := by norm_num
                      linarith)
    have h2 : (k : ℚ) + 1 - 1 / 2 ^ 19 ≤ s - 1 / 2 ^ 65 := by
      have : (1 : ℚ) / 2 ^ 65 + 1 / 2 ^ 20 ≤ 1 / 2 ^ 19 := by norm_num
      linarith
    have h3 : ((k : ℚ) + 1 - 1 / 2 ^ 19) ^ 2 ≤ (s - 1 / 2 ^ 65) ^ 2 := by
      apply pow_le_pow_left₀ _ h2
      have : (1 : ℚ) / 2 ^ 19 ≤ 1 := by norm_num
      linarith
    have h4 : ((k : ℚ) + 1) * (k + 1) - 1 < ((k : ℚ) + 1 - 1 / 2 ^ 19) ^ 2 := by
      norm_num
      nlinarith
    linarith
  have hlow : (k : ℚ) ≤ rnd s := by
    have := rnd_le_rnd hs
    rwa [rnd_nat (by omega)] at this
  have hup' : rnd s < k + 1 := by
    have h1 := rnd_rel (x := k + 1 - 1 / 2 ^ 20) (by norm_num; linarith)
    have h2 := rnd_le_rnd hup
    have h3 := h1.2
    have : ((k : ℚ) + 1 - 1 / 2 ^ 20) * (1 + 1 / 2 ^ 52) < k + 1 := by norm_num; linarith
    linarith
  have hsm : s ≤ 2 ^ 40 := by norm_num at hup ⊢; linarith
  rw [ofRat_small e0 hsm, toUInt32_floor (q0.trans hlow) (by norm_num at hup' ⊢; linarith)]
  have : ⌊rnd s⌋ = (k : ℤ) := by rw [Int.floor_eq_iff]; exact ⟨by exact_mod_cast hlow, by exact_mod_cast hup'⟩
  rw [this]
  rfl

/-- The number of cells on the longer axis, before it is reduced. -/
def longSide (n : Nat) : Nat := max 10 (Nat.sqrt (n / 100))

theorem longSide_le {n : Nat} (h : n < 2 ^ 32) : longSide n ≤ 6553 := by
  have k1 : Nat.sqrt (n / 100) * Nat.sqrt (n / 100) ≤ n / 100 := Nat.sqrt_le _
  unfold longSide
  by_contra hh
  have h6 : 6554 ≤ Nat.sqrt (n / 100) := by omega
  have : 6554 * 6554 ≤ Nat.sqrt (n / 100) * Nat.sqrt (n / 100) := Nat.mul_le_mul h6 h6
  omega

theorem longCells_eq {n : Nat} (h : n < 2 ^ 32) : longCells n = .ok (longSide n) := by
  unfold longCells longSide
  rw [sqrt_nat (by omega)]
  show Outcome.ok _ = _
  congr 1
  split <;> omega

theorem mul_num {r : ℚ} {t : Nat} (h0 : 0 ≤ r) (h1 : r ≤ 1) (ht : t ≤ 6553) : Fl.mul (.fin r) (Grid.num t) = .fin (rnd (r * t)) := by
  have q : (t : ℚ) ≤ 6553 := by exact_mod_cast ht
  refine ofRat_small (by positivity) ?_
  have : r * t ≤ 1 * t := by gcongr
  norm_num at this ⊢
  linarith

theorem num_mul {r : ℚ} {t : Nat} (h0 : 0 ≤ r) (h1 : r ≤ 1) (ht : t ≤ 6553) : Fl.mul (Grid.num t) (.fin r) = .fin (rnd (r * t)) := by
  rw [← mul_num h0 h1 ht]
  show ofRat _ = ofRat _
  rw [mul_comm]

theorem mul_le_num {r : ℚ} {t : Nat} (h1 : r ≤ 1) (ht : t ≤ 6553) : rnd (r * t) ≤ t := by
  have h : r * t ≤ t := by
    have : r * t ≤ 1 * t := by gcongr
    linarith
  have := rnd_le_rnd h
  rwa [rnd_nat (by omega)] at this

theorem axisCells_eq {r : ℚ} {t : Nat} (h0 : 0 ≤ r) (h1 : r ≤ 1) (ht : t ≤ 6553) (h10 : 1 ≤ t) :
    ∃ c, axisCells (.fin r) t = .ok c ∧ 1 ≤ c ∧ c ≤ t ∧ (r = 1 → c = t) ∧ ((c : ℚ) ≤ max 1 (r * t + 1 / 2 ^ 30)) ∧ r * t < c + 1 + 1 / 2 ^ 30 := by
  unfold axisCells
  have u0 : 0 ≤ rnd (r * t) := rnd_nonneg (by positivity)
  have u1 : rnd (r * t) ≤ t := mul_le_num h1 ht
  have q : (t : ℚ) ≤ 6553 := by exact_mod_cast ht
  rw [mul_num h0 h1 ht, toUInt32_floor u0 (by norm_num; linarith)]
  obtain ⟨f1, f2⟩ := floor_toNat u0
  have he := rnd_err (r * t)
  have ht' := tiny
  rw [abs_of_nonneg (a := r * t) (by positivity), abs_le] at he
  generalize (1 : ℚ) / 2 ^ 1075 = e at he ht'
  have hr : r * t ≤ 6553 := by nlinarith
  have hs : r * t / 2 ^ 53 + e ≤ 1 / 2 ^ 30 := by
    have : r * t / 2 ^ 53 ≤ 6553 / 2 ^ 53 := by gcongr
    norm_num at this ht' ⊢
    linarith
  have hone : r = 1 → rnd (r * t) = t := by
    rintro rfl
    rw [one_mul, rnd_nat (by omega)]
  generalize hc : ⌊rnd (r * t)⌋.toNat = c at *
  have c1 : (c : ℚ) ≤ t := f1.trans u1
  have c2 : c ≤ t := by exact_mod_cast c1
  refine ⟨if c < 1 then 1 else c, rfl, ?_, ?_, ?_, ?_, ?_⟩
  · split <;> omega
  · split <;> omega
  · intro h
    rw [hone h] at hc
    simp only [Int.floor_natCast, Int.toNat_natCast] at hc
    rw [if_neg (by omega), hc]
  · split
    · exact le_trans (by norm_num) (le_max_left _ _)
    · refine le_trans ?_ (le_max_right _ _)
      linarith [he.1, he.2]
  · have : (c : ℚ) ≤ ((if c < 1 then 1 else c : Nat) : ℚ) := by
      split
      · push_cast
        have : c = 0 := by omega
        rw [this]; norm_num
      · exact le_refl _
    linarith [he.1, he.2]

/-- The reduction to at most 250000 cells. -/
theorem reduceCells_eq {cx cy : Nat} (hx : 1 ≤ cx) (hy : 1 ≤ cy) (lx : cx ≤ 6553) (ly : cy ≤ 6553) :
    ∃ a b, reduceCells cx cy = .ok (a, b) ∧ 1 ≤ a ∧ 1 ≤ b ∧ a ≤ cx ∧ b ≤ cy ∧ a * b ≤ 250000 ∧ (cx * cy ≤ 250000 → a = cx ∧ b = cy) := by
  have hp : cx * cy ≤ 6553 * 6553 := Nat.mul_le_mul lx ly
  have hm : cx * cy % 2 ^ 32 = cx * cy := Nat.mod_eq_of_lt (by omega)
  unfold reduceCells
  rw [hm]
  by_cases hc : 250000 < cx * cy
  swap
  · rw [if_neg hc]
    exact ⟨cx, cy, rfl, hx, hy, le_refl _, le_refl _, by omega, fun _ => ⟨rfl, rfl⟩⟩
  rw [if_pos hc]
  have x39 : 39 ≤ cx := by
    by_contra hh
    have : cx * cy ≤ 38 * 6553 := Nat.mul_le_mul (by omega) ly
    omega
  have y39 : 39 ≤ cy := by
    by_contra hh
    have : cx * cy ≤ 6553 * 38 := Nat.mul_le_mul lx (by omega)
    omega
  have qx : (39 : ℚ) ≤ cx := by exact_mod_cast x39
  have qy : (39 : ℚ) ≤ cy := by exact_mod_cast y39
  have qc : (250001 : ℚ) ≤ cx * cy := by exact_mod_cast hc
  have qp : (cx : ℚ) * cy ≤ 6553 * 6553 := by exact_mod_cast hp
  have hp0 : (0 : ℚ) < cx * cy := by linarith
  have hv0 : (250000 : ℚ) / (cx * cy) ≤ 1 := by rw [div_le_one hp0]; linarith
  have hv1 : (1 : ℚ) / 2 ^ 20 ≤ 250000 / (cx * cy) := by
    rw [div_le_div_iff₀ (by positivity) hp0]; norm_num; linarith
  have hv2 : (5 : ℚ) / 1000 ≤ 250000 / (cx * cy) := by
    rw [div_le_div_iff₀ (by positivity) hp0]; norm_num; linarith
  have ed : Fl.div (Grid.num 250000) (Grid.num (cx * cy)) = .fin (rnd (250000 / (cx * cy))) := by
    show (if ((cx * cy : Nat) : ℚ) = 0 then Fl.nan else ofRat (((250000 : Nat) : ℚ) / ((cx * cy : Nat) : ℚ))) = _
    push_cast
    rw [if_neg hp0.ne']
    exact ofRat_small (by positivity) (hv0.trans (by norm_num))
  obtain ⟨v1, v2⟩ := rnd_rel hv1
  have v3 : rnd (250000 / (cx * cy)) ≤ 1 := by
    have := rnd_le_rnd hv0
    rwa [rnd_one] at this
  have hPv : (cx : ℚ) * cy * (250000 / (cx * cy)) = 250000 := by field_simp
  generalize (250000 : ℚ) / (cx * cy) = v at *
  generalize rnd v = w at *
  have w0 : (4 : ℚ) / 1000 ≤ w := by norm_num at v1 hv2 ⊢; nlinarith
  have es : Fl.sqrt (.fin w) = .fin (rnd (sqrtRat w)) := by
    show (if w < 0 then Fl.nan else ofRat (sqrtRat w)) = _
    obtain ⟨s0, -, -, s3⟩ := sqrtRat_err (q := w) (by linarith)
    rw [if_neg (by linarith)]
    exact ofRat_small s0 ((s3 v3).trans (by norm_num))
  rw [ed, es]
  obtain ⟨s0, s1, s2, s3⟩ := sqrtRat_err (q := w) (by linarith)
  have s3 := s3 v3
  generalize sqrtRat w = s at *
  have s4 : (6 : ℚ) / 100 ≤ s := by
    by_contra hh
    have hh := not_le.1 hh
    have : (s + 1 / 2 ^ 65) ^ 2 ≤ (61 / 1000) ^ 2 := by
      apply pow_le_pow_left₀ (by positivity)
      norm_num at hh ⊢; linarith
    norm_num at this w0 s1
    linarith
  have s5 := s2 (by norm_num at s4 ⊢; linarith)
  have u1 : rnd s ≤ 1 := by
    have := rnd_le_rnd s3
    rwa [rnd_one] at this
  obtain ⟨r1, r2⟩ := rnd_rel (x := s) (by norm_num at s4 ⊢; linarith)
  have u0 : (5 : ℚ) / 100 ≤ rnd s := by norm_num at r1 s4 ⊢; linarith
  -- the square
  have hsq : rnd s * rnd s ≤ v * (1 + 1 / 2 ^ 45) := by
    have a1 : s ≤ (s - 1 / 2 ^ 65) * (1 + 1 / 2 ^ 52) := by norm_num at s4 ⊢; linarith
    have a2 : rnd s ≤ (s - 1 / 2 ^ 65) * (1 + 1 / 2 ^ 52) * (1 + 1 / 2 ^ 52) := r2.trans (by gcongr)
    have a3 : rnd s * rnd s ≤ ((s - 1 / 2 ^ 65) * (1 + 1 / 2 ^ 52) * (1 + 1 / 2 ^ 52)) * ((s - 1 / 2 ^ 65) * (1 + 1 / 2 ^ 52) * (1 + 1 / 2 ^ 52)) := by
      apply mul_le_mul a2 a2 (by linarith) (by linarith)
    have a4 : ((s - 1 / 2 ^ 65) * (1 + 1 / 2 ^ 52) * (1 + 1 / 2 ^ 52)) * ((s - 1 / 2 ^ 65) * (1 + 1 / 2 ^ 52) * (1 + 1 / 2 ^ 52)) =
        (s - 1 / 2 ^ 65) ^ 2 * (1 + 1 / 2 ^ 52) ^ 4 := by ring
    have a5 : (s - 1 / 2 ^ 65) ^ 2 * (1 + 1 / 2 ^ 52) ^ 4 ≤ w * (1 + 1 / 2 ^ 52) ^ 4 := by gcongr
    have a6 : w * (1 + 1 / 2 ^ 52) ^ 4 ≤ v * (1 + 1 / 2 ^ 52) * (1 + 1 / 2 ^ 52) ^ 4 := by gcongr
    have a7 : v * (1 + 1 / 2 ^ 52) * (1 + 1 / 2 ^ 52) ^ 4 ≤ v * (1 + 1 / 2 ^ 45) := by
      rw [mul_assoc]
      apply mul_le_mul_of_nonneg_left _ (le_trans (by positivity) hv1)
      norm_num
    linarith
  generalize rnd s = u at *
  have u00 : 0 ≤ u := by linarith
  have key : ∀ c : Nat, 39 ≤ c → c ≤ 6553 → ∃ a : Nat, toUInt32 (Fl.mul (Grid.num c) (.fin u)) = .ok a ∧ 1 ≤ a ∧ a ≤ c ∧ (a : ℚ) ≤ u * c * (1 + 1 / 2 ^ 52) := by
    intro c h1 h2
    have q1 : (39 : ℚ) ≤ c := by exact_mod_cast h1
    have q2 : (c : ℚ) ≤ 6553 := by exact_mod_cast h2
    have g1 : (195 : ℚ) / 100 ≤ u * c := by nlinarith
    obtain ⟨t1, t2⟩ := rnd_rel (x := u * c) (by norm_num at g1 ⊢; linarith)
    have t3 := mul_le_num (t := c) u1 h2
    have t0 : 1 ≤ rnd (u * c) := by norm_num at t1 g1 ⊢; linarith
    obtain ⟨f1, f2⟩ := floor_toNat (a := rnd (u * c)) (by linarith)
    refine ⟨⌊rnd (u * c)⌋.toNat, ?_, ?_, ?_, ?_⟩
    · rw [num_mul u00 u1 h2, toUInt32_floor (by linarith) (by norm_num; linarith)]
    · have : 0 < ⌊rnd (u * c)⌋ := Int.floor_pos.2 t0
      omega
    · exact_mod_cast f1.trans t3
    · linarith
  obtain ⟨a, ea, a1, a2, a3⟩ := key cx x39 lx
  obtain ⟨b, eb, b1, b2, b3⟩ := key cy y39 ly
  refine ⟨a, b, ?_, a1, b1, a2, b2, ?_, fun h => absurd h (by omega)⟩
  · show (toUInt32 (Fl.mul (Grid.num cx) (.fin u))).bind _ = _
    rw [ea]
    show (toUInt32 (Fl.mul (Grid.num cy) (.fin u))).bind _ = _
    rw [eb]
    rfl
  · have h1 : (a : ℚ) * b ≤ (u * cx * (1 + 1 / 2 ^ 52)) * (u * cy * (1 + 1 / 2 ^ 52)) := mul_le_mul a3 b3 (by positivity) (by positivity)
    have h2 : (u * cx * (1 + 1 / 2 ^ 52)) * (u * cy * (1 + 1 / 2 ^ 52)) = (u * u) * (cx * cy * (1 + 1 / 2 ^ 52) ^ 2) := by ring
    have h3 : (u * u) * (cx * cy * (1 + 1 / 2 ^ 52) ^ 2) ≤ (v * (1 + 1 / 2 ^ 45)) * (cx * cy * (1 + 1 / 2 ^ 52) ^ 2) := by gcongr
    have h4 : (v * (1 + 1 / 2 ^ 45)) * ((cx : ℚ) * cy * (1 + 1 / 2 ^ 52) ^ 2) = cx * cy * v * ((1 + 1 / 2 ^ 45) * (1 + 1 / 2 ^ 52) ^ 2) := by ring
    rw [hPv] at h4
    have h5 : (250000 : ℚ) * ((1 + 1 / 2 ^ 45) * (1 + 1 / 2 ^ 52) ^ 2) < 250001 := by norm_num
    have h6 : (a : ℚ) * b < 250001 := by linarith
    have h7 : a * b < 250001 := by exact_mod_cast h6
    omega

/-- The relation of two extents. -/
theorem ratio_eq {r o : Fl} (hr : Fl.lt (.fin 0) r = true) (ho : Fl.lt (.fin 0) o = true) :
    ∃ q : ℚ, ratio r o = .fin q ∧ 0 ≤ q ∧ q ≤ 1 ∧ (Fl.le o r = true → q = 1) ∧
      ∀ a b : ℚ, r = .fin a → o = .fin b → a < b → |q - a / b| ≤ 1 / 2 ^ 52 := by
  unfold ratio
  by_cases hle : Fl.le o r = true
  · rw [if_pos hle]
    refine ⟨1, rfl, by norm_num, le_refl _, fun _ => rfl, ?_⟩
    rintro a b rfl rfl hab
    have : b ≤ a := of_decide_eq_true hle
    linarith
  · rw [if_neg hle]
    match r, o, hr, ho, hle with
    | .fin a, .fin b, hr, ho, hle =>
      have ha : 0 < a := of_decide_eq_true hr
      have hb : 0 < b := of_decide_eq_true ho
      have hab : a < b := by
        have : ¬ b ≤ a := fun h => hle (decide_eq_true h)
        linarith
      have h1 : a / b ≤ 1 := by rw [div_le_one hb]; exact hab.le
      refine ⟨rnd (a / b), ?_, rnd_nonneg (by positivity), ?_, fun h => absurd h hle, ?_⟩
      · show (if b = 0 then Fl.nan else ofRat (a / b)) = _
        rw [if_neg hb.ne']
        exact ofRat_small (by positivity) (h1.trans (by norm_num))
      · have := rnd_le_rnd h1
        rwa [rnd_one] at this
      · rintro a' b' h h' -
        cases h
        cases h'
        have he := rnd_err (a / b)
        have ht' := tiny
        rw [abs_of_nonneg (a := a / b) (by positivity)] at he
        generalize (1 : ℚ) / 2 ^ 1075 = e at he ht'
        refine he.trans ?_
        have : a / b / 2 ^ 53 ≤ 1 / 2 ^ 53 := by gcongr
        norm_num at this ht' ⊢
        linarith
    | .fin a, .inf false, hr, ho, hle =>
      refine ⟨0, rfl, le_refl _, by norm_num, fun h => absurd h hle, ?_⟩
      rintro a' b' h h'
      cases h'
    | .inf false, .fin b, hr, ho, hle => exact absurd rfl hle
    | .inf false, .inf false, hr, ho, hle => exact absurd rfl hle

end LibLAS.Index
