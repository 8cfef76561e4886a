import Verif.Lemmas.IndexNumbers
import Verif.Lemmas.IndexItems
import Verif.Spec.IndexWindow
/-
One axis of a query.
-/
namespace LibLAS.Index
open Fl Spec

/-- Whole numbers of moderate size are doubles. -/
theorem rnd_int {k : ℤ} (h : |k| ≤ 2 ^ 40) : rnd (k : ℚ) = k := by
  rcases eq_or_ne k 0 with rfl | h0
  · simpa using rnd_zero
  have habs : (0 : ℚ) < |(k : ℚ)| := by rw [abs_pos]; exact_mod_cast h0
  have hle : |(k : ℚ)| ≤ 2 ^ 40 := by exact_mod_cast h
  have hl1 : Int.log 2 |(k : ℚ)| < 41 := by
    rw [← Int.lt_zpow_iff_log_lt (by norm_num) habs]
    refine lt_of_le_of_lt hle ?_
    norm_num [zpow_ofNat]
  have he : ulpExp (k : ℚ) ≤ 0 := by unfold ulpExp; omega
  unfold rnd
  obtain ⟨m, hm⟩ : ∃ m : ℕ, ulpExp (k : ℚ) = -(m : ℤ) := ⟨(-ulpExp (k : ℚ)).toNat, by omega⟩
  rw [hm]
  have h1 : (k : ℚ) / 2 ^ (-(m : ℤ)) = ((k * 2 ^ m : ℤ) : ℚ) := by
    rw [zpow_neg, div_inv_eq_mul, zpow_natCast]; push_cast; ring
  rw [h1, rne_int, zpow_neg, zpow_natCast]
  push_cast
  field_simp

theorem sub_int {j k : ℤ} (h : |j - k| ≤ 2 ^ 40) : Fl.sub (.fin (j : ℚ)) (.fin (k : ℚ)) = .fin ((j - k : ℤ) : ℚ) := by
  show ofRat ((j : ℚ) + -(k : ℚ)) = _
  have e : (j : ℚ) + -(k : ℚ) = ((j - k : ℤ) : ℚ) := by push_cast; ring
  rw [e, ofRat_fin, rnd_int h]
  refine le_trans (b := 2 ^ 40) ?_ (pow_le_pow_right₀ (by norm_num) (by norm_num))
  exact_mod_cast h

theorem toI32_int {k : ℤ} (h1 : -2147483648 ≤ k) (h2 : k ≤ 2147483647) : toI32 (.fin (k : ℚ)) = .ok k := by
  unfold toI32
  rw [toInt32_int h1 h2]
  show Outcome.ok _ = _
  rw [BitVec.toInt_ofInt]
  congr 1
  apply Int.bmod_eq_of_le <;> omega

theorem sub_part {v : ℚ} {k : ℤ} (h : |v - k| ≤ 2) : ∃ l, Fl.sub (.fin v) (.fin (k : ℚ)) = .fin l ∧ |l - (v - k)| ≤ 1 / 2 ^ 51 := by
  refine ⟨rnd (v - k), ?_, ?_⟩
  · show ofRat (v + -(k : ℚ)) = _
    rw [← sub_eq_add_neg]
    apply ofRat_fin
    refine h.trans ?_
    calc (2 : ℚ) = 2 ^ 1 := by norm_num
      _ ≤ _ := pow_le_pow_right₀ (by norm_num) (by norm_num)
  · refine (rnd_near h).trans ?_
    have : (1 : ℚ) / 2 ^ 1075 ≤ 1 / 2 ^ 100 := one_div_le_one_div_of_le (by positivity) (pow_le_pow_right₀ (by norm_num) (by norm_num))
    generalize (1 : ℚ) / 2 ^ 1075 = τ at *
    norm_num at *; linarith

/-- The numbers of one axis. -/
theorem axisOf_ok {v1 v2 : ℚ} (h1 : 0 ≤ v1) (h2 : v1 ≤ 2 ^ 30) (h3 : 0 ≤ v2) (h4 : v2 ≤ 2 ^ 30) :
    ∃ l h, axisOf (.fin v1) (.fin v2) = .ok ⟨⌈v1⌉, ⌊v2⌋ - 1, ⌊v1⌋, ⌈v2⌉ - 1, .fin l, .fin h⟩ ∧
      |l - (v1 - ⌊v1⌋)| ≤ 1 / 2 ^ 51 ∧ |h - (v2 - (⌈v2⌉ - 1 : ℤ))| ≤ 1 / 2 ^ 51 := by
  have c1 : ⌈v1⌉ ≤ 2 ^ 30 := Int.ceil_le.2 (by exact_mod_cast h2)
  have c2 : ⌈v2⌉ ≤ 2 ^ 30 := Int.ceil_le.2 (by exact_mod_cast h4)
  have f1 : 0 ≤ ⌊v1⌋ := Int.floor_nonneg.2 h1
  have f2 : 0 ≤ ⌊v2⌋ := Int.floor_nonneg.2 h3
  have k1 := Int.floor_le_ceil v1
  have k2 := Int.floor_le_ceil v2
  obtain ⟨l, l1, l2⟩ := sub_part (v := v1) (k := ⌊v1⌋) (by
    have := Int.floor_le v1
    have := Int.lt_floor_add_one v1
    rw [abs_le]; constructor <;> linarith)
  obtain ⟨h, e1, e2⟩ := sub_part (v := v2) (k := ⌈v2⌉ - 1) (by
    have := Int.le_ceil v2
    have := Int.ceil_lt_add_one v2
    push_cast
    rw [abs_le]; constructor <;> linarith)
  refine ⟨l, h, ?_, l2, e2⟩
  unfold axisOf
  have s1 : Fl.sub (Fl.floor (.fin v2)) (.fin 1) = .fin ((⌊v2⌋ - 1 : ℤ) : ℚ) := by
    have := sub_int (j := ⌊v2⌋) (k := 1) (by rw [abs_le]; constructor <;> omega)
    rw [Int.cast_one] at this
    exact this
  have s2 : Fl.sub (Fl.ceil (.fin v2)) (.fin 1) = .fin ((⌈v2⌉ - 1 : ℤ) : ℚ) := by
    have := sub_int (j := ⌈v2⌉) (k := 1) (by rw [abs_le]; constructor <;> omega)
    rw [Int.cast_one] at this
    exact this
  rw [s1, s2, e1]
  have t1 : toI32 (Fl.ceil (.fin v1)) = .ok ⌈v1⌉ := toI32_int (by omega) (by omega)
  have t2 : toI32 (Fl.floor (.fin v1)) = .ok ⌊v1⌋ := toI32_int (by omega) (by omega)
  have l1' : Fl.sub (.fin v1) (Fl.floor (.fin v1)) = .fin l := l1
  rw [t1, t2, toI32_int (by omega) (by omega), toI32_int (by omega) (by omega), l1']
  rfl

/-- What is known of the numbers of one axis, for a window from `p` to `q`. -/
structure AxisOK (a b : ℚ) (n : Nat) (p q : ℚ) (A : Axis) : Prop where
  ex : ∃ v1 v2 l h : ℚ, A = ⟨⌈v1⌉, ⌊v2⌋ - 1, ⌊v1⌋, ⌈v2⌉ - 1, .fin l, .fin h⟩ ∧ |v1 - n * ((p - a) / (b - a))| ≤ n / 2 ^ 49 ∧
    |v2 - n * ((q - a) / (b - a))| ≤ n / 2 ^ 49 ∧ |l - (v1 - ⌊v1⌋)| ≤ 1 / 2 ^ 51 ∧ |h - (v2 - (⌈v2⌉ - 1 : ℤ))| ≤ 1 / 2 ^ 51

theorem axis_ok {a b p q : ℚ} {n : Nat} (h0 : 0 < n) (h1 : n < 2 ^ 29) (ha : |a| ≤ 2 ^ 200) (hb : |b| ≤ 2 ^ 200) (hr : 1 / 2 ^ 200 ≤ b - a)
    (hp : a ≤ p) (hpq : p ≤ q) (hq : q ≤ b) :
    ∃ A, axisOf (cellNumber (.fin a) (Fl.sub (.fin b) (.fin a)) n (.fin p)) (cellNumber (.fin a) (Fl.sub (.fin b) (.fin a)) n (.fin q)) = .ok A ∧
      AxisOK a b n p q A := by
  obtain ⟨v1, e1, z1, n1⟩ := cellNumber_near (n := n) h0 (by omega) ha hb hp (hpq.trans hq) hr
  obtain ⟨v2, e2, z2, n2⟩ := cellNumber_near (n := n) h0 (by omega) ha hb (hp.trans hpq) hq hr
  have hd : 0 < b - a := lt_of_lt_of_le (by positivity) hr
  have hN : (n : ℚ) ≤ 2 ^ 29 := by exact_mod_cast h1.le
  have hbd : ∀ c v : ℚ, c ≤ b → |v - n * ((c - a) / (b - a))| ≤ n / 2 ^ 49 → v ≤ 2 ^ 30 := by
    intro c v hc hv
    have e := (abs_le.1 hv).2
    have : (c - a) / (b - a) ≤ 1 := by rw [div_le_one hd]; linarith
    have : (n : ℚ) * ((c - a) / (b - a)) ≤ n := by
      have hn0 : (0 : ℚ) ≤ n := by positivity
      nlinarith
    clear hv
    generalize (n : ℚ) * ((c - a) / (b - a)) = C at *
    generalize (n : ℚ) = N at *
    norm_num at e hN ⊢; linarith
  obtain ⟨l, h, e3, e4, e5⟩ := axisOf_ok z1 (hbd p v1 (hpq.trans hq) n1) z2 (hbd q v2 hq n2)
  refine ⟨_, ?_, ⟨v1, v2, l, h, rfl, n1, n2, e4, e5⟩⟩
  rw [e1, e2]; exact e3

/-- A coordinate `c` in cell `k`. -/
structure InK (a b : ℚ) (n : Nat) (c : ℚ) (k : Nat) : Prop where
  lo : (k : ℚ) - n / 2 ^ 49 ≤ n * ((c - a) / (b - a))
  hi : n * ((c - a) / (b - a)) ≤ k + 1 + n / 2 ^ 49

theorem margin_pos {a b p d : ℚ} {n : Nat} (hr : 0 < b - a) (h : p + margin a b ≤ d) :
    (n : ℚ) * ((p - a) / (b - a)) + n * ((|a| + |b|) / (b - a)) / 2 ^ 42 ≤ n * ((d - a) / (b - a)) := by
  have e : (n : ℚ) * ((p - a) / (b - a)) + n * ((|a| + |b|) / (b - a)) / 2 ^ 42 = n * ((p + margin a b - a) / (b - a)) := by
    unfold margin; field_simp; ring
  rw [e]
  apply mul_le_mul_of_nonneg_left _ (by positivity)
  apply div_le_div_of_nonneg_right _ hr.le
  linarith

theorem size_ge {a b : ℚ} {n : Nat} (hr : 0 < b - a) : (n : ℚ) ≤ n * ((|a| + |b|) / (b - a)) := by
  have : 1 ≤ (|a| + |b|) / (b - a) := by
    rw [le_div_iff₀ hr]
    have := le_abs_self b
    have := neg_abs_le a
    linarith
  have hn : (0 : ℚ) ≤ n := by positivity
  nlinarith

section
variable {a b p q c : ℚ} {n k : Nat} {A : Axis}

/-- What "deep" says in numbers of cells. -/
theorem deep_low (hr : 0 < b - a) (h : (p = a ∧ a ≤ c) ∨ p + margin a b ≤ c) : p ≤ c ∧ ((n : ℚ) * ((p - a) / (b - a)) = 0 ∨
    (n : ℚ) * ((p - a) / (b - a)) + n * ((|a| + |b|) / (b - a)) / 2 ^ 42 ≤ n * ((c - a) / (b - a))) := by
  have hmar : 0 ≤ margin a b := by unfold margin; positivity
  rcases h with ⟨rfl, h⟩ | h
  · exact ⟨h, Or.inl (by simp)⟩
  · exact ⟨by linarith, Or.inr (margin_pos hr h)⟩

theorem deep_high (hr : 0 < b - a) (h : (q = b ∧ c ≤ b) ∨ c ≤ q - margin a b) : c ≤ q ∧ ((n : ℚ) * ((q - a) / (b - a)) = n ∨
    (n : ℚ) * ((c - a) / (b - a)) + n * ((|a| + |b|) / (b - a)) / 2 ^ 42 ≤ n * ((q - a) / (b - a))) := by
  have hmar : 0 ≤ margin a b := by unfold margin; positivity
  rcases h with ⟨rfl, h⟩ | h
  · exact ⟨h, Or.inl (by rw [div_self hr.ne', mul_one])⟩
  · exact ⟨by linarith, Or.inr (margin_pos hr (by linarith))⟩

/-- A coordinate deep in the window: its cell is looked at and the coordinate is accepted. -/
theorem axis_deep (hA : AxisOK a b n p q A) (h0 : 0 < n) (hn : n < 2 ^ 29) (hkn : k < n) (hr : 0 < b - a) (hk : InK a b n c k)
    (h1 : (p = a ∧ a ≤ c) ∨ p + margin a b ≤ c) (h2 : (q = b ∧ c ≤ b) ∨ c ≤ q - margin a b) :
    A.meets k = true ∧ axisOK A false k (.fin p) (.fin q) (.fin c) = true := by
  obtain ⟨v1, v2, l, h, rfl, n1, n2, -, -⟩ := hA.ex
  obtain ⟨p1, m1⟩ := deep_low (n := n) hr h1
  obtain ⟨p2, m2⟩ := deep_high (n := n) hr h2
  have hs := size_ge (a := a) (b := b) (n := n) hr
  have hk1 := hk.lo
  have hk2 := hk.hi
  have hN : (1 : ℚ) ≤ n := by exact_mod_cast h0
  have hN2 : (n : ℚ) ≤ 2 ^ 29 := by exact_mod_cast hn.le
  have hkq : (k : ℚ) + 1 ≤ n := by exact_mod_cast hkn
  have hk0 : (0 : ℚ) ≤ k := by positivity
  rw [abs_le] at n1 n2
  obtain ⟨n1, n1'⟩ := n1
  obtain ⟨n2, n2'⟩ := n2
  clear h1 h2
  generalize (n : ℚ) * ((|a| + |b|) / (b - a)) = S at *
  generalize (n : ℚ) * ((p - a) / (b - a)) = P at *
  generalize (n : ℚ) * ((q - a) / (b - a)) = Q at *
  generalize (n : ℚ) * ((c - a) / (b - a)) = C at *
  generalize (n : ℚ) = N at *
  have k1 : v1 < (k : ℚ) + 1 := by rcases m1 with m1 | m1 <;> norm_num at * <;> linarith
  have k2 : (k : ℚ) < v2 := by rcases m2 with m2 | m2 <;> norm_num at * <;> linarith
  have f1 : ⌊v1⌋ < (k : ℤ) + 1 := Int.floor_lt.2 (by exact_mod_cast k1)
  have f2 : (k : ℤ) < ⌈v2⌉ := Int.lt_ceil.2 (by exact_mod_cast k2)
  have hb : between (.fin p) (.fin q) (.fin c) = true := by
    unfold between
    simp only [Fl.le, Bool.and_eq_true, decide_eq_true_eq]
    exact ⟨p1, p2⟩
  refine ⟨?_, ?_⟩
  · unfold Axis.meets
    simp only [Bool.and_eq_true, decide_eq_true_eq]
    omega
  · unfold axisOK Axis.inside
    rw [hb]
    simp only [Bool.or_eq_true, Bool.and_eq_true, decide_eq_true_eq, Bool.false_eq_true, false_or, and_true]
    have := Int.ceil_le_floor_add_one v1
    have := Int.ceil_le_floor_add_one v2
    omega

/-- A coordinate accepted is near the window. -/
theorem axis_near (hA : AxisOK a b n p q A) (h0 : 0 < n) (hr : 0 < b - a) (hk : InK a b n c k)
    (h : axisOK A false k (.fin p) (.fin q) (.fin c) = true) : p - margin a b ≤ c ∧ c ≤ q + margin a b := by
  obtain ⟨v1, v2, l, h, rfl, n1, n2, -, -⟩ := hA.ex
  have hmar : 0 ≤ margin a b := by unfold margin; positivity
  unfold axisOK Axis.inside between at h
  simp only [Bool.or_eq_true, Bool.and_eq_true, decide_eq_true_eq, Bool.false_eq_true, false_or, Fl.le] at h
  rcases h with ⟨c1, c2⟩ | ⟨-, c1, c2⟩
  · by_contra hcon
    have hs := size_ge (a := a) (b := b) (n := n) hr
    have hk1 := hk.lo
    have hk2 := hk.hi
    have hN : (1 : ℚ) ≤ n := by exact_mod_cast h0
    rw [abs_le] at n1 n2
    have c1' : v1 ≤ (k : ℚ) := by
      have := Int.ceil_le.1 c1
      exact_mod_cast this
    have c2' : (k : ℚ) + 1 ≤ v2 := by
      have := Int.le_floor.1 (show (k : ℤ) + 1 ≤ ⌊v2⌋ by omega)
      exact_mod_cast this
    rw [not_and_or, not_le, not_le] at hcon
    rcases hcon with hc | hc
    · have m1 := margin_pos (n := n) hr (by linarith : c + margin a b ≤ p)
      generalize (n : ℚ) * ((|a| + |b|) / (b - a)) = S at *
      generalize (n : ℚ) * ((p - a) / (b - a)) = P at *
      generalize (n : ℚ) * ((q - a) / (b - a)) = Q at *
      generalize (n : ℚ) * ((c - a) / (b - a)) = C at *
      generalize (n : ℚ) = N at *
      obtain ⟨n1, n1'⟩ := n1
      norm_num at *; linarith
    · have m1 := margin_pos (n := n) hr (by linarith : q + margin a b ≤ c)
      generalize (n : ℚ) * ((|a| + |b|) / (b - a)) = S at *
      generalize (n : ℚ) * ((p - a) / (b - a)) = P at *
      generalize (n : ℚ) * ((q - a) / (b - a)) = Q at *
      generalize (n : ℚ) * ((c - a) / (b - a)) = C at *
      generalize (n : ℚ) = N at *
      obtain ⟨n2, n2'⟩ := n2
      norm_num at *; linarith
  · constructor <;> linarith

/-- A half of a cell with a coordinate deep in the window is looked at. -/
theorem axis_half (hA : AxisOK a b n p q A) (h0 : 0 < n) (hn : n < 2 ^ 29) (hkn : k < n) (hr : 0 < b - a) (hk : InK a b n c k)
    (h1 : (p = a ∧ a ≤ c) ∨ p + margin a b ≤ c) (h2 : (q = b ∧ c ≤ b) ∨ c ≤ q - margin a b)
    {t : ℚ} (ht : |t - (n * ((c - a) / (b - a)) - k)| ≤ n * ((|a| + |b|) / (b - a)) / 2 ^ 44) :
    A.half false k (!(Fl.lt (.fin (1 / 2)) (.fin t))) = true := by
  have hm := (axis_deep hA h0 hn hkn hr hk h1 h2).1
  obtain ⟨v1, v2, l, h, rfl, n1, n2, hl, hh⟩ := hA.ex
  unfold Axis.half
  rw [Bool.false_or]
  split
  · rfl
  rename_i hin
  obtain ⟨p1, m1⟩ := deep_low (n := n) hr h1
  obtain ⟨p2, m2⟩ := deep_high (n := n) hr h2
  have hs := size_ge (a := a) (b := b) (n := n) hr
  have hk1 := hk.lo
  have hk2 := hk.hi
  have hN : (1 : ℚ) ≤ n := by exact_mod_cast h0
  have hN2 : (n : ℚ) ≤ 2 ^ 29 := by exact_mod_cast hn.le
  have hkq : (k : ℚ) + 1 ≤ n := by exact_mod_cast hkn
  have hk0 : (0 : ℚ) ≤ k := by positivity
  rw [abs_le] at n1 n2 hl hh ht
  clear h1 h2
  generalize (n : ℚ) * ((|a| + |b|) / (b - a)) = S at *
  generalize (n : ℚ) * ((p - a) / (b - a)) = P at *
  generalize (n : ℚ) * ((q - a) / (b - a)) = Q at *
  generalize (n : ℚ) * ((c - a) / (b - a)) = C at *
  generalize (n : ℚ) = N at *
  obtain ⟨n1, n1'⟩ := n1
  obtain ⟨n2, n2'⟩ := n2
  obtain ⟨hl, hl'⟩ := hl
  obtain ⟨hh, hh'⟩ := hh
  obtain ⟨ht, ht'⟩ := ht
  by_cases hlow : (k : ℤ) = ⌊v1⌋
  · rw [if_pos hlow]
    have hkv : (k : ℚ) = ⌊v1⌋ := by exact_mod_cast hlow
    split
    · rename_i hlt
      simp only [Bool.not_eq_true', Fl.lt, decide_eq_false_iff_not, not_lt] at hlt
      simp only [Fl.le, decide_eq_true_eq]
      rw [← hkv] at hl hl'
      rcases m1 with m1 | m1 <;> norm_num at * <;> linarith
    · rfl
  · rw [if_neg hlow]
    split
    · rfl
    · rename_i hlt
      simp only [Bool.not_eq_true', Fl.lt, decide_eq_false_iff_not, not_not] at hlt
      simp only [Fl.lt, decide_eq_true_eq]
      unfold Axis.meets at hm
      unfold Axis.inside at hin
      simp only [Bool.and_eq_true, decide_eq_true_eq] at hm hin
      have := Int.ceil_le_floor_add_one v1
      have := Int.ceil_le_floor_add_one v2
      have hkk : (k : ℤ) = ⌈v2⌉ - 1 := by omega
      have hkv : (k : ℚ) = (⌈v2⌉ - 1 : ℤ) := by exact_mod_cast hkk
      rw [← hkv] at hh hh'
      rcases m2 with m2 | m2 <;> norm_num at * <;> linarith

end

end LibLAS.Index
