import Verif.Lemmas.FloatOrder
import Verif.Lemmas.ResetRun
import Verif.Model.IndexBuild
/-
The cell of a point.
-/
namespace LibLAS.Index
open Fl

/-- A quotient of doubles that is finite is a rounded number. -/
theorem div_fin {a b : Fl} {q : ℚ} (h : Fl.div a b = .fin q) : ∃ x, q = rnd x := by
  have hof : ∀ x, ofRat x = .fin q → ∃ x, q = rnd x := by
    intro x hx
    unfold ofRat at hx
    simp only at hx
    split at hx
    · exact absurd hx (by simp)
    · split at hx
      · exact absurd hx (by simp)
      · injection hx with hx; exact ⟨x, hx.symm⟩
  cases a with
  | nan => cases b <;> simp [Fl.div] at h
  | inf s =>
    cases b with
    | fin b => simp only [Fl.div] at h; split at h <;> simp at h
    | nan => simp [Fl.div] at h
    | inf t => simp [Fl.div] at h
  | fin a =>
    cases b with
    | fin b =>
      simp only [Fl.div] at h
      split at h
      · simp at h
      · exact hof _ h
    | nan => simp [Fl.div] at h
    | inf t =>
      simp only [Fl.div, Fl.fin.injEq] at h
      exact ⟨0, by rw [rnd_zero, h]⟩

/-- Whatever the doubles, the conversion to a cell number is defined and gives a number of the grid. -/
theorem identify1_total (lo range : Fl) {cells : Nat} (h0 : 0 < cells) (h1 : cells < 2 ^ 32) (c : Fl) :
    identify1 lo range cells c = .ok none ∨ ∃ k, identify1 lo range cells c = .ok (some k) ∧ k < cells := by
  unfold identify1
  generalize hoff : Fl.div (Fl.sub c lo) range = off
  simp only
  by_cases hb : (Fl.le (.fin 0) off && Fl.lt off (.fin 1)) = true
  · rw [if_pos hb]
    right
    cases off with
    | nan => simp [Fl.le] at hb
    | inf s => cases s <;> simp [Fl.le, Fl.lt] at hb
    | fin q =>
      simp only [Fl.le, Fl.lt, Bool.and_eq_true, decide_eq_true_eq] at hb
      obtain ⟨x, rfl⟩ := div_fin hoff
      have hq := rnd_lt_one hb.2
      have hm := rnd_mul_lt hb.1 hq h0
      have hnn : 0 ≤ rnd (rnd x * cells) := rnd_nonneg (mul_nonneg hb.1 (by positivity))
      have hbig : |rnd x * (cells : ℚ)| ≤ 2 ^ 1023 := by
        have hc : (cells : ℚ) ≤ 2 ^ 32 := by exact_mod_cast h1.le
        rw [abs_of_nonneg (mul_nonneg hb.1 (by positivity))]
        have h2 : (2 : ℚ) ^ 32 ≤ 2 ^ 1023 := pow_le_pow_right₀ (by norm_num) (by norm_num)
        refine le_trans ?_ (hc.trans h2)
        have : rnd x ≤ 1 := hb.2.le
        have hcn : (0 : ℚ) ≤ cells := by positivity
        nlinarith
      have hmul : Fl.mul (.fin (rnd x)) (Grid.num cells) = .fin (rnd (rnd x * cells)) := by
        show ofRat _ = _
        exact ofRat_fin hbig
      rw [hmul]
      generalize rnd (rnd x * cells) = w at *
      have hfl : ⌊w⌋ < cells := by
        rw [Int.floor_lt]; exact_mod_cast hm
      have hfl0 : 0 ≤ ⌊w⌋ := Int.floor_nonneg.2 hnn
      refine ⟨⌊w⌋.toNat, ?_, by omega⟩
      unfold toUInt32
      simp only [if_pos hnn]
      rw [if_pos ⟨hfl0, by omega⟩]
      rfl
  · rw [if_neg hb]
    by_cases hd : Point.compareDistance off (.fin 1) = true
    · rw [if_pos hd]; right; exact ⟨cells - 1, rfl, by omega⟩
    · rw [if_neg hd]; left; rfl

/-- A coordinate between the bounds has a cell. -/
theorem identify1_inside {lo hi c : ℚ} {cells : Nat} (h0 : 0 < cells) (h1 : cells < 2 ^ 32) (hlo : |lo| ≤ 2 ^ 1000)
    (hhi : |hi| ≤ 2 ^ 1000) (hc1 : lo ≤ c) (hc2 : c ≤ hi) (hr : Fl.sub (.fin hi) (.fin lo) ≠ .fin 0) :
    ∃ k, identify1 (.fin lo) (Fl.sub (.fin hi) (.fin lo)) cells (.fin c) = .ok (some k) ∧ k < cells := by
  have hbig : |hi - lo| ≤ 2 ^ 1023 := by
    refine (abs_sub hi lo).trans ?_
    have : (2 : ℚ) ^ 1000 + 2 ^ 1000 = 2 ^ 1001 := by rw [pow_succ _ 1000]; ring
    refine (add_le_add hhi hlo).trans ?_
    rw [this]
    exact pow_le_pow_right₀ (by norm_num) (by norm_num)
  have hbig2 : |c - lo| ≤ 2 ^ 1023 := by
    refine le_trans ?_ hbig
    rw [abs_of_nonneg (by linarith), abs_of_nonneg (by linarith)]
    linarith
  have er : Fl.sub (.fin hi) (.fin lo) = .fin (rnd (hi - lo)) := by
    show ofRat (hi + -lo) = _
    rw [← sub_eq_add_neg]; exact ofRat_fin hbig
  have ec : Fl.sub (.fin c) (.fin lo) = .fin (rnd (c - lo)) := by
    show ofRat (c + -lo) = _
    rw [← sub_eq_add_neg]; exact ofRat_fin hbig2
  rw [er] at hr ⊢
  have hr0 : rnd (hi - lo) ≠ 0 := fun h => hr (by rw [h])
  have hle : rnd (c - lo) ≤ rnd (hi - lo) := rnd_mono (by linarith) (by linarith)
  have hn : 0 ≤ rnd (c - lo) := rnd_nonneg (by linarith)
  have hpos : 0 < rnd (hi - lo) := lt_of_le_of_ne (rnd_nonneg (by linarith)) (Ne.symm hr0)
  have hq0 : 0 ≤ rnd (c - lo) / rnd (hi - lo) := div_nonneg hn hpos.le
  have hq1 : rnd (c - lo) / rnd (hi - lo) ≤ 1 := (div_le_one hpos).2 hle
  have hoff : Fl.div (.fin (rnd (c - lo))) (.fin (rnd (hi - lo))) = .fin (rnd (rnd (c - lo) / rnd (hi - lo))) := by
    simp only [Fl.div, if_neg hr0]
    apply ofRat_fin
    rw [abs_of_nonneg hq0]
    exact hq1.trans (one_le_pow₀ (by norm_num))
  rcases identify1_total (.fin lo) (.fin (rnd (hi - lo))) h0 h1 (.fin c) with h | h
  · exfalso
    unfold identify1 at h
    simp only [ec, hoff] at h
    have m1 := rnd_mono hq0 hq1
    rw [rnd_one] at m1
    have m0 := rnd_nonneg hq0
    rcases m1.eq_or_lt with m1 | m1
    · rw [m1, if_neg (by simp [Fl.lt]), if_pos (compareDistance_self 1)] at h
      simp at h
    · rw [if_pos (by simp only [Fl.le, Fl.lt, Bool.and_eq_true, decide_eq_true_eq]; exact ⟨m0, m1⟩)] at h
      generalize toUInt32 _ = o at h
      cases o <;> simp [Outcome.bind] at h
  · exact h

theorem tiny_le {d : ℚ} (hd : 1 / 2 ^ 900 ≤ d) : (1 : ℚ) / 2 ^ 1075 ≤ d / 2 ^ 100 := by
  rw [div_le_div_iff₀ (by positivity) (by positivity), one_mul]
  have h1 : (1 : ℚ) / 2 ^ 900 * 2 ^ 1075 = 2 ^ 175 := by
    rw [one_div, show (1075 : ℕ) = 900 + 175 from rfl, pow_add, inv_mul_cancel_left₀ (by positivity)]
  have h2 : (1 : ℚ) / 2 ^ 900 * 2 ^ 1075 ≤ d * 2 ^ 1075 := mul_le_mul_of_nonneg_right hd (by positivity)
  rw [h1] at h2
  generalize d * 2 ^ 1075 = z at *
  norm_num at *
  linarith

/-- The cell number is the exact one, up to the rounding errors of a few operations. -/
theorem identify1_near {lo hi c : ℚ} {cells k : Nat} (h0 : 0 < cells) (h1 : cells < 2 ^ 32) (hlo : |lo| ≤ 2 ^ 1000)
    (hhi : |hi| ≤ 2 ^ 1000) (hc1 : lo ≤ c) (hc2 : c ≤ hi) (hr : 1 / 2 ^ 900 ≤ hi - lo)
    (hk : identify1 (.fin lo) (Fl.sub (.fin hi) (.fin lo)) cells (.fin c) = .ok (some k)) :
    (k : ℚ) - cells / 2 ^ 49 ≤ cells * ((c - lo) / (hi - lo)) ∧ cells * ((c - lo) / (hi - lo)) ≤ k + 1 + cells / 2 ^ 49 := by
  have hbig : |hi - lo| ≤ 2 ^ 1023 := by
    refine (abs_sub hi lo).trans ?_
    have : (2 : ℚ) ^ 1000 + 2 ^ 1000 = 2 ^ 1001 := by rw [pow_succ _ 1000]; ring
    refine (add_le_add hhi hlo).trans ?_
    rw [this]
    exact pow_le_pow_right₀ (by norm_num) (by norm_num)
  have hd : 0 < hi - lo := lt_of_lt_of_le (by positivity) hr
  have hbig2 : |c - lo| ≤ 2 ^ 1023 := by
    refine le_trans ?_ hbig
    rw [abs_of_nonneg (by linarith), abs_of_nonneg (by linarith)]
    linarith
  have er : Fl.sub (.fin hi) (.fin lo) = .fin (rnd (hi - lo)) := by
    show ofRat (hi + -lo) = _
    rw [← sub_eq_add_neg]; exact ofRat_fin hbig
  have ec : Fl.sub (.fin c) (.fin lo) = .fin (rnd (c - lo)) := by
    show ofRat (c + -lo) = _
    rw [← sub_eq_add_neg]; exact ofRat_fin hbig2
  rw [er] at hk
  have g1 := rnd_err (hi - lo)
  have g2 := rnd_err (c - lo)
  have ht := tiny_le hr
  rw [abs_of_nonneg hd.le] at g1
  rw [abs_of_nonneg (by linarith : 0 ≤ c - lo)] at g2
  have hm : rnd (c - lo) ≤ rnd (hi - lo) := rnd_mono (by linarith) (by linarith)
  have hmn : 0 ≤ rnd (c - lo) := rnd_nonneg (by linarith)
  have htiny : (1 : ℚ) / 2 ^ 1075 ≤ 1 / 2 ^ 100 := one_div_le_one_div_of_le (by positivity) (pow_le_pow_right₀ (by norm_num) (by norm_num))
  unfold identify1 at hk
  simp only [ec] at hk
  clear hlo hhi hbig hbig2 er ec hr
  -- scale by the range
  obtain ⟨d, hdd⟩ : ∃ d, hi - lo = d := ⟨_, rfl⟩
  obtain ⟨u, hu⟩ : ∃ u, (c - lo) / (hi - lo) = u := ⟨_, rfl⟩
  have hcd : c - lo = d * u := by rw [← hu, ← hdd]; field_simp
  have hu0 : 0 ≤ u := by rw [← hu]; exact div_nonneg (by linarith) hd.le
  have hu1 : u ≤ 1 := by rw [← hu, div_le_one hd]; linarith
  rw [hu]
  rw [hcd] at hk hm hmn g2
  rw [hdd] at hk hm g1 hd ht
  obtain ⟨r, hr⟩ : ∃ r, rnd d = r := ⟨_, rfl⟩
  obtain ⟨a, ha⟩ : ∃ a, rnd (d * u) = a := ⟨_, rfl⟩
  rw [hr] at hk hm g1
  rw [ha] at hk hm hmn g2
  clear hdd hu hcd hr ha hc1 hc2
  have hdu : d * u ≤ d := by nlinarith
  have hdu0 : 0 ≤ d * u := by positivity
  have g1' : |r - d| ≤ d / 2 ^ 52 := by
    refine g1.trans ?_
    generalize (1 : ℚ) / 2 ^ 1075 = e at *
    norm_num at *
    linarith
  have g2' : |a - d * u| ≤ d / 2 ^ 52 := by
    refine g2.trans ?_
    generalize (1 : ℚ) / 2 ^ 1075 = e at *
    norm_num at *
    linarith
  clear g1 g2 ht
  have hr0 : 0 < r := by
    rw [abs_le] at g1'; norm_num at g1'; linarith [g1'.1]
  have hq0 : 0 ≤ a / r := by positivity
  have hq1 : a / r ≤ 1 := (div_le_one hr0).2 hm
  have hqu : |a / r - u| ≤ 3 / 2 ^ 52 := by
    have e : a / r - u = (a - r * u) / r := by field_simp
    rw [e, abs_div, abs_of_pos hr0, div_le_iff₀ hr0]
    rw [abs_le] at g1' g2' ⊢
    obtain ⟨p1, p2⟩ := g1'
    obtain ⟨p3, p4⟩ := g2'
    have w1 : -(d / 2 ^ 52) ≤ r * u - d * u := by
      have := mul_nonneg hu0 (by linarith : 0 ≤ r - d + d / 2 ^ 52)
      have h5 : u * (d / 2 ^ 52) ≤ d / 2 ^ 52 := by
        have : 0 ≤ d / 2 ^ 52 := by positivity
        nlinarith
      nlinarith
    have w2 : r * u - d * u ≤ d / 2 ^ 52 := by
      have := mul_nonneg hu0 (by linarith : 0 ≤ d / 2 ^ 52 - (r - d))
      have h5 : u * (d / 2 ^ 52) ≤ d / 2 ^ 52 := by
        have : 0 ≤ d / 2 ^ 52 := by positivity
        nlinarith
      nlinarith
    norm_num at *
    constructor <;> linarith
  have hoff : Fl.div (.fin a) (.fin r) = .fin (rnd (a / r)) := by
    simp only [Fl.div, if_neg hr0.ne']
    apply ofRat_fin
    rw [abs_of_nonneg hq0]
    exact hq1.trans (one_le_pow₀ (by norm_num))
  rw [hoff] at hk
  have g3 := rnd_err (a / r)
  rw [abs_of_nonneg hq0] at g3
  have hoffu : |rnd (a / r) - u| ≤ 4 / 2 ^ 52 := by
    have : |rnd (a / r) - u| ≤ |rnd (a / r) - a / r| + |a / r - u| := abs_sub_le _ _ _
    refine this.trans ?_
    generalize (1 : ℚ) / 2 ^ 1075 = e at *
    norm_num at *
    linarith
  have hn0 : 0 ≤ rnd (a / r) := rnd_nonneg hq0
  have hn1 : rnd (a / r) ≤ 1 := by have := rnd_mono hq0 hq1; rwa [rnd_one] at this
  generalize rnd (a / r) = off at *
  clear g3 hqu hq0 hq1 g1' g2' hm hmn hoff
  have hcp : (1 : ℚ) ≤ cells := by exact_mod_cast h0
  rcases hn1.eq_or_lt with hn1 | hn1
  · rw [hn1, if_neg (by simp [Fl.lt]), if_pos (compareDistance_self 1)] at hk
    simp only [Outcome.ok.injEq, Option.some.injEq] at hk
    subst hk
    rw [hn1] at hoffu
    rw [Nat.cast_sub h0]
    push_cast
    rw [abs_le] at hoffu
    obtain ⟨p1, p2⟩ := hoffu
    have w1 : (cells : ℚ) * (1 - 4 / 2 ^ 52) ≤ cells * u := mul_le_mul_of_nonneg_left (by linarith) (by positivity)
    have w2 : (cells : ℚ) * u ≤ cells * 1 := mul_le_mul_of_nonneg_left hu1 (by positivity)
    norm_num at *
    constructor <;> linarith
  · rw [if_pos (by simp only [Fl.le, Fl.lt, Bool.and_eq_true, decide_eq_true_eq]; exact ⟨hn0, hn1⟩)] at hk
    have hc : (cells : ℚ) ≤ 2 ^ 32 := by exact_mod_cast h1.le
    have hnn : 0 ≤ off * (cells : ℚ) := by positivity
    have hmul : Fl.mul (.fin off) (Grid.num cells) = .fin (rnd (off * cells)) := by
      show ofRat _ = _
      apply ofRat_fin
      rw [abs_of_nonneg hnn]
      have h2 : (2 : ℚ) ^ 32 ≤ 2 ^ 1023 := pow_le_pow_right₀ (by norm_num) (by norm_num)
      refine le_trans ?_ (hc.trans h2)
      nlinarith
    rw [hmul] at hk
    have g4 := rnd_err (off * cells)
    rw [abs_of_nonneg hnn] at g4
    have hw0 := rnd_nonneg hnn
    generalize rnd (off * cells) = w at *
    unfold toUInt32 at hk
    simp only [if_pos hw0] at hk
    by_cases hfl : 0 ≤ ⌊w⌋ ∧ ⌊w⌋ ≤ 4294967295
    · rw [if_pos hfl] at hk
      have hk' : ⌊w⌋.toNat = k := by
        simpa [Outcome.bind] using hk
      have hkw : (k : ℤ) = ⌊w⌋ := by omega
      have e1 : (k : ℚ) ≤ w := by
        have := Int.floor_le w
        rw [← hkw] at this; exact_mod_cast this
      have e2 : w < k + 1 := by
        have := Int.lt_floor_add_one w
        rw [← hkw] at this; exact_mod_cast this
      have hoc : off * cells ≤ cells := by nlinarith
      have b1 : |off * cells - u * cells| ≤ 4 / 2 ^ 52 * cells := by
        rw [← sub_mul, abs_mul, abs_of_pos (by linarith : (0 : ℚ) < cells)]
        exact mul_le_mul_of_nonneg_right hoffu (by positivity)
      rw [mul_comm (cells : ℚ) u]
      generalize off * (cells : ℚ) = z at *
      generalize u * (cells : ℚ) = y at *
      generalize (1 : ℚ) / 2 ^ 1075 = e at *
      rw [abs_le] at g4 b1
      obtain ⟨q1, q2⟩ := g4
      obtain ⟨q3, q4⟩ := b1
      have hz : z / 2 ^ 53 ≤ cells / 2 ^ 53 := div_le_div_of_nonneg_right hoc (by positivity)
      clear hmul hk
      generalize (cells : ℚ) = C at *
      norm_num at *
      constructor <;> linarith
    · rw [if_neg hfl] at hk
      simp [Outcome.bind] at hk

end LibLAS.Index
