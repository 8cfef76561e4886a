import Verif.Lemmas.IndexPlace
import Verif.Model.IndexQuery
/-
Windows in numbers of cells.
-/
namespace LibLAS.Index
open Fl

/-- Rounding, when the smallest numbers do not matter. -/
theorem rnd_near {x e : ℚ} (hx : |x| ≤ e) : |rnd x - x| ≤ e / 2 ^ 53 + 1 / 2 ^ 1075 := by
  refine (rnd_err x).trans ?_
  have : |x| / 2 ^ 53 ≤ e / 2 ^ 53 := div_le_div_of_nonneg_right hx (by positivity)
  linarith

theorem tiny200 {d : ℚ} (hd : 1 / 2 ^ 200 ≤ d) : (1 : ℚ) / 2 ^ 1075 ≤ d / 2 ^ 150 := by
  refine le_trans ?_ (div_le_div_of_nonneg_right hd (by positivity))
  rw [div_div, ← pow_add]
  exact one_div_le_one_div_of_le (by positivity) (pow_le_pow_right₀ (by norm_num) (by norm_num))

theorem big_le {x : ℚ} {k : Nat} (h : |x| ≤ 2 ^ k) (hk : k ≤ 1023) : |x| ≤ 2 ^ 1023 :=
  h.trans (pow_le_pow_right₀ (by norm_num) hk)

/-- The difference of two numbers. -/
theorem sub_fin {a b : ℚ} (ha : |a| ≤ 2 ^ 1000) (hb : |b| ≤ 2 ^ 1000) : Fl.sub (.fin b) (.fin a) = .fin (rnd (b - a)) := by
  show ofRat (b + -a) = _
  rw [← sub_eq_add_neg]
  apply ofRat_fin
  refine (abs_sub b a).trans ?_
  have : (2 : ℚ) ^ 1000 + 2 ^ 1000 = 2 ^ 1001 := by rw [pow_succ _ 1000]; ring
  refine (add_le_add hb ha).trans ?_
  rw [this]
  exact pow_le_pow_right₀ (by norm_num) (by norm_num)

theorem to1000 {x : ℚ} (h : |x| ≤ 2 ^ 200) : |x| ≤ 2 ^ 1000 := h.trans (pow_le_pow_right₀ (by norm_num) (by norm_num))

set_option maxHeartbeats 1000000 in
/-- A bound of a window in numbers of cells is the exact number, up to rounding. -/
theorem cellNumber_near {a b c : ℚ} {n : Nat} (h0 : 0 < n) (h1 : n < 2 ^ 31) (ha : |a| ≤ 2 ^ 200) (hb : |b| ≤ 2 ^ 200)
    (hc1 : a ≤ c) (hc2 : c ≤ b) (hr : 1 / 2 ^ 200 ≤ b - a) :
    ∃ v, cellNumber (.fin a) (Fl.sub (.fin b) (.fin a)) n (.fin c) = .fin v ∧ 0 ≤ v ∧ |v - n * ((c - a) / (b - a))| ≤ n / 2 ^ 49 := by
  have hd : 0 < b - a := lt_of_lt_of_le (by positivity) hr
  have hc : |c| ≤ 2 ^ 200 := by
    rw [abs_le] at *
    exact ⟨by linarith [ha.1], by linarith [hb.2]⟩
  have ht := tiny200 hr
  have hdbig : b - a ≤ 2 ^ 201 := by
    have := (abs_le.1 ha).1
    have := (abs_le.1 hb).2
    have : (2 : ℚ) ^ 201 = 2 ^ 200 + 2 ^ 200 := by norm_num
    linarith
  unfold cellNumber
  rw [sub_fin (to1000 ha) (to1000 hb), sub_fin (to1000 ha) (to1000 hc)]
  obtain ⟨d, hdd⟩ : ∃ d, b - a = d := ⟨_, rfl⟩
  obtain ⟨u, hu⟩ : ∃ u, (c - a) / (b - a) = u := ⟨_, rfl⟩
  have hcd : c - a = d * u := by rw [← hu, ← hdd]; field_simp
  have hu0 : 0 ≤ u := by rw [← hu]; exact div_nonneg (by linarith) hd.le
  have hu1 : u ≤ 1 := by rw [← hu, div_le_one hd]; linarith
  rw [hu, hcd, hdd]
  rw [hdd] at hd ht hr hdbig
  have hdu : d * u ≤ d := by nlinarith
  have hdu0 : 0 ≤ d * u := by positivity
  have g1 := rnd_near (x := d) (e := d) (by rw [abs_of_pos hd])
  have g2 := rnd_near (x := d * u) (e := d) (by rw [abs_of_nonneg hdu0]; exact hdu)
  have hs0 : 0 ≤ rnd (d * u) := rnd_nonneg hdu0
  obtain ⟨r, hrr⟩ : ∃ r, rnd d = r := ⟨_, rfl⟩
  obtain ⟨s, hss⟩ : ∃ s, rnd (d * u) = s := ⟨_, rfl⟩
  rw [hss] at hs0 g2 ⊢
  rw [hrr] at g1 ⊢
  obtain ⟨τ, hτ⟩ : ∃ τ, (1 : ℚ) / 2 ^ 1075 = τ := ⟨_, rfl⟩
  have hτ0 : 0 ≤ τ := by rw [← hτ]; positivity
  rw [hτ] at g1 g2 ht
  obtain ⟨N, hN⟩ : ∃ N : ℚ, (n : ℚ) = N := ⟨_, rfl⟩
  have hN1 : 1 ≤ N := by rw [← hN]; exact_mod_cast h0
  have hN2 : N ≤ 2 ^ 31 := by rw [← hN]; exact_mod_cast h1.le
  have g1' : |r - d| ≤ d / 2 ^ 52 := by
    refine g1.trans ?_; norm_num at *; linarith
  have g2' : |s - d * u| ≤ d / 2 ^ 52 := by
    refine g2.trans ?_; norm_num at *; linarith
  have hs1 : s ≤ d + d / 2 ^ 52 := by have := (abs_le.1 g2').2; linarith
  have hr0 : 0 < r := by have := (abs_le.1 g1').1; norm_num at this; linarith
  have hNs : N * s ≤ 2 * (N * d) := by
    have : s ≤ 2 * d := by norm_num at hs1; linarith
    nlinarith
  have hNs0 : 0 ≤ N * s := by positivity
  have hmul : Fl.mul (Grid.num n) (.fin s) = .fin (rnd (N * s)) := by
    show ofRat (n * s) = _
    rw [hN]
    apply ofRat_fin
    refine big_le (k := 233) ?_ (by norm_num)
    rw [abs_of_nonneg hNs0]
    refine hNs.trans ?_
    have : N * d ≤ 2 ^ 31 * 2 ^ 201 := mul_le_mul hN2 hdbig hd.le (by positivity)
    norm_num at *; linarith
  rw [hmul]
  have g3 := rnd_near (x := N * s) (e := 2 * (N * d)) (by rw [abs_of_nonneg hNs0]; exact hNs)
  have hm0 : 0 ≤ rnd (N * s) := rnd_nonneg hNs0
  obtain ⟨m, hm⟩ : ∃ m, rnd (N * s) = m := ⟨_, rfl⟩
  rw [hm] at hm0 g3 ⊢
  rw [hτ] at g3
  have hNd : d ≤ N * d := by nlinarith
  have g4 : |m - N * (d * u)| ≤ 3 * (N * d) / 2 ^ 52 := by
    have e1 : m - N * (d * u) = (m - N * s) + N * (s - d * u) := by ring
    have e2 : |N * (s - d * u)| ≤ N * (d / 2 ^ 52) := by
      rw [abs_mul, abs_of_nonneg (by linarith : 0 ≤ N)]
      exact mul_le_mul_of_nonneg_left g2' (by linarith)
    rw [e1]
    refine (abs_add_le _ _).trans ?_
    have := add_le_add g3 e2
    refine this.trans ?_
    have e3 : N * (d / 2 ^ 52) = N * d / 2 ^ 52 := by ring
    rw [e3]
    generalize N * d = K at *
    norm_num at *; linarith
  have hNdu : N * (d * u) ≤ N * d := by nlinarith
  have g5 : |m / r - N * u| ≤ 5 * N / 2 ^ 52 := by
    have e : m / r - N * u = (m - N * (r * u)) / r := by field_simp
    rw [e, abs_div, abs_of_pos hr0, div_le_iff₀ hr0]
    have e1 : m - N * (r * u) = (m - N * (d * u)) - N * u * (r - d) := by ring
    have e2 : |N * u * (r - d)| ≤ N * (d / 2 ^ 52) := by
      rw [abs_mul, abs_of_nonneg (by positivity : 0 ≤ N * u)]
      have : N * u ≤ N := by nlinarith
      exact mul_le_mul this g1' (abs_nonneg _) (by linarith)
    rw [e1]
    refine (abs_sub _ _).trans ?_
    refine (add_le_add g4 e2).trans ?_
    have hrd : d * (1 - 1 / 2 ^ 52) ≤ r := by have := (abs_le.1 g1').1; norm_num at *; linarith
    have : N * (d * (1 - 1 / 2 ^ 52)) ≤ N * r := mul_le_mul_of_nonneg_left hrd (by linarith)
    have e3 : N * (d / 2 ^ 52) = N * d / 2 ^ 52 := by ring
    have e4 : N * (d * (1 - 1 / 2 ^ 52)) = N * d * (1 - 1 / 2 ^ 52) := by ring
    have e5 : 5 * N / 2 ^ 52 * r = 5 * (N * r) / 2 ^ 52 := by ring
    have : 0 ≤ N * d := by positivity
    rw [e3, e5]
    rw [e4] at *
    generalize N * d = K at *
    generalize N * r = L at *
    norm_num at *; linarith
  have hmr0 : 0 ≤ m / r := by positivity
  have hmr1 : m / r ≤ 2 * N := by
    have k1 := (abs_le.1 g5).2
    have k2 : N * u ≤ N := by nlinarith
    clear g1 g2 g3 g4 g5 g1' g2' hs1
    norm_num at k1; linarith
  clear g1 g2 g3 g4 g1' g2' hs1
  refine ⟨rnd (m / r), ?_, rnd_nonneg hmr0, ?_⟩
  · simp only [Fl.div, if_neg hr0.ne']
    apply ofRat_fin
    refine big_le (k := 33) ?_ (by norm_num)
    rw [abs_of_nonneg hmr0]
    norm_num at hN2 ⊢; linarith
  · have g6 := rnd_near (x := m / r) (e := 2 * N) (by rw [abs_of_nonneg hmr0]; exact hmr1)
    have htN : τ ≤ N / 2 ^ 100 := by
      rw [← hτ]
      refine le_trans (one_div_le_one_div_of_le (by positivity) (pow_le_pow_right₀ (by norm_num) (by norm_num : 100 ≤ 1075))) ?_
      exact div_le_div_of_nonneg_right hN1 (by positivity)
    rw [hτ] at g6
    rw [hN]
    have := (abs_sub_le (rnd (m / r)) (m / r) (N * u)).trans (add_le_add g6 g5)
    refine this.trans ?_
    norm_num at *; linarith

/-- One axis of `identifySubCell`: where in cell `x` the coordinate `p` is, as a part of the cell. -/
def partOf (lo range : Fl) (n x : Nat) (p : Fl) : Fl :=
  Fl.div (Fl.sub p (Fl.add (Fl.mul (Grid.num x) (Fl.div range (Grid.num n))) lo)) (Fl.div range (Grid.num n))

set_option maxHeartbeats 1000000 in
/-- The part of the cell is the exact one, up to rounding. -/
theorem partOf_near {a b p : ℚ} {n x : Nat} (h1 : n < 2 ^ 31) (hx : x < n) (ha : |a| ≤ 2 ^ 200) (hb : |b| ≤ 2 ^ 200)
    (hc1 : a ≤ p) (hc2 : p ≤ b) (hr : 1 / 2 ^ 200 ≤ b - a) :
    ∃ h, partOf (.fin a) (Fl.sub (.fin b) (.fin a)) n x (.fin p) = .fin h ∧
      |h - (n * ((p - a) / (b - a)) - x)| ≤ n * ((|a| + |b|) / (b - a)) / 2 ^ 44 := by
  have hd : 0 < b - a := lt_of_lt_of_le (by positivity) hr
  have hp : |p| ≤ 2 ^ 200 := by
    rw [abs_le] at *
    exact ⟨by linarith [ha.1], by linarith [hb.2]⟩
  have ht := tiny200 hr
  have hSd : b - a ≤ |a| + |b| := by
    have := le_abs_self b
    have := neg_abs_le a
    linarith
  have hS2 : |a| + |b| ≤ 2 ^ 201 := by
    have : (2 : ℚ) ^ 201 = 2 ^ 200 + 2 ^ 200 := by norm_num
    linarith
  have haS : |a| ≤ |a| + |b| := by have := abs_nonneg b; linarith
  unfold partOf
  rw [sub_fin (to1000 ha) (to1000 hb)]
  obtain ⟨S, hS⟩ : ∃ S, |a| + |b| = S := ⟨_, rfl⟩
  obtain ⟨τ, hτ⟩ : ∃ τ, (1 : ℚ) / 2 ^ 1075 = τ := ⟨_, rfl⟩
  have hτ0 : 0 ≤ τ := by rw [← hτ]; positivity
  obtain ⟨N, hN⟩ : ∃ N : ℚ, (n : ℚ) = N := ⟨_, rfl⟩
  obtain ⟨X, hX⟩ : ∃ X : ℚ, (x : ℚ) = X := ⟨_, rfl⟩
  have hN1 : 1 ≤ N := by rw [← hN]; exact_mod_cast (by omega : 1 ≤ n)
  have hN2 : N ≤ 2 ^ 31 := by rw [← hN]; exact_mod_cast h1.le
  have hX0 : 0 ≤ X := by rw [← hX]; positivity
  have hX1 : X ≤ N := by rw [← hN, ← hX]; exact_mod_cast hx.le
  rw [hS, hN, hX]
  rw [hS] at hSd hS2 haS
  rw [hτ] at ht
  have g1 := rnd_near (x := b - a) (e := b - a) (by rw [abs_of_pos hd])
  rw [hτ] at g1
  -- the size of a cell
  obtain ⟨w, hw⟩ : ∃ w, (b - a) / N = w := ⟨_, rfl⟩
  have hNw : N * w = b - a := by rw [← hw]; field_simp
  have hw0 : 0 < w := by rw [← hw]; positivity
  have htw : τ ≤ w / 2 ^ 100 := by
    refine ht.trans ?_
    rw [← hNw]
    have : N * w ≤ 2 ^ 31 * w := mul_le_mul_of_nonneg_right hN2 hw0.le
    norm_num at *; linarith
  have hwd : w ≤ b - a := by rw [← hNw]; nlinarith
  obtain ⟨d, hdd⟩ : ∃ d, b - a = d := ⟨_, rfl⟩
  have hpos : N * ((p - a) / d) - X = (p - a - X * w) / w := by
    rw [← hdd, ← hNw]; field_simp
  have hSN : N * (S / d) = S / w := by rw [← hdd, ← hNw]; field_simp
  rw [hdd] at hd hr ht hSd g1 hw hNw hwd ⊢
  rw [hpos, hSN]
  obtain ⟨r, hrr⟩ : ∃ r, rnd d = r := ⟨_, rfl⟩
  rw [hrr] at g1 ⊢
  have g1' : |r - d| ≤ d / 2 ^ 52 := by refine g1.trans ?_; norm_num at *; linarith
  have g1'' := abs_le.1 g1'
  have hr0 : 0 < r := by have := g1''.1; norm_num at this; linarith
  have hrd : r ≤ 2 * d := by have := g1''.2; norm_num at this; linarith
  have hd201 : d ≤ 2 ^ 201 := hSd.trans hS2
  -- its rounded value
  have hrn : |r / N - w| ≤ w / 2 ^ 52 := by
    have : r / N - w = (r - d) / N := by rw [← hw]; field_simp
    rw [this, abs_div, abs_of_pos (by linarith : 0 < N), div_le_iff₀ (by linarith), show w / 2 ^ 52 * N = N * w / 2 ^ 52 by ring, hNw]
    exact g1'
  have hrn0 : 0 ≤ r / N := by positivity
  have hrn1 : r / N ≤ 2 * w := by have := (abs_le.1 hrn).2; norm_num at this; linarith
  have ecs : Fl.div (.fin r) (Grid.num n) = .fin (rnd (r / N)) := by
    unfold Grid.num
    rw [hN]
    simp only [Fl.div, if_neg (by linarith : N ≠ 0)]
    apply ofRat_fin
    refine big_le (k := 202) ?_ (by norm_num)
    rw [abs_of_nonneg hrn0]
    have : (2 : ℚ) ^ 202 = 2 * 2 ^ 201 := by norm_num
    linarith
  rw [ecs]
  have g2 := rnd_near (x := r / N) (e := 2 * w) (by rw [abs_of_nonneg hrn0]; exact hrn1)
  rw [hτ] at g2
  obtain ⟨cs, hcs⟩ : ∃ cs, rnd (r / N) = cs := ⟨_, rfl⟩
  rw [hcs] at g2 ⊢
  have g2' : |cs - w| ≤ w / 2 ^ 50 := by
    refine (abs_sub_le cs (r / N) w).trans ((add_le_add g2 hrn).trans ?_)
    norm_num at *; linarith
  have g2'' := abs_le.1 g2'
  have hcs0 : w / 2 ≤ cs := by have := g2''.1; norm_num at this; linarith
  have hcsp : 0 < cs := by linarith
  have hcs1 : cs ≤ 2 * w := by have := g2''.2; norm_num at this; linarith
  clear g1 g2 hrn hrn1 hrn0 ecs hcs hrr
  -- the start of the cell
  have hXw : X * w ≤ d := by rw [← hNw]; exact mul_le_mul_of_nonneg_right hX1 hw0.le
  have hXw0 : 0 ≤ X * w := by positivity
  have hXcs : X * cs ≤ 2 * d := by
    have := mul_le_mul_of_nonneg_left hcs1 hX0
    have e : X * (2 * w) = 2 * (X * w) := by ring
    linarith
  have hXcs0 : 0 ≤ X * cs := by positivity
  have emul : Fl.mul (Grid.num x) (.fin cs) = .fin (rnd (X * cs)) := by
    show ofRat (x * cs) = _
    rw [hX]
    apply ofRat_fin
    refine big_le (k := 202) ?_ (by norm_num)
    rw [abs_of_nonneg hXcs0]
    have : (2 : ℚ) ^ 202 = 2 * 2 ^ 201 := by norm_num
    linarith
  rw [emul]
  have g3 := rnd_near (x := X * cs) (e := 2 * d) (by rw [abs_of_nonneg hXcs0]; exact hXcs)
  rw [hτ] at g3
  obtain ⟨y, hy⟩ : ∃ y, rnd (X * cs) = y := ⟨_, rfl⟩
  rw [hy] at g3 ⊢
  have htd : τ ≤ d / 2 ^ 100 := htw.trans (div_le_div_of_nonneg_right hwd (by positivity))
  have g3' : |y - X * w| ≤ d / 2 ^ 49 := by
    have e1 : |X * cs - X * w| ≤ d / 2 ^ 50 := by
      rw [← mul_sub, abs_mul, abs_of_nonneg hX0]
      have := mul_le_mul_of_nonneg_left g2' hX0
      refine this.trans ?_
      rw [show X * (w / 2 ^ 50) = X * w / 2 ^ 50 by ring]
      exact div_le_div_of_nonneg_right hXw (by positivity)
    refine (abs_sub_le y (X * cs) _).trans ((add_le_add g3 e1).trans ?_)
    norm_num at *; linarith
  clear g3 hy emul
  have g3'' := abs_le.1 g3'
  have hya : |y + a| ≤ 4 * S := by
    refine (abs_add_le _ _).trans ?_
    have : |y| ≤ 2 * d := by
      rw [abs_le]
      have e1 := g3''.1
      have e2 := g3''.2
      norm_num at e1 e2
      constructor <;> linarith
    linarith
  have eadd : Fl.add (.fin y) (.fin a) = .fin (rnd (y + a)) := by
    show ofRat (y + a) = _
    apply ofRat_fin
    refine big_le (k := 203) ?_ (by norm_num)
    have : (2 : ℚ) ^ 203 = 4 * 2 ^ 201 := by norm_num
    linarith
  rw [eadd]
  have g4 := rnd_near hya
  rw [hτ] at g4
  obtain ⟨z, hz⟩ : ∃ z, rnd (y + a) = z := ⟨_, rfl⟩
  rw [hz] at g4 ⊢
  have htS : τ ≤ S / 2 ^ 100 := htd.trans (div_le_div_of_nonneg_right hSd (by positivity))
  have hS0 : 0 < S := by linarith
  have g4' : |z - (X * w + a)| ≤ S / 2 ^ 48 := by
    have e1 : |y + a - (X * w + a)| ≤ d / 2 ^ 49 := by rw [add_sub_add_right_eq_sub]; exact g3'
    refine (abs_sub_le z (y + a) _).trans ((add_le_add g4 e1).trans ?_)
    norm_num at *; linarith
  clear g4 hz eadd
  have g4'' := abs_le.1 g4'
  -- the distance from it
  obtain ⟨q, hq⟩ : ∃ q, p - a - X * w = q := ⟨_, rfl⟩
  have hq1 : |q| ≤ d := by rw [abs_le, ← hq]; constructor <;> linarith
  have hpz : |p - z| ≤ 2 * S := by
    have e : p - z = q - (z - (X * w + a)) := by rw [← hq]; ring
    rw [e]
    refine (abs_sub _ _).trans ?_
    norm_num at g4'; linarith
  have hz1000 : |z| ≤ 2 ^ 1000 := by
    refine le_trans (b := 2 ^ 204) ?_ (pow_le_pow_right₀ (by norm_num) (by norm_num))
    have e : z = p - (p - z) := by ring
    rw [e]
    refine (abs_sub _ _).trans ?_
    have : (2 : ℚ) ^ 204 = 8 * 2 ^ 201 := by norm_num
    have : (2 : ℚ) ^ 201 = 2 * 2 ^ 200 := by norm_num
    linarith
  rw [sub_fin hz1000 (to1000 hp), hq]
  have g5 := rnd_near hpz
  rw [hτ] at g5
  obtain ⟨t, htt⟩ : ∃ t, rnd (p - z) = t := ⟨_, rfl⟩
  rw [htt] at g5 ⊢
  have g5' : |t - q| ≤ S / 2 ^ 47 := by
    have e1 : |p - z - q| ≤ S / 2 ^ 48 := by
      rw [show p - z - q = -(z - (X * w + a)) by rw [← hq]; ring, abs_neg]; exact g4'
    refine (abs_sub_le t (p - z) q).trans ((add_le_add g5 e1).trans ?_)
    norm_num at *; linarith
  clear g5 htt g4' g4'' hpz hz1000
  -- as a part of the cell
  have hqc : |t - q * (cs / w)| ≤ 2 * S / 2 ^ 47 := by
    have e : t - q * (cs / w) = (t - q) - q * ((cs - w) / w) := by field_simp; ring
    rw [e]
    refine (abs_sub _ _).trans ?_
    have e1 : |q * ((cs - w) / w)| ≤ d * (1 / 2 ^ 50) := by
      rw [abs_mul]
      refine mul_le_mul hq1 ?_ (abs_nonneg _) hd.le
      rw [abs_div, abs_of_pos hw0, div_le_iff₀ hw0]
      refine g2'.trans (le_of_eq (by ring))
    refine (add_le_add g5' e1).trans ?_
    norm_num at *; linarith
  have hquot : |t / cs - q / w| ≤ S / w / 2 ^ 45 := by
    have e : t / cs - q / w = (t - q * (cs / w)) / cs := by field_simp
    rw [e, abs_div, abs_of_pos hcsp, div_le_iff₀ hcsp]
    refine hqc.trans ?_
    have e1 : S / w / 2 ^ 45 * (w / 2) ≤ S / w / 2 ^ 45 * cs := mul_le_mul_of_nonneg_left hcs0 (by positivity)
    refine le_trans (le_of_eq ?_) e1
    field_simp
  have hSw : 1 ≤ S / w := by rw [le_div_iff₀ hw0]; linarith
  have hqw : |q / w| ≤ S / w := by
    rw [abs_div, abs_of_pos hw0]
    exact div_le_div_of_nonneg_right (hq1.trans hSd) hw0.le
  have htc : |t / cs| ≤ 2 * (S / w) := by
    have e : t / cs = q / w + (t / cs - q / w) := by ring
    rw [e]
    refine (abs_add_le _ _).trans ((add_le_add hqw hquot).trans ?_)
    generalize S / w = K at *
    norm_num at *; linarith
  have hSw2 : S / w ≤ 2 ^ 500 := by
    rw [div_le_iff₀ hw0]
    refine hS2.trans ?_
    have e1 : 1 / 2 ^ 200 ≤ 2 ^ 31 * w := hr.trans (by rw [← hNw]; exact mul_le_mul_of_nonneg_right hN2 hw0.le)
    have e2 : (2 : ℚ) ^ 500 * w = 2 ^ 469 * (2 ^ 31 * w) := by rw [← mul_assoc, ← pow_add]
    rw [e2]
    refine le_trans ?_ (mul_le_mul_of_nonneg_left e1 (by positivity))
    rw [mul_one_div, le_div_iff₀ (by positivity), ← pow_add]
    exact pow_le_pow_right₀ (by norm_num) (by norm_num)
  refine ⟨rnd (t / cs), ?_, ?_⟩
  · simp only [Fl.div, if_neg hcsp.ne']
    apply ofRat_fin
    refine big_le (k := 501) ?_ (by norm_num)
    refine htc.trans ?_
    rw [pow_succ _ 500]; linarith
  · have g6 := rnd_near htc
    rw [hτ] at g6
    have htK : τ ≤ S / w / 2 ^ 100 := by
      rw [← hτ]
      refine le_trans (one_div_le_one_div_of_le (by positivity) (pow_le_pow_right₀ (by norm_num) (by norm_num : 100 ≤ 1075))) ?_
      exact div_le_div_of_nonneg_right hSw (by positivity)
    refine (abs_sub_le (rnd (t / cs)) (t / cs) (q / w)).trans ((add_le_add g6 hquot).trans ?_)
    clear hquot g6 htc hqw hSw2
    generalize S / w = K at *
    norm_num at htK ⊢; linarith

end LibLAS.Index
