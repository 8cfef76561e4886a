import Verif.Lemmas.IndexGrid
import Verif.Lemmas.FloatDecode
import Verif.Spec.IndexGrid
import Verif.Spec.Index
import Verif.Props.Reading
/-
C84: the grid of a new index.
-/
namespace LibLAS.Index
open Fl Spec

/-- `chooseCells` for extents that are not empty. -/
theorem cells_for {rx ry : Fl} {n : Nat} (hn : n < 2 ^ 32) (hx : Fl.lt (.fin 0) rx = true) (hy : Fl.lt (.fin 0) ry = true) :
    ∃ cx cy, chooseCells rx ry n = .ok (cx, cy) ∧ 1 ≤ cx ∧ 1 ≤ cy ∧ cx * cy ≤ 250000 ∧ cx ≤ wantedCells n ∧ cy ≤ wantedCells n ∧
      (wantedCells n ≤ 500 → ∀ a b, rx = .fin a → ry = .fin b → Square a b (wantedCells n) cx cy) := by
  have hl : wantedCells n = longSide n := rfl
  rw [hl]
  have t1 := longSide_le hn
  have t2 : 10 ≤ longSide n := le_max_left _ _
  obtain ⟨p, ep, p0, p1, p2, p3⟩ := ratio_eq hx hy
  obtain ⟨q, eq, q0, q1, q2, q3⟩ := ratio_eq hy hx
  obtain ⟨cx, ex, x1, x2, x3, x4, x5⟩ := axisCells_eq p0 p1 t1 (by omega)
  obtain ⟨cy, ey, y1, y2, y3, y4, y5⟩ := axisCells_eq q0 q1 t1 (by omega)
  obtain ⟨a, b, er, a1, b1, a2, b2, ab, same⟩ := reduceCells_eq x1 y1 (x2.trans t1) (y2.trans t1)
  refine ⟨a, b, ?_, a1, b1, ab, a2.trans x2, b2.trans y2, ?_⟩
  · unfold chooseCells
    rw [longCells_eq hn]
    show (axisCells (ratio rx ry) (longSide n)).bind _ = _
    rw [ep, ex]
    show (axisCells (ratio ry rx) (longSide n)).bind _ = _
    rw [eq, ey]
    exact er
  · intro hs u v hu hv
    have : cx * cy ≤ 500 * 500 := Nat.mul_le_mul (x2.trans hs) (y2.trans hs)
    obtain ⟨rfl, rfl⟩ := same (by omega)
    have tq : ((longSide n : Nat) : ℚ) ≤ 500 := by exact_mod_cast hs
    have tq0 : (0 : ℚ) ≤ (longSide n : Nat) := by positivity
    generalize longSide n = t at *
    have err : ∀ p w : ℚ, |p - w| ≤ 1 / 2 ^ 52 → p * t ≤ t * w + 1 / 2 ^ 30 ∧ t * w ≤ p * t + 1 / 2 ^ 30 := by
      intro p w h
      rw [abs_le] at h
      norm_num at h ⊢
      constructor <;> nlinarith [h.1, h.2]
    refine ⟨?_, ?_, ?_, ?_⟩
    · intro h
      exact x3 (p2 (by rw [hu, hv]; exact decide_eq_true h))
    · intro h
      exact y3 (q2 (by rw [hu, hv]; exact decide_eq_true h))
    · intro h
      obtain ⟨e1, e2⟩ := err _ _ (p3 u v hu hv h)
      constructor
      · refine x4.trans (max_le_max (le_refl _) ?_)
        norm_num at e1 ⊢; linarith
      · norm_num at e2 x5 ⊢; linarith
    · intro h
      obtain ⟨e1, e2⟩ := err _ _ (q3 v u hv hu h)
      constructor
      · refine y4.trans (max_le_max (le_refl _) ?_)
        norm_num at e1 ⊢; linarith
      · norm_num at e2 y5 ⊢; linarith

theorem small_height {s : ℚ} (hr : Rep s) : Point.compareDistance (.fin s) (.fin 0) = decide (|s| ≤ 1 / 2 ^ 52) := by
  have e : Fl.sub (.fin s) (.fin 0) = .fin s := by
    show ofRat (s + -0) = _
    rw [neg_zero, add_zero]
    obtain ⟨k, e, h1, h2, h3, h4⟩ := hr
    have hs : rnd s = s := rnd_rep ⟨k, e, h1, h2, h3, h4⟩
    unfold ofRat
    simp only
    rw [hs]
    rw [abs_lt] at h4
    rw [if_neg (not_le.2 h4.2), if_neg (not_le.2 h4.1)]
  unfold Point.compareDistance
  rw [e]
  show (decide (s ≤ 1 / 2 ^ 52) && decide (-(1 / 2 ^ 52) ≤ s)) = _
  rw [← Bool.decide_and]
  congr 1
  rw [abs_le, and_comm]

theorem chooseZ_eq {s : ℚ} {range : Fl} (hr : Rep s) (hz : 1 / 2 ^ 52 < s → ∃ c, range = .fin c ∧ 0 ≤ c ∧ c / s ≤ 2 ^ 31) :
    ∃ cz, chooseZ (.fin s) range = .ok cz ∧ cz ≤ 2 ^ 31 + 2 ∧ ZParts (.fin s) range cz := by
  unfold chooseZ
  by_cases hs : 1 / 2 ^ 52 < s
  · have hs0 : 0 < s := lt_trans (by norm_num) hs
    have h1 : Fl.lt (.fin 0) (.fin s) = true := decide_eq_true hs0
    have h2 : Point.compareDistance (.fin s) (.fin 0) = false := by
      rw [small_height hr, abs_of_pos hs0]
      exact decide_eq_false (not_le.2 hs)
    rw [h1, h2]
    obtain ⟨c, rfl, c0, c1⟩ := hz hs
    have hd : Fl.div (.fin c) (.fin s) = .fin (rnd (c / s)) := by
      show (if s = 0 then Fl.nan else ofRat (c / s)) = _
      rw [if_neg hs0.ne']
      exact ofRat_small (by positivity) (c1.trans (by norm_num))
    have he := rnd_err (c / s)
    have ht' := tiny
    rw [abs_of_nonneg (a := c / s) (by positivity), abs_le] at he
    generalize (1 : ℚ) / 2 ^ 1075 = e at he ht'
    have hsm : c / s / 2 ^ 53 + e ≤ 1 / 2 ^ 20 := by
      have : c / s / 2 ^ 53 ≤ 2 ^ 31 / 2 ^ 53 := by gcongr
      norm_num at this ht' ⊢
      linarith
    have n0 : 0 ≤ rnd (c / s) := rnd_nonneg (by positivity)
    have k0 : 0 ≤ ⌈rnd (c / s)⌉ := Int.ceil_nonneg n0
    obtain ⟨N, hN⟩ := Int.eq_ofNat_of_zero_le k0
    have l1 : rnd (c / s) ≤ N := by
      have := Int.le_ceil (rnd (c / s)); rw [hN] at this; exact_mod_cast this
    have l2 : (N : ℚ) < rnd (c / s) + 1 := by
      have := Int.ceil_lt_add_one (rnd (c / s)); rw [hN] at this; exact_mod_cast this
    have hup : rnd (c / s) ≤ c / s + 1 / 2 ^ 20 := by linarith [he.2]
    have hb : (N : ℚ) < 2 ^ 31 + 2 := by
      rw [show ((2 : ℚ) ^ 31 + 2) = 2147483650 by norm_num]
      norm_num at hup c1; linarith
    have hb' : N < 2 ^ 31 + 2 := by exact_mod_cast hb
    refine ⟨N, ?_, hb'.le, Or.inr ⟨c, s, rfl, rfl, hs, ?_, ?_⟩⟩
    · rw [hd]
      show toUInt32 (.fin ((⌈rnd (c / s)⌉ : ℤ) : ℚ)) = _
      rw [hN]
      have hc : (((N : ℤ) : ℚ)) = (N : ℚ) := by push_cast; rfl
      rw [hc, toUInt32_floor (by positivity) (by norm_num at hb ⊢; linarith)]
      simp
    · linarith [he.2]
    · linarith [he.1]
  · have hc : (Fl.lt (.fin 0) (.fin s) && !Point.compareDistance (.fin s) (.fin 0)) = false := by
      rw [small_height hr]
      by_cases h0 : 0 < s
      · rw [abs_of_pos h0, decide_eq_true (not_lt.1 hs)]
        simp
      · have : Fl.lt (.fin 0) (.fin s) = false := decide_eq_false h0
        rw [this]; rfl
    rw [hc]
    exact ⟨1, rfl, by norm_num, Or.inl ⟨decide_eq_true (not_lt.1 hs), rfl⟩⟩

theorem headerMin (h : Header) (i : Nat) : (headerBounds h).getMin i =
    (if i = 0 then ofBits h.min.x else if i = 1 then ofBits h.min.y else if i = 2 then ofBits h.min.z else .fin 0) := by
  match i with
  | 0 => rfl
  | 1 => rfl
  | 2 => rfl
  | n + 3 => rfl

theorem headerMax (h : Header) (i : Nat) : (headerBounds h).getMax i =
    (if i = 0 then ofBits h.max.x else if i = 1 then ofBits h.max.y else if i = 2 then ofBits h.max.z else .fin 0) := by
  match i with
  | 0 => rfl
  | 1 => rfl
  | 2 => rfl
  | n + 3 => rfl

theorem sub_bits_pos {lo hi : BitVec 64} {a b : ℚ} (ha : ofBits lo = .fin a) (hb : ofBits hi = .fin b) (h : a < b) :
    Fl.lt (.fin 0) (Fl.sub (ofBits hi) (ofBits lo)) = true := by
  rw [ha, hb]
  exact sub_pos_of_lt (ofBits_rep ha) (ofBits_rep hb) h

/-- C84 when there is an area. -/
theorem index_grid {s : Setup} {h : Header} {x0 x1 y0 y1 z0 z1 σ : ℚ} (hx0 : ofBits h.min.x = .fin x0) (hx1 : ofBits h.max.x = .fin x1)
    (hy0 : ofBits h.min.y = .fin y0) (hy1 : ofBits h.max.y = .fin y1) (hz0 : ofBits h.min.z = .fin z0) (hz1 : ofBits h.max.z = .fin z1)
    (hx : x0 < x1) (hy : y0 < y1) (hz : z0 ≤ z1) (hσ : s.cellSizeZ = .fin σ) (hr : Rep σ)
    (hzs : 1 / 2 ^ 52 < σ → ∃ c, Fl.sub (.fin z1) (.fin z0) = .fin c ∧ 0 ≤ c ∧ c / σ ≤ 2 ^ 31) :
    ∃ g, chooseGrid s h = .ok (some g) ∧ g.min = ⟨.fin x0, .fin y0, .fin z0⟩ ∧ g.max = ⟨.fin x1, .fin y1, .fin z1⟩ ∧ g.temp = s.temp ∧
      1 ≤ g.cellsX ∧ 1 ≤ g.cellsY ∧ g.cellsX * g.cellsY ≤ 250000 ∧ ZParts s.cellSizeZ (Fl.sub (.fin z1) (.fin z0)) g.cellsZ ∧ g.cellsZ ≤ 2 ^ 31 + 2 ∧
      g.cellsX ≤ wantedCells h.pointCount.toNat ∧ g.cellsY ≤ wantedCells h.pointCount.toNat ∧
      (h.pointCount.toNat ≤ 25000000 → ∀ a b, Fl.sub (.fin x1) (.fin x0) = .fin a → Fl.sub (.fin y1) (.fin y0) = .fin b →
        Square a b (wantedCells h.pointCount.toNat) g.cellsX g.cellsY) := by
  obtain ⟨cz, ez, z2, z3⟩ := chooseZ_eq hr hzs
  have px := sub_bits_pos hx0 hx1 hx
  have py := sub_bits_pos hy0 hy1 hy
  obtain ⟨cx, cy, ec, c1, c2, c3, c4, c5, c6⟩ := cells_for (n := h.pointCount.toNat) h.pointCount.isLt px py
  have hbad : (headerBounds h).ranges.any badRange = false := by
    have e : ∀ (a b : BitVec 64) (u v : ℚ), ofBits a = .fin u → ofBits b = .fin v → u ≤ v → badRange ⟨ofBits a, ofBits b⟩ = false := by
      intro a b u v ha hb huv
      unfold badRange
      rw [ha, hb]
      have : Fl.lt (.fin v) (.fin u) = false := decide_eq_false (not_lt.2 huv)
      rw [this]; rfl
    show (badRange _ || (badRange _ || (badRange _ || false))) = false
    rw [e _ _ _ _ hx0 hx1 hx.le, e _ _ _ _ hy0 hy1 hy.le, e _ _ _ _ hz0 hz1 hz]
    rfl
  rw [← hσ, ← hz0, ← hz1] at ez
  refine ⟨⟨⟨.fin x0, .fin y0, .fin z0⟩, ⟨.fin x1, .fin y1, .fin z1⟩, cx, cy, cz, s.cellSizeZ, s.memory / s.cellBytes, s.temp⟩,
    ?_, rfl, rfl, rfl, c1, c2, c3, by rw [hσ]; exact z3, z2, c4, c5, ?_⟩
  · unfold chooseGrid
    simp only
    rw [hbad]
    rw [if_neg (by simp)]
    simp only [headerMin, headerMax, if_true, one_ne_zero, if_false, OfNat.ofNat_ne_zero, OfNat.ofNat_ne_one]
    rw [ez]
    show (if _ then _ else _) = _
    have nx : Fl.le (ofBits h.max.x) (ofBits h.min.x) = false := by rw [hx0, hx1]; exact decide_eq_false (not_le.2 hx)
    have ny : Fl.le (ofBits h.max.y) (ofBits h.min.y) = false := by rw [hy0, hy1]; exact decide_eq_false (not_le.2 hy)
    rw [nx, ny, if_neg (by simp), ec]
    rw [hx0, hx1, hy0, hy1, hz0, hz1]
    rfl
  · intro hn a b ha hb
    refine c6 ?_ a b (by rw [hx0, hx1]; exact ha) (by rw [hy0, hy1]; exact hb)
    unfold wantedCells
    have : Nat.sqrt (h.pointCount.toNat / 100) ≤ 500 := by
      have := Nat.sqrt_le_sqrt (show h.pointCount.toNat / 100 ≤ 500 * 500 by omega)
      rwa [Nat.sqrt_eq] at this
    omega

theorem exists_grid {w : Outcome (Option Grid)} {x y z : Nat}
    (h : (match w with
      | .ok (some g) => g.cellsX == x && g.cellsY == y && g.cellsZ == z
      | _ => false) = true) : ∃ g, w = .ok (some g) ∧ g.cellsX = x ∧ g.cellsY = y ∧ g.cellsZ = z := by
  match w, h with
  | .ok (some g), h =>
    simp only [Bool.and_eq_true, beq_iff_eq] at h
    exact ⟨g, rfl, h.1.1, h.1.2, h.2⟩

/-- A file of `n` points on an area of 40 by 30, 10 high. -/
def areaHeader (n : Nat) : Header :=
  { sampleHeader with min := ⟨0#64, 0#64, 0#64⟩, max := ⟨toBits (.fin 40), toBits (.fin 30), toBits (.fin 10)⟩, pointCount := BitVec.ofNat 32 n }

def areaSetup (z : Fl) : Setup := ⟨false, false, false, true, [], [], [], z, 0, 100⟩

/-- The theorem at work: 500 by 375 cells for a full plate of points, one cell in z; and fewer when there are more points. -/
example : ofBits (areaHeader 25000000).min.x = .fin 0 ∧ ofBits (areaHeader 25000000).max.x = .fin 40 ∧ ofBits (areaHeader 25000000).max.y = .fin 30 ∧
    (∃ g, chooseGrid (areaSetup (.fin 0)) (areaHeader 25000000) = .ok (some g) ∧ g.cellsX = 500 ∧ g.cellsY = 375 ∧ g.cellsZ = 1) ∧
    (∃ g, chooseGrid (areaSetup (.fin 3)) (areaHeader 4000000000) = .ok (some g) ∧ g.cellsX = 577 ∧ g.cellsY = 433 ∧ g.cellsZ = 4) ∧
    ∃ g, chooseGrid (areaSetup (.fin 3)) (areaHeader 7) = .ok (some g) ∧ g.cellsX = 10 ∧ g.cellsY = 7 ∧ g.cellsZ = 4 := by
  refine ⟨by decide +kernel, by decide +kernel, by decide +kernel, ?_, ?_, ?_⟩
  all_goals
    exact exists_grid (by decide +kernel)

/-- C84 when there is no area: no index is built. -/
theorem index_grid_empty {s : Setup} {h : Header} {x0 x1 y0 y1 z0 z1 σ : ℚ} (hx0 : ofBits h.min.x = .fin x0) (hx1 : ofBits h.max.x = .fin x1)
    (hy0 : ofBits h.min.y = .fin y0) (hy1 : ofBits h.max.y = .fin y1) (hz0 : ofBits h.min.z = .fin z0) (hz1 : ofBits h.max.z = .fin z1)
    (hxy : x1 ≤ x0 ∨ y1 ≤ y0) (hσ : s.cellSizeZ = .fin σ) (hr : Rep σ)
    (hzs : 1 / 2 ^ 52 < σ → ∃ c, Fl.sub (.fin z1) (.fin z0) = .fin c ∧ 0 ≤ c ∧ c / σ ≤ 2 ^ 31) : chooseGrid s h = .ok none := by
  obtain ⟨cz, ez, -, -⟩ := chooseZ_eq hr hzs
  rw [← hσ, ← hz0, ← hz1] at ez
  unfold chooseGrid
  simp only
  split
  · rfl
  simp only [headerMin, headerMax, if_true, one_ne_zero, if_false, OfNat.ofNat_ne_zero, OfNat.ofNat_ne_one]
  rw [ez]
  show (if _ then _ else _) = _
  have : (Fl.le (ofBits h.max.x) (ofBits h.min.x) || Fl.le (ofBits h.max.y) (ofBits h.min.y)) = true := by
    rw [hx0, hx1, hy0, hy1, Bool.or_eq_true]
    rcases hxy with k | k
    · left; exact decide_eq_true k
    · right; exact decide_eq_true k
  rw [if_pos this]

/-- C84: no grid for the bounds of a header that were never set on some axis (the largest double as the minimum or its
negative as the maximum, and a maximum below the minimum). -/
theorem unset_bounds_refused (s : Setup) (h : Header) {lo hi : BitVec 64} {u v : ℚ}
    (hax : (lo, hi) ∈ [(h.min.x, h.max.x), (h.min.y, h.max.y), (h.min.z, h.max.z)]) (hlo : ofBits lo = .fin u) (hhi : ofBits hi = .fin v)
    (hlt : v < u) (hun : u = (2 - 1 / 2 ^ 52) * 2 ^ 1023 ∨ v = -((2 - 1 / 2 ^ 52) * 2 ^ 1023)) : chooseGrid s h = .ok none := by
  have same : ∀ q : ℚ, Point.compareDistance (.fin q) (.fin q) = true := by
    intro q
    have e : Fl.sub (.fin q) (.fin q) = .fin 0 := by
      show Fl.ofRat (q + -q) = _
      rw [add_neg_cancel]
      decide +kernel
    unfold Point.compareDistance
    rw [e]
    decide +kernel
  have hb : badRange ⟨ofBits lo, ofBits hi⟩ = true := by
    unfold badRange Range.dblMax
    rw [hlo, hhi]
    have h1 : Fl.lt (.fin v) (.fin u) = true := decide_eq_true hlt
    rw [Bool.and_eq_true, Bool.or_eq_true]
    refine ⟨h1, ?_⟩
    rcases hun with e | e
    · left; rw [e]; exact same _
    · right; rw [e]; exact same _
  have hany : (headerBounds h).ranges.any badRange = true := by
    show (badRange _ || (badRange _ || (badRange _ || false))) = true
    simp only [List.mem_cons, Prod.mk.injEq, List.not_mem_nil, or_false] at hax
    rcases hax with ⟨rfl, rfl⟩ | ⟨rfl, rfl⟩ | ⟨rfl, rfl⟩ <;> simp [hb]
  unfold chooseGrid
  simp only
  rw [hany, if_pos rfl]

/-- A header whose z bounds were never set. -/
example : chooseGrid (areaSetup (.fin 1)) { areaHeader 7 with
    min := { (areaHeader 7).min with z := 0x7FEFFFFFFFFFFFFF#64 }, max := { (areaHeader 7).max with z := 0xFFEFFFFFFFFFFFFF#64 } } = .ok none :=
  unset_bounds_refused _ _ (lo := 0x7FEFFFFFFFFFFFFF#64) (hi := 0xFFEFFFFFFFFFFFFF#64) (u := (2 - 1 / 2 ^ 52) * 2 ^ 1023)
    (v := -((2 - 1 / 2 ^ 52) * 2 ^ 1023)) (by simp) (by decide +kernel) (by decide +kernel) (by norm_num) (Or.inl rfl)

/-- C84, what is not guarded against: a cell height so small that the number of z cells does not fit 32 bits is undefined behaviour (src/index.cpp:1055
converts the quotient without looking at it). -/
theorem index_grid_height_undefined {s : Setup} {h : Header} {x0 x1 y0 y1 z0 z1 σ c : ℚ} (hx0 : ofBits h.min.x = .fin x0) (hx1 : ofBits h.max.x = .fin x1)
    (hy0 : ofBits h.min.y = .fin y0) (hy1 : ofBits h.max.y = .fin y1) (hz0 : ofBits h.min.z = .fin z0) (hz1 : ofBits h.max.z = .fin z1)
    (hx : x0 ≤ x1) (hy : y0 ≤ y1) (hz : z0 ≤ z1) (hσ : s.cellSizeZ = .fin σ) (hr : Rep σ) (hs : 1 / 2 ^ 52 < σ)
    (hc : Fl.sub (.fin z1) (.fin z0) = .fin c) (hbig : 2 ^ 33 ≤ c / σ) : chooseGrid s h = .ub := by
  have hs0 : 0 < σ := lt_trans (by norm_num) hs
  have hbad : (headerBounds h).ranges.any badRange = false := by
    have e : ∀ (a b : BitVec 64) (u v : ℚ), ofBits a = .fin u → ofBits b = .fin v → u ≤ v → badRange ⟨ofBits a, ofBits b⟩ = false := by
      intro a b u v ha hb huv
      unfold badRange
      rw [ha, hb]
      have : Fl.lt (.fin v) (.fin u) = false := decide_eq_false (not_lt.2 huv)
      rw [this]; rfl
    show (badRange _ || (badRange _ || (badRange _ || false))) = false
    rw [e _ _ _ _ hx0 hx1 hx, e _ _ _ _ hy0 hy1 hy, e _ _ _ _ hz0 hz1 hz]
    rfl
  have ez : chooseZ (.fin σ) (.fin c) = .ub := by
    unfold chooseZ
    have h1 : Fl.lt (.fin 0) (.fin σ) = true := decide_eq_true hs0
    have h2 : Point.compareDistance (.fin σ) (.fin 0) = false := by
      rw [small_height hr, abs_of_pos hs0]
      exact decide_eq_false (not_le.2 hs)
    rw [h1, h2]
    show toUInt32 (Fl.ceil (if σ = 0 then Fl.nan else ofRat (c / σ))) = _
    rw [if_neg hs0.ne']
    have hb : (2 : ℚ) ^ 33 ≤ rnd (c / σ) := by
      have := rnd_le_rnd hbig
      have e : rnd ((2 : ℚ) ^ 33) = 2 ^ 33 := by
        have := rnd_nat (n := 2 ^ 33) (by norm_num)
        push_cast at this
        exact this
      rwa [e] at this
    rcases (ofRat_cases (lt_of_lt_of_le (by norm_num) hb)) with k | k <;> rw [k]
    · show (if _ then _ else _) = _
      have k2 : (2 : ℤ) ^ 33 ≤ ⌈rnd (c / σ)⌉ := by
        have := hb.trans (Int.le_ceil (rnd (c / σ)))
        exact_mod_cast this
      generalize ⌈rnd (c / σ)⌉ = n at k2
      have n0 : (0 : ℚ) ≤ n := by
        have : (0 : ℤ) ≤ n := by omega
        exact_mod_cast this
      rw [if_pos n0, Int.floor_intCast, if_neg (by omega)]
    · rfl
  rw [← hσ, ← hc, ← hz0, ← hz1] at ez
  unfold chooseGrid
  simp only
  rw [hbad, if_neg (by simp)]
  simp only [headerMin, headerMax, if_true, one_ne_zero, if_false, OfNat.ofNat_ne_zero, OfNat.ofNat_ne_one]
  rw [ez]
  rfl

/-- Cells 1/2^40 high in a file 10 high. -/
example : chooseGrid (areaSetup (.fin (1 / 2 ^ 40))) (areaHeader 7) = .ub :=
  index_grid_height_undefined (x0 := 0) (x1 := 40) (y0 := 0) (y1 := 30) (z0 := 0) (z1 := 10) (c := 10) (σ := 1 / 2 ^ 40) (by decide +kernel) (by decide +kernel)
    (by decide +kernel) (by decide +kernel) (by decide +kernel) (by decide +kernel) (by norm_num) (by norm_num) (by norm_num) rfl
    (by have := rep_of_mant (k := 1) (e := -40) (by norm_num) (by omega) (by omega); rw [zpow_neg] at this; norm_num at this ⊢; exact this)
    (by norm_num) (by decide +kernel) (by norm_num)

end LibLAS.Index
