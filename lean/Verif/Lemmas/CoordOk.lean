import Verif.Props.Coord
/-
A coordinate that could be stored was in range.
-/
namespace LibLAS
open Fl

private theorem abs_of_rnd {y B : ℚ} (h : |rnd y| ≤ B) (hB : B ≤ 2 ^ 40) : |y| ≤ B + 1 / 4 := by
  have e := rnd_err_unit y
  have h1 : |y| ≤ |rnd y| + |rnd y - y| := by
    have := abs_sub_abs_le_abs_sub y (rnd y)
    rw [abs_sub_comm y] at this
    linarith
  norm_num at e hB
  have h2 : 0 ≤ |y| := abs_nonneg y
  linarith

private theorem ofRat_inv {y q : ℚ} (h : ofRat y = fin q) : q = rnd y := by
  unfold ofRat at h
  simp only at h
  split at h
  · cases h
  · split at h
    · cases h
    · cases h; rfl

private theorem sround_inv {r a : Fl} {n : ℚ} (h : Point.sround r = a) (ha : a = fin n) (hb : |n| ≤ 2 ^ 31) :
    ∃ q, r = fin q ∧ |q| ≤ 2 ^ 31 + 2 := by
  subst ha
  cases r with
  | nan => simp [Point.sround, Fl.lt, Fl.sub, Fl.add, Fl.ceil] at h
  | inf s => cases s <;> simp [Point.sround, Fl.lt, Fl.sub, Fl.neg, Fl.add, Fl.ceil, Fl.floor] at h
  | fin q =>
    refine ⟨q, rfl, ?_⟩
    rw [abs_le] at hb
    unfold Point.sround at h
    by_cases hq : (0 : ℚ) < q
    · rw [if_pos (by simp [Fl.lt, hq])] at h
      simp only [Fl.add] at h
      cases e : ofRat (q + 1 / 2) with
      | nan => rw [e] at h; simp [Fl.floor] at h
      | inf s => rw [e] at h; simp [Fl.floor] at h
      | fin z =>
        rw [e] at h
        simp only [Fl.floor, Fl.fin.injEq] at h
        have hz := ofRat_inv e
        have h1 := Int.lt_floor_add_one z
        have h0 := Int.floor_le z
        rw [h] at h1 h0
        have hz0 : 0 ≤ z := by rw [hz]; exact rnd_nonneg (by linarith)
        have := abs_of_rnd (y := q + 1 / 2) (B := 2 ^ 31 + 1) (by rw [← hz, abs_of_nonneg hz0]; linarith [hb.2]) (by norm_num)
        rw [abs_of_pos (by linarith)] at this
        rw [abs_of_pos hq]
        linarith
    · rw [if_neg (by simp [Fl.lt]; linarith)] at h
      simp only [Fl.sub, Fl.neg, Fl.add] at h
      cases e : ofRat (q + -(1 / 2)) with
      | nan => rw [e] at h; simp [Fl.ceil] at h
      | inf s => rw [e] at h; simp [Fl.ceil] at h
      | fin z =>
        rw [e] at h
        simp only [Fl.ceil, Fl.fin.injEq] at h
        have hz := ofRat_inv e
        have h1 := Int.ceil_lt_add_one z
        have h0 := Int.le_ceil z
        rw [h] at h1 h0
        have hz0 : z ≤ 0 := by
          rw [hz]
          have := rnd_le_rnd (x := q + -(1 / 2)) (y := 0) (by linarith)
          rwa [rnd_zero] at this
        have := abs_of_rnd (y := q + -(1 / 2)) (B := 2 ^ 31 + 1) (by rw [← hz, abs_of_nonpos hz0]; linarith [hb.1]) (by norm_num)
        rw [abs_of_neg (by linarith)] at this
        rw [abs_of_nonpos (by linarith)]
        linarith

private theorem sround_int {r : Fl} {n : ℚ} (h : Point.sround r = fin n) : ∃ k : ℤ, n = k := by
  unfold Point.sround at h
  split at h
  · cases e : Fl.add r (fin (1 / 2)) with
    | fin z => rw [e] at h; simp only [Fl.floor, Fl.fin.injEq] at h; exact ⟨_, h.symm⟩
    | nan => rw [e] at h; simp [Fl.floor] at h
    | inf s => rw [e] at h; simp [Fl.floor] at h
  · cases e : Fl.sub r (fin (1 / 2)) with
    | fin z => rw [e] at h; simp only [Fl.ceil, Fl.fin.injEq] at h; exact ⟨_, h.symm⟩
    | nan => rw [e] at h; simp [Fl.ceil] at h
    | inf s => rw [e] at h; simp [Fl.ceil] at h

/-- Whenever the conversion to a stored integer is defined at all, the integer is the nearest one. -/
theorem descaled_ok {x s o : Fl} {v : BitVec 32} (hg : GoodAxis s o) (h : Point.descaled x s o = .ok v) : Nearest v x s o := by
  obtain ⟨sq, oq, rfl, rfl, hs, hs2, -⟩ := hg
  have hs0 : 0 < |sq| := lt_of_lt_of_le (by positivity) hs
  have hsne : sq ≠ 0 := by intro h; simp [h] at hs0
  unfold Point.descaled at h
  cases ea : Point.sround (Fl.div (Fl.sub x (fin oq)) (fin sq)) with
  | nan => rw [ea] at h; simp [toInt32] at h
  | inf z => rw [ea] at h; simp [toInt32] at h
  | fin n =>
    obtain ⟨k, rfl⟩ := sround_int ea
    rw [ea] at h
    have hk : -2147483648 ≤ k ∧ k ≤ 2147483647 := by
      unfold toInt32 at h
      simp only [Int.floor_intCast, Int.ceil_intCast, ite_self] at h
      split at h
      · assumption
      · cases h
    have hkq : |(k : ℚ)| ≤ 2 ^ 31 := by
      rw [abs_le]
      constructor
      · have : ((-2147483648 : ℤ) : ℚ) ≤ k := by exact_mod_cast hk.1
        push_cast at this; norm_num; linarith
      · have : (k : ℚ) ≤ ((2147483647 : ℤ) : ℚ) := by exact_mod_cast hk.2
        push_cast at this; norm_num; linarith
    obtain ⟨q, hq, hqb⟩ := sround_inv ea rfl hkq
    cases x with
    | nan => simp [Fl.sub, Fl.neg, Fl.add, Fl.div] at hq
    | inf z => simp [Fl.sub, Fl.neg, Fl.add, Fl.div, hsne] at hq
    | fin xq =>
      have e1 : Fl.sub (fin xq) (fin oq) = ofRat (xq - oq) := by simp [Fl.sub, Fl.neg, Fl.add, sub_eq_add_neg]
      rw [e1] at hq
      cases e2 : ofRat (xq - oq) with
      | nan => rw [e2] at hq; simp [Fl.div] at hq
      | inf z => rw [e2] at hq; simp [Fl.div, hsne] at hq
      | fin y =>
        rw [e2] at hq
        simp only [Fl.div, hsne, if_false] at hq
        have hy := ofRat_inv e2
        have hqr := ofRat_inv hq
        have b1 : |y / sq| ≤ 2 ^ 31 + 3 := by
          have := abs_of_rnd (y := y / sq) (B := 2 ^ 31 + 2) (by rw [← hqr]; exact hqb) (by norm_num)
          linarith
        have b2 : |(xq - oq) / sq| ≤ 2 ^ 32 := by
          have e := rnd_err_div (y := xq - oq) hs
          rw [← hy] at e
          have h1 : |(xq - oq) / sq| ≤ |y / sq| + |y / sq - (xq - oq) / sq| := by
            have := abs_sub_abs_le_abs_sub ((xq - oq) / sq) (y / sq)
            rw [abs_sub_comm ((xq - oq) / sq)] at this
            linarith
          have h2 : 0 ≤ |(xq - oq) / sq| := abs_nonneg _
          norm_num at e b1 ⊢
          linarith
        obtain ⟨n, hn1, hn2, -⟩ := descaled_spec hs hs2 b2
        rw [hn1] at ea
        have hnk : n = k := by
          have := Fl.fin.inj ea
          exact_mod_cast this
        subst hnk
        have hv : v.toInt = n := by
          rw [toInt32_int hk.1 hk.2] at h
          cases h
          rw [BitVec.toInt_ofInt, Int.bmod_eq_of_le] <;> omega
        refine ⟨xq, sq, oq, rfl, rfl, rfl, ?_⟩
        rw [hv]
        have : (n : ℚ) * sq + oq - xq = sq * ((n : ℚ) - (xq - oq) / sq) := by field_simp; ring
        rw [this, abs_mul]
        exact mul_le_mul_of_nonneg_left hn2 (abs_nonneg _)

namespace Point

/-- C05, without a condition on the value: whenever storing a coordinate has a defined result, the integer stored is the
nearest one, and no other attribute changes; header and length of the record stay. -/
theorem coordinate_stored_nearest (b : Build) (p : Point) (hwf : p.WF) (hg : GoodScaling p.hdr) (x : Fl) (q : Point) :
    (setX b p x = .ok q → ∃ a v, observe b p = .ok a ∧ observe b q = .ok { a with rawX := v } ∧
      Nearest v x p.hdr.scale.x p.hdr.offset.x ∧ q.WF ∧ q.hdr = p.hdr ∧ q.data.length = p.data.length) ∧
    (setY b p x = .ok q → ∃ a v, observe b p = .ok a ∧ observe b q = .ok { a with rawY := v } ∧
      Nearest v x p.hdr.scale.y p.hdr.offset.y ∧ q.WF ∧ q.hdr = p.hdr ∧ q.data.length = p.data.length) ∧
    (setZ b p x = .ok q → ∃ a v, observe b p = .ok a ∧ observe b q = .ok { a with rawZ := v } ∧
      Nearest v x p.hdr.scale.z p.hdr.offset.z ∧ q.WF ∧ q.hdr = p.hdr ∧ q.data.length = p.data.length) := by
  obtain ⟨gx, gy, gz⟩ := hg
  refine ⟨fun h => ?_, fun h => ?_, fun h => ?_⟩
  · unfold setX at h
    cases e : descaled x p.hdr.scale.x p.hdr.offset.x with
    | ub => rw [e] at h; cases h
    | throw z => rw [e] at h; cases h
    | ok v =>
      rw [e] at h
      obtain ⟨p', a, h1, h2, h3, h4, h5, h6, -⟩ := set_then_get b p (.rawX v) hwf rfl
      have : q = p' := by have := h.symm.trans h1; cases this; rfl
      subst this
      exact ⟨a, v, h2, h3, descaled_ok gx e, h4, h5, h6⟩
  · unfold setY at h
    cases e : descaled x p.hdr.scale.y p.hdr.offset.y with
    | ub => rw [e] at h; cases h
    | throw z => rw [e] at h; cases h
    | ok v =>
      rw [e] at h
      obtain ⟨p', a, h1, h2, h3, h4, h5, h6, -⟩ := set_then_get b p (.rawY v) hwf rfl
      have : q = p' := by have := h.symm.trans h1; cases this; rfl
      subst this
      exact ⟨a, v, h2, h3, descaled_ok gy e, h4, h5, h6⟩
  · unfold setZ at h
    cases e : descaled x p.hdr.scale.z p.hdr.offset.z with
    | ub => rw [e] at h; cases h
    | throw z => rw [e] at h; cases h
    | ok v =>
      rw [e] at h
      obtain ⟨p', a, h1, h2, h3, h4, h5, h6, -⟩ := set_then_get b p (.rawZ v) hwf rfl
      have : q = p' := by have := h.symm.trans h1; cases this; rfl
      subst this
      exact ⟨a, v, h2, h3, descaled_ok gz e, h4, h5, h6⟩

end Point
end LibLAS
