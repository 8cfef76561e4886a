import Verif.Spec.MinOffset
import Verif.Props.Rehome
import Verif.Lemmas.Repair
/-
The offset `--min-offset` chooses suits all points.
-/
namespace LibLAS
open Spec Point Fl

theorem span_axis {xs : List Fl} {s m o x : Fl} (hs : Spannable xs s) (hm : isLowest xs m) (ho : Agree15 o m) (hx : x ∈ xs) :
    GoodAxis s o ∧ InRange x s o := by
  obtain ⟨u, rfl, h1, h2, h3⟩ := hs
  obtain ⟨q, rfl, hq, hy⟩ := h3 m hm.1
  obtain ⟨t, rfl, ht⟩ := hy x hx
  obtain ⟨q', r, e, rfl, hr⟩ := ho
  cases e
  have hu : 0 < u := lt_of_lt_of_le (by positivity) h1
  have he : (1 : ℚ) / 2 ^ 1075 ≤ u / 2 ^ 75 := by
    rw [show (2 : ℚ) ^ 1075 = 2 ^ 1000 * 2 ^ 75 from by rw [← pow_add], ← div_div]
    exact div_le_div_of_nonneg_right h1 (by positivity)
  have herr : |r - q| ≤ u * (3 / 4) := by
    refine hr.trans ?_
    generalize (1 : ℚ) / 2 ^ 1075 = e at he
    have : |q| / 10 ^ 15 ≤ 2 ^ 49 * u / 10 ^ 15 := div_le_div_of_nonneg_right hq (by positivity)
    norm_num at this he ⊢
    linarith
  refine ⟨⟨u, r, rfl, rfl, by rw [abs_of_pos hu]; exact h1, by rw [abs_of_pos hu]; exact h2, ?_⟩, t, u, r, rfl, rfl, rfl, ?_⟩
  · rw [abs_of_pos hu]
    have : |r| ≤ |r - q| + |q| := by have := abs_add_le (r - q) q; simpa using this
    norm_num at hq ⊢
    linarith
  · rw [abs_div, abs_of_pos hu, div_le_iff₀ hu]
    have : |t - r| ≤ |q - t| + |r - q| := by
      have := abs_add_le (t - q) (q - r)
      rw [abs_sub_comm t q, abs_sub_comm q r] at this
      simpa using this
    norm_num at ht ⊢
    linarith

theorem close_of_compare {x y : Fl} (h : compareDistance x y = true) (hx : ∃ p, x = .fin p) (hy : ∃ q, y = .fin q) :
    Close x y := by
  obtain ⟨p, rfl⟩ := hx
  obtain ⟨q, rfl⟩ := hy
  refine ⟨p, q, rfl, rfl, ?_⟩
  unfold compareDistance Point.within at h
  have hd : Fl.sub (.fin p) (.fin q) = ofRat (p - q) := by simp [Fl.sub, Fl.add, Fl.neg, sub_eq_add_neg]
  rw [hd] at h
  have he := rnd_err_unit (p - q)
  unfold ofRat at h
  dsimp only at h
  split at h
  · simp [Fl.le] at h
  · split at h
    · simp [Fl.le, Fl.neg] at h
    · simp only [Fl.le, Fl.neg, Bool.and_eq_true, decide_eq_true_eq] at h
      have hr : |rnd (p - q)| ≤ 1 / 2 ^ 52 := abs_le.2 ⟨h.2, h.1⟩
      have : |p - q| ≤ |rnd (p - q) - (p - q)| + |rnd (p - q)| := by
        have := abs_add_le ((p - q) - rnd (p - q)) (rnd (p - q))
        rw [abs_sub_comm (p - q)] at this
        simpa using this
      generalize |p - q| = d at *
      norm_num at *
      linarith

theorem shows_of_nearest {v : BitVec 32} {x s o : Fl} (h : Nearest v x s o) {u : ℚ} (hs : s = .fin u) (hu : 0 < u) :
    ShowsNearest v x s o := by
  obtain ⟨q, u', p, rfl, h1, rfl, h2⟩ := h
  rw [hs] at h1; cases h1
  rw [abs_of_pos hu] at h2
  exact ⟨q, u, p, rfl, hs, rfl, h2⟩

end LibLAS
