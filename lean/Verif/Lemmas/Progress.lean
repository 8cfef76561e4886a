import Verif.Model.Progress
import Verif.Spec.Progress
import Verif.Lemmas.FloatOrder
/-
Lemmas for Props/Progress.
-/
namespace LibLAS.Progress
open Spec Fl

theorem fill_marks : ∀ l ≤ 41, ∀ k ≤ 41 - l, fill ((l : Nat) - 1 : Int) k = marksBetween l (l + k) := by decide +kernel

theorem marks_append {a b c : Nat} (h1 : a ≤ b) (h2 : b ≤ c) : marksBetween a b ++ marksBetween b c = marksBetween a c := by
  unfold marksBetween
  rw [← List.flatMap_append]
  congr 1
  have e : meterMarks.drop b = (meterMarks.drop a).drop (b - a) := by rw [List.drop_drop]; congr 1; omega
  rw [e, show c - a = (b - a) + (c - b) by omega, List.take_add]

theorem marks_self (a : Nat) : marksBetween a a = [] := by simp [marksBetween]

/-- What is written between the states `l` and `m`. -/
def written (l m : Int) : List Char :=
  marksBetween (l + 1).toNat (m + 1).toNat ++ (if m = 40 ∧ l < 40 then finish else [])

theorem written_self (l : Int) : written l l = [] := by
  unfold written
  rw [marks_self, if_neg (by omega)]
  rfl

theorem written_append {l m k : Int} (h0 : -1 ≤ l) (h1 : l ≤ m) (h2 : m ≤ k) (h3 : k ≤ 40) :
    written l m ++ written m k = written l k := by
  unfold written
  by_cases hm : m = 40
  · obtain rfl : k = m := by omega
    subst hm
    simp [marks_self]
  · rw [if_neg (show ¬ (m = 40 ∧ l < 40) by omega), List.append_nil, ← List.append_assoc,
      marks_append (by omega) (by omega)]
    congr 1
    by_cases hk : k = 40
    · rw [if_pos (by omega), if_pos (by omega)]
    · rw [if_neg (by omega), if_neg (by omega)]

theorem progress_step {last t : Int} {c : Fl} (ht : tickOf c = .ok t) (h0 : -1 ≤ last) (h1 : last ≤ 40) (h2 : 0 ≤ t) (h3 : t ≤ 40)
    (hl : last ≤ 38 ∨ last ≤ t) : progress last c = .ok (max last t, written last (max last t)) := by
  have hn : ¬ (t < last ∧ 39 ≤ last) := by omega
  simp only [progress, ht, Outcome.bind_ok, hn, if_false]
  by_cases hc : t ≤ last
  · rw [if_pos hc, max_eq_left hc, written_self]; rfl
  · rw [if_neg hc, max_eq_right (by omega)]
    have hf := fill_marks (last + 1).toNat (by omega) (t - last).toNat (by omega)
    have e1 : (((last + 1).toNat : Nat) : Int) - 1 = last := by omega
    have e2 : (last + 1).toNat + (t - last).toNat = (t + 1).toNat := by omega
    rw [e1, e2] at hf
    rw [hf]
    unfold written
    by_cases h40 : t = 40
    · rw [if_pos h40, if_pos (by omega)]; rfl
    · rw [if_neg h40, if_neg (by omega)]; rfl

/-- The largest of a state and the ticks after it. -/
def top (last : Int) : List Int → Int
  | [] => last
  | t :: ts => top (max last t) ts

theorem top_ge (l : Int) (ts : List Int) : l ≤ top l ts := by
  induction ts generalizing l with
  | nil => exact le_refl _
  | cons t ts ih => exact le_trans (le_max_left _ _) (ih _)

theorem top_le {l : Int} {ts : List Int} (hl : l ≤ 40) (h : ∀ t ∈ ts, 0 ≤ t ∧ t ≤ 40) : top l ts ≤ 40 := by
  induction ts generalizing l with
  | nil => exact hl
  | cons t ts ih => exact ih (by have := h t (by simp); omega) (fun x hx => h x (by simp [hx]))

theorem run_step : ∀ (cs : List Fl) (ts : List Int) (last : Int), cs.map tickOf = ts.map .ok → -1 ≤ last → last ≤ 40 →
    (∀ t ∈ ts, 0 ≤ t ∧ t ≤ 40) → ts.Pairwise (· ≤ ·) → (last ≤ 38 ∨ ∀ t ∈ ts, last ≤ t) →
    run last cs = .ok (top last ts, written last (top last ts)) := by
  intro cs
  induction cs with
  | nil =>
    intro ts last h
    obtain rfl : ts = [] := by cases ts <;> simp at h; rfl
    intros
    simp only [run, top, written_self]
  | cons c cs ih =>
    intro ts last h h0 h1 h2 h3 h4
    cases ts with
    | nil => simp at h
    | cons t ts =>
      simp only [List.map_cons, List.cons.injEq] at h
      have ht := h2 t (by simp)
      have hp := List.pairwise_cons.1 h3
      have hm : -1 ≤ max last t ∧ max last t ≤ 40 := by omega
      have hrest := ih ts (max last t) h.2 hm.1 hm.2 (fun x hx => h2 x (by simp [hx])) hp.2 (by
        by_cases h38 : max last t ≤ 38
        · exact .inl h38
        · right
          intro x hx
          have hx1 := hp.1 x hx
          rcases h4 with h4 | h4
          · omega
          · have := h4 x (by simp [hx]); omega)
      have hg := top_ge (max last t) ts
      have hl := top_le hm.2 (fun x hx => h2 x (by simp [hx]) : ∀ x ∈ ts, 0 ≤ x ∧ x ≤ 40)
      have hst := progress_step h.1 h0 h1 ht.1 ht.2 (by
        rcases h4 with h4 | h4
        · exact .inl h4
        · exact .inr (h4 t (by simp)))
      simp only [run, hst, Outcome.bind_ok, hrest, Outcome.pure_eq, top]
      rw [written_append h0 (by omega) hg hl]

/-- The tick of a rational part. -/
def tickQ (x : ℚ) : Int := min 40 (max 0 ⌊rnd (rnd x * 40)⌋)

theorem tiny : (1 : ℚ) / 2 ^ 1075 ≤ 1 / 2 ^ 60 :=
  one_div_le_one_div_of_le (by positivity) (pow_le_pow_right₀ (by norm_num) (by norm_num))

theorem big {x : ℚ} (h : x ≤ 2 ^ 7) : x ≤ 2 ^ 1023 := h.trans (pow_le_pow_right₀ (by norm_num) (by norm_num))

theorem rnd_two {x : ℚ} (h0 : 0 ≤ x) (h : x ≤ 2) : 0 ≤ rnd x ∧ rnd x ≤ 3 := by
  refine ⟨rnd_nonneg h0, ?_⟩
  have := rnd_err x
  rw [abs_le, abs_of_nonneg h0] at this
  have h2 : x / 2 ^ 53 ≤ 1 / 2 := by
    rw [div_le_iff₀ (by positivity)]; norm_num; linarith
  have h3 : (1 : ℚ) / 2 ^ 1075 ≤ 1 / 2 := tiny.trans (by norm_num)
  linarith [this.2]

theorem mul_bound {x : ℚ} (h0 : 0 ≤ x) (h : x ≤ 2) : 0 ≤ rnd (rnd x * 40) ∧ rnd (rnd x * 40) ≤ 130 := by
  obtain ⟨g0, g1⟩ := rnd_two h0 h
  refine ⟨rnd_nonneg (by positivity), ?_⟩
  have hp : (0 : ℚ) ≤ rnd x * 40 := by positivity
  have := rnd_err (rnd x * 40)
  rw [abs_le, abs_of_nonneg hp] at this
  have h2 : rnd x * 40 / 2 ^ 53 ≤ 1 := by
    rw [div_le_iff₀ (by positivity)]; norm_num; linarith
  have h3 : (1 : ℚ) / 2 ^ 1075 ≤ 1 / 2 := tiny.trans (by norm_num)
  linarith [this.2]

theorem tickOf_ratio {a b : ℚ} (hb : 0 < b) (ha : 0 ≤ a) (h : a ≤ 2 * b) :
    tickOf (Fl.div (.fin a) (.fin b)) = .ok (tickQ (a / b)) := by
  have hx0 : 0 ≤ a / b := by positivity
  have hx2 : a / b ≤ 2 := by rw [div_le_iff₀ hb]; exact h
  obtain ⟨g0, g1⟩ := rnd_two hx0 hx2
  obtain ⟨m0, m1⟩ := mul_bound hx0 hx2
  have e1 : Fl.div (.fin a) (.fin b) = .fin (rnd (a / b)) := by
    simp only [Fl.div, hb.ne', if_false]
    apply ofRat_fin
    rw [abs_of_nonneg hx0]
    exact big (hx2.trans (by norm_num))
  have e2 : Fl.mul (.fin (rnd (a / b))) (.fin 40) = .fin (rnd (rnd (a / b) * 40)) := by
    simp only [Fl.mul]
    apply ofRat_fin
    rw [abs_of_nonneg (by positivity)]
    exact big ((by linarith : rnd (a / b) * 40 ≤ 3 * 40).trans (by norm_num))
  have f0 : (0 : Int) ≤ ⌊rnd (rnd (a / b) * 40)⌋ := Int.floor_nonneg.2 m0
  have f1 : ⌊rnd (rnd (a / b) * 40)⌋ ≤ 130 := by
    have : (⌊rnd (rnd (a / b) * 40)⌋ : ℚ) ≤ 130 := (Int.floor_le _).trans m1
    exact_mod_cast this
  have e3 : Fl.toInt32 (.fin (rnd (rnd (a / b) * 40))) = .ok (BitVec.ofInt 32 ⌊rnd (rnd (a / b) * 40)⌋) := by
    simp only [Fl.toInt32, if_pos m0]
    rw [if_pos (by constructor <;> omega)]
  simp only [tickOf, e1, e2, e3, Outcome.bind_ok, Outcome.pure_eq, tickQ]
  have : (BitVec.ofInt 32 ⌊rnd (rnd (a / b) * 40)⌋).toInt = ⌊rnd (rnd (a / b) * 40)⌋ := by
    rw [BitVec.toInt_ofInt]
    exact Int.bmod_eq_of_le (by omega) (by omega)
  rw [this]

theorem tickQ_mono {x y : ℚ} (h0 : 0 ≤ x) (h : x ≤ y) : tickQ x ≤ tickQ y := by
  have h1 := rnd_mono h0 h
  have h2 : rnd x * 40 ≤ rnd y * 40 := by linarith
  have h3 := rnd_mono (by have := rnd_nonneg h0; positivity) h2
  have h4 := Int.floor_le_floor h3
  unfold tickQ
  omega

theorem tickQ_range (x : ℚ) : 0 ≤ tickQ x ∧ tickQ x ≤ 40 := by unfold tickQ; omega

theorem rnd_forty : rnd 40 = 40 := by decide +kernel

theorem tickQ_one : tickQ 1 = 40 := by
  unfold tickQ
  rw [rnd_one, one_mul, rnd_forty]
  have : ⌊(40 : ℚ)⌋ = 40 := by norm_num
  rw [this]; rfl

theorem tickQ_ge_one {x : ℚ} (h : 1 ≤ x) : tickQ x = 40 := by
  have := tickQ_mono (by norm_num) h
  rw [tickQ_one] at this
  have := (tickQ_range x).2
  omega

/-- Not done before the end. -/
theorem tickQ_lt {x : ℚ} (h0 : 0 ≤ x) (h : x ≤ 1 - 1 / 2 ^ 32) : tickQ x < 40 := by
  have he := rnd_err x
  rw [abs_le, abs_of_nonneg h0] at he
  have h2 : x / 2 ^ 53 ≤ 1 / 2 ^ 53 := by
    apply div_le_div_of_nonneg_right _ (by positivity)
    have : (0 : ℚ) < 1 / 2 ^ 32 := by positivity
    linarith
  have h3 : (1 : ℚ) / 2 ^ 1075 ≤ 1 / 2 ^ 53 := by
    apply one_div_le_one_div_of_le (by positivity)
    exact pow_le_pow_right₀ (by norm_num) (by norm_num)
  have h4 : rnd x ≤ 1 - 1 / 2 ^ 53 := by
    have : (1 : ℚ) / 2 ^ 32 ≥ 3 * (1 / 2 ^ 53) := by norm_num
    linarith [he.2]
  have h5 := rnd_mul_lt (n := 40) (rnd_nonneg h0) h4 (by norm_num)
  have h6 : ⌊rnd (rnd x * 40)⌋ < 40 := by
    rw [Int.floor_lt]
    exact_mod_cast h5
  unfold tickQ
  omega

/-- The tick is the part completed, in fortieths. -/
theorem tickQ_near {x : ℚ} (h0 : 0 ≤ x) (h1 : x ≤ 1) :
    (tickQ x : ℚ) ≤ 40 * x + 1 / 10 ^ 6 ∧ 40 * x < tickQ x + 1 + 1 / 10 ^ 6 := by
  have he := rnd_err x
  rw [abs_le, abs_of_nonneg h0] at he
  have g0 := rnd_nonneg h0
  have g1 := (rnd_two h0 (by linarith)).2
  have hp : (0 : ℚ) ≤ rnd x * 40 := by positivity
  have he2 := rnd_err (rnd x * 40)
  rw [abs_le, abs_of_nonneg hp] at he2
  have s1 : x / 2 ^ 53 ≤ 1 / 10 ^ 9 := by rw [div_le_iff₀ (by positivity)]; norm_num; linarith
  have s2 : rnd x * 40 / 2 ^ 53 ≤ 1 / 10 ^ 9 := by rw [div_le_iff₀ (by positivity)]; norm_num; linarith
  have s3 : (1 : ℚ) / 2 ^ 1075 ≤ 1 / 10 ^ 9 := tiny.trans (by norm_num)
  generalize (1 : ℚ) / 2 ^ 1075 = eps at *
  have n0 : 0 ≤ ⌊rnd (rnd x * 40)⌋ := Int.floor_nonneg.2 (rnd_nonneg hp)
  have f1 := Int.floor_le (rnd (rnd x * 40))
  have f2 := Int.lt_floor_add_one (rnd (rnd x * 40))
  have top : tickQ x = min 40 ⌊rnd (rnd x * 40)⌋ := by unfold tickQ; omega
  generalize ⌊rnd (rnd x * 40)⌋ = n at *
  constructor
  · have : (tickQ x : ℚ) ≤ n := by rw [top]; exact_mod_cast min_le_right _ _
    norm_num at s1 s2 s3 ⊢
    linarith [he.2, he2.2]
  · rcases le_total n 40 with hn | hn
    · rw [top, min_eq_right hn]
      norm_num at s1 s2 s3 ⊢
      linarith [he.1, he2.1]
    · rw [top, min_eq_left hn]
      norm_num
      linarith

/-- The calls of a loop, as ticks. -/
theorem calls_ticks {k n d : Nat} (hn : 0 < n) (hk : k + d ≤ 2 * n) (h32 : k + d < 2 ^ 32) (hn32 : n < 2 ^ 32) :
    ((List.range k).map fun i => part (BitVec.ofNat 32 (i + d)) (BitVec.ofNat 32 n)).map tickOf =
      ((List.range k).map fun i => tickQ (((i + d + 1 : Nat) : ℚ) / n)).map .ok := by
  rw [List.map_map, List.map_map]
  refine List.map_congr_left fun i hi => ?_
  have hi : i < k := by simpa using hi
  have e1 : (BitVec.ofNat 32 (i + d) + 1).toNat = i + d + 1 := by
    simp only [BitVec.toNat_add, BitVec.toNat_ofNat, show (1 : BitVec 32).toNat = 1 from rfl]; omega
  have e2 : (BitVec.ofNat 32 n).toNat = n := by simp only [BitVec.toNat_ofNat]; omega
  simp only [Function.comp, part, e1, e2]
  refine tickOf_ratio (by exact_mod_cast hn) (by positivity) ?_
  have : i + d + 1 ≤ 2 * n := by omega
  exact_mod_cast this

theorem ticks_sorted {k n d : Nat} :
    ((List.range k).map fun i => tickQ (((i + d + 1 : Nat) : ℚ) / n)).Pairwise (· ≤ ·) := by
  rw [List.pairwise_map]
  refine List.Pairwise.imp ?_ List.pairwise_lt_range
  intro i j hij
  refine tickQ_mono (by positivity) ?_
  apply div_le_div_of_nonneg_right _ (by positivity)
  exact_mod_cast (by omega : i + d + 1 ≤ j + d + 1)

theorem top_snoc (l : Int) (ts : List Int) (t : Int) : top l (ts ++ [t]) = max (top l ts) t := by
  induction ts generalizing l with
  | nil => rfl
  | cons x ts ih => exact ih _

theorem top_sorted {l : Int} {ts : List Int} {t : Int} (h : ∀ x ∈ ts, x ≤ t) : top l (ts ++ [t]) = max l t := by
  rw [top_snoc]
  induction ts generalizing l with
  | nil => rfl
  | cons x ts ih =>
    show max (top (max l x) ts) t = _
    rw [ih (fun y hy => h y (by simp [hy]))]
    have := h x (by simp)
    omega

theorem top_ticks {k n d : Nat} (hk : 0 < k) (l : Int) :
    top l ((List.range k).map fun i => tickQ (((i + d + 1 : Nat) : ℚ) / n)) = max l (tickQ (((k + d : Nat) : ℚ) / n)) := by
  obtain ⟨k, rfl⟩ : ∃ j, k = j + 1 := ⟨k - 1, by omega⟩
  rw [List.range_succ, List.map_append]
  rw [show ([k].map fun i => tickQ (((i + d + 1 : Nat) : ℚ) / n)) = [tickQ (((k + 1 + d : Nat) : ℚ) / n)] by
    simp only [List.map_cons, List.map_nil]; rw [show k + d + 1 = k + 1 + d by omega]]
  apply top_sorted
  intro x hx
  obtain ⟨i, hi, rfl⟩ := List.mem_map.1 hx
  have hi : i < k := by simpa using hi
  refine tickQ_mono (by positivity) ?_
  apply div_le_div_of_nonneg_right _ (by positivity)
  exact_mod_cast (by omega : i + d + 1 ≤ k + 1 + d)

/-- A loop of calls from any state that is not in the way. -/
theorem run_calls {k n d : Nat} {last : Int} (hk : 0 < k) (hn : 0 < n) (hkd : k + d ≤ 2 * n) (h32 : k + d < 2 ^ 32)
    (hn32 : n < 2 ^ 32) (h0 : -1 ≤ last) (h1 : last ≤ 38) :
    run last ((List.range k).map fun i => part (BitVec.ofNat 32 (i + d)) (BitVec.ofNat 32 n)) =
      .ok (max last (tickQ (((k + d : Nat) : ℚ) / n)), written last (max last (tickQ (((k + d : Nat) : ℚ) / n)))) := by
  rw [run_step _ _ last (calls_ticks hn hkd h32 hn32) h0 (by omega) ?_ ticks_sorted (.inl h1), top_ticks hk]
  intro t ht
  obtain ⟨i, -, rfl⟩ := List.mem_map.1 ht
  exact tickQ_range _

end LibLAS.Progress
