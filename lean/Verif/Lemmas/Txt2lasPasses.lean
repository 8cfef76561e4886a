import Verif.Lemmas.FloatHalf
import Verif.Lemmas.Txt2las
import Verif.Lemmas.CoordOk
import Verif.Lemmas.FloatText
import Verif.Lemmas.IndexAxis
import Verif.Spec.Kernel
import Mathlib.Data.List.TakeWhile
/-
Lemmas for C77: the two passes of txt2las over the lines.
-/
namespace LibLAS
open Spec Spec.Text Point

namespace Txt2las

/-! ## The letters of the first pass -/

/-- A letter of the first pass. -/
def lessOf (c : Char) : Char := if c = 'x' ∨ c = 'y' ∨ c = 'z' ∨ c = 'r' then c else 's'

theorem parseLess_ok {ps : List Char} (hx : 'x' ∈ ps) :
    ∃ n, parseLess ps = .ok ((ps.map lessOf).take n) ∧ ∀ c ∈ (ps.map lessOf).drop n, c = 's' := by
  generalize hl : ps.map lessOf = l
  have hxl : 'x' ∈ l := by rw [← hl, List.mem_map]; exact ⟨'x', hx, by decide⟩
  have e := List.takeWhile_append_dropWhile (p := (· == 's')) (l := l.reverse)
  have e2 : l = (l.reverse.dropWhile (· == 's')).reverse ++ (l.reverse.takeWhile (· == 's')).reverse := by
    rw [← List.reverse_append, e, List.reverse_reverse]
  have htw : ∀ c ∈ (l.reverse.takeWhile (· == 's')).reverse, c = 's' := by
    intro c hc
    rw [List.mem_reverse] at hc
    simpa using List.mem_takeWhile_imp hc
  obtain ⟨u, hu⟩ : ∃ u, (l.reverse.dropWhile (· == 's')).reverse = u := ⟨_, rfl⟩
  obtain ⟨w, hw⟩ : ∃ w, (l.reverse.takeWhile (· == 's')).reverse = w := ⟨_, rfl⟩
  rw [hu, hw] at e2
  rw [hw] at htw
  refine ⟨u.length, ?_, ?_⟩
  · have hne : u ≠ [] := by
      intro h0
      rw [h0, List.nil_append] at e2
      rw [e2] at hxl
      exact absurd (htw 'x' hxl) (by decide)
    unfold parseLess
    rw [show (ps.map fun c => if c = 'x' ∨ c = 'y' ∨ c = 'z' ∨ c = 'r' then c else 's') = l from hl]
    dsimp only
    rw [hu, if_neg hne, e2]
    simp
  · intro c hc
    rw [e2, List.drop_left' rfl] at hc
    exact htw c hc

theorem fits_less {scale offset : Vec3 Fl} {ps : List Char} {fields : List (List Char)}
    (h : List.Forall₂ (Fits scale offset) ps fields) : List.Forall₂ (Fits scale offset) (ps.map lessOf) fields := by
  induction h with
  | nil => exact .nil
  | @cons c t _ _ hc _ ih =>
    refine .cons ?_ ih
    unfold lessOf
    split
    · exact hc
    · obtain ⟨a, ha, -⟩ := hc
      exact ⟨a, ha, trivial⟩

theorem less_nodup {ps : List Char} (h : (ps.filter (· ≠ 's')).Nodup) (n : Nat) :
    (((ps.map lessOf).take n).filter (· ≠ 's')).Nodup := by
  have h1 : ((ps.map lessOf).filter (· ≠ 's')).Sublist (ps.filter (· ≠ 's')) := by
    clear h
    induction ps with
    | nil => exact .slnil
    | cons c ps ih =>
      rw [List.map_cons]
      by_cases hc : c = 'x' ∨ c = 'y' ∨ c = 'z' ∨ c = 'r'
      · have e : lessOf c = c := by unfold lessOf; rw [if_pos hc]
        have hs : c ≠ 's' := by rcases hc with rfl | rfl | rfl | rfl <;> decide
        rw [e, List.filter_cons_of_pos (by simpa using hs), List.filter_cons_of_pos (by simpa using hs)]
        exact ih.cons₂ _
      · have e : lessOf c = 's' := by unfold lessOf; rw [if_neg hc]
        rw [e, List.filter_cons_of_neg (by simp)]
        exact ih.trans ((List.sublist_cons_self c ps).filter _)
  exact (((List.take_sublist n _).filter _).trans h1).nodup h

theorem of_less {P : Char → List Char → Prop} : ∀ {ps : List Char} {fields : List (List Char)} {n : Nat}, ps.length = fields.length →
    List.Forall₂ P ((ps.map lessOf).take n) (fields.take n) → (∀ c ∈ (ps.map lessOf).drop n, c = 's') →
    List.Forall₂ (fun c t => c ∈ ['x', 'y', 'z', 'r'] → P c t) ps fields
  | [], [], _, _, _, _ => .nil
  | c :: ps, t :: fields, 0, hl, _, hs => by
    have hc : lessOf c = 's' := hs _ (by simp)
    refine .cons ?_ (of_less (n := 0) (by simpa using hl) .nil (fun c hc => hs c (by simp at hc ⊢; tauto)))
    intro hm
    simp only [List.mem_cons, List.not_mem_nil, or_false] at hm
    rcases hm with rfl | rfl | rfl | rfl <;> exact absurd hc (by decide)
  | c :: ps, t :: fields, n + 1, hl, hp, hs => by
    rw [List.map_cons, List.take_succ_cons, List.take_succ_cons] at hp
    cases hp with
    | cons h1 h2 =>
      refine .cons ?_ (of_less (n := n) (by simpa using hl) h2 (by simpa using hs))
      intro hm
      simp only [List.mem_cons, List.not_mem_nil, or_false] at hm
      have : lessOf c = c := by unfold lessOf; rw [if_pos hm]
      rwa [this] at h1
  | [], _ :: _, _, hl, _, _ => by simp at hl
  | _ :: _, [], _, hl, _, _ => by simp at hl

theorem mem_less {ps : List Char} {n : Nat} (hs : ∀ c ∈ (ps.map lessOf).drop n, c = 's') {c : Char} (hc : c ∈ ['x', 'y', 'z', 'r']) :
    c ∈ (ps.map lessOf).take n ↔ c ∈ ps := by
  have e : lessOf c = c := by
    simp only [List.mem_cons, List.not_mem_nil, or_false] at hc
    unfold lessOf; rw [if_pos hc]
  have hns : c ≠ 's' := by rintro rfl; exact absurd hc (by decide)
  constructor
  · intro h
    obtain ⟨d, hd, e2⟩ := List.mem_map.mp (List.mem_of_mem_take h)
    unfold lessOf at e2
    split at e2
    · rwa [← e2]
    · exact absurd e2.symm hns
  · intro h
    have hm : c ∈ ps.map lessOf := List.mem_map.mpr ⟨c, h, e⟩
    rw [← List.take_append_drop n (ps.map lessOf), List.mem_append] at hm
    rcases hm with hm | hm
    · exact hm
    · exact absurd (hs c hm) hns

/-! ## Finite numbers, and the rounding of the bounds -/

theorem descaled_fin {v s o : Fl} {r : BitVec 32} (h : descaled v s o = .ok r) : ∃ q, v = .fin q := by
  cases v with
  | fin q => exact ⟨q, rfl⟩
  | nan => cases o <;> cases s <;> simp [descaled, Fl.sub, Fl.neg, Fl.add, Fl.div, sround, Fl.lt, Fl.ceil, Fl.toInt32] at h
  | inf n =>
    exfalso
    revert h
    have key : ∀ D : Fl, (D = .nan ∨ ∃ m, D = .inf m) → Fl.toInt32 (sround D) ≠ .ok r := by
      rintro D (rfl | ⟨m, rfl⟩)
      · simp [sround, Fl.lt, Fl.sub, Fl.add, Fl.ceil, Fl.toInt32]
      · cases m <;> simp [sround, Fl.lt, Fl.sub, Fl.neg, Fl.add, Fl.ceil, Fl.floor, Fl.toInt32]
    apply key
    have h1 : Fl.sub (.inf n) o = .nan ∨ ∃ m, Fl.sub (.inf n) o = .inf m := by
      cases o with
      | nan => left; rfl
      | fin q => right; exact ⟨n, rfl⟩
      | inf m =>
        simp only [Fl.sub, Fl.neg, Fl.add]
        split
        · exact .inr ⟨_, rfl⟩
        · exact .inl rfl
    rcases h1 with h1 | ⟨m, h1⟩ <;> rw [h1]
    · left; cases s <;> rfl
    · cases s with
      | nan => left; rfl
      | inf k => left; rfl
      | fin q =>
        simp only [Fl.div]
        split
        · exact .inl rfl
        · exact .inr ⟨_, rfl⟩

theorem ofRat_inv {y q : ℚ} (h : Fl.ofRat y = .fin q) : q = Fl.rnd y := by
  unfold Fl.ofRat at h
  simp only at h
  split at h
  · cases h
  · split at h
    · cases h
    · cases h; rfl

theorem toInt32_whole {n : ℤ} {r : BitVec 32} (h : Fl.toInt32 (.fin n) = .ok r) : r.toInt = n := by
  unfold Fl.toInt32 at h
  dsimp only at h
  have e : (if (0 : ℚ) ≤ n then ⌊(n : ℚ)⌋ else ⌈(n : ℚ)⌉) = n := by split <;> simp
  rw [e] at h
  split at h
  · rename_i hr
    cases h
    rw [BitVec.toInt_ofInt, Int.bmod_eq_of_le (by omega) (by omega)]
  · cases h

/-- How a number of units is rounded. -/
theorem sround_cases {D : Fl} {r : BitVec 32} (h : Fl.toInt32 (sround D) = .ok r) :
    ∃ d : ℚ, D = .fin d ∧ ((0 < d ∧ Fl.ofRat (d + 1 / 2) = .fin (Fl.rnd (d + 1 / 2)) ∧ r.toInt = ⌊Fl.rnd (d + 1 / 2)⌋) ∨
      (d ≤ 0 ∧ r.toInt = ⌈Fl.rnd (d - 1 / 2)⌉)) := by
  cases D with
  | nan => simp [sround, Fl.lt, Fl.sub, Fl.add, Fl.ceil, Fl.toInt32] at h
  | inf m => cases m <;> simp [sround, Fl.lt, Fl.sub, Fl.neg, Fl.add, Fl.ceil, Fl.floor, Fl.toInt32] at h
  | fin d =>
    refine ⟨d, rfl, ?_⟩
    unfold sround at h
    by_cases hd : 0 < d
    · left
      rw [if_pos (by simp [Fl.lt, hd])] at h
      simp only [Fl.add] at h
      cases e : Fl.ofRat (d + 1 / 2) with
      | nan => rw [e] at h; simp [Fl.floor, Fl.toInt32] at h
      | inf s => rw [e] at h; simp [Fl.floor, Fl.toInt32] at h
      | fin z =>
        have hz := ofRat_inv e
        subst hz
        rw [e] at h
        exact ⟨hd, rfl, toInt32_whole h⟩
    · right
      rw [if_neg (by simp [Fl.lt]; linarith)] at h
      simp only [Fl.sub, Fl.neg, Fl.add] at h
      cases e : Fl.ofRat (d + -(1 / 2)) with
      | nan => rw [e] at h; simp [Fl.ceil, Fl.toInt32] at h
      | inf s => rw [e] at h; simp [Fl.ceil, Fl.toInt32] at h
      | fin z =>
        have hz := ofRat_inv e
        subst hz
        rw [e] at h
        exact ⟨not_lt.mp hd, by rw [sub_eq_add_neg]; exact toInt32_whole h⟩

theorem rnd_half : Fl.rnd (1 / 2) = 1 / 2 := by decide +kernel

theorem ofInt_range {n : ℤ} {r : BitVec 32} (h : r.toInt = n) : BitVec.ofInt 32 n = r := by rw [← h, BitVec.ofInt_toInt]

/-- The integer txt2las computes for a bound: a number when the point's coordinate can be stored, and the stored
integer when that is not negative. -/
theorem quant_ok {D : Fl} {r : BitVec 32} (h : Fl.toInt32 (sround D) = .ok r) :
    ∃ q, Fl.toInt32 (Fl.add (.fin (1 / 2)) D) = .ok q ∧ (0 ≤ r.toInt → q = r) := by
  obtain ⟨d, rfl, ⟨hd, e, hr⟩ | ⟨hd, hr⟩⟩ := sround_cases h
  · refine ⟨r, ?_, fun _ => rfl⟩
    have h1 := BitVec.toInt_lt (x := r)
    have h2 := BitVec.le_toInt r
    simp only [Fl.add]
    rw [add_comm (1 / 2 : ℚ) d, e]
    unfold Fl.toInt32
    dsimp only
    rw [if_pos (Fl.rnd_nonneg (by linarith)), ← hr, if_pos (by omega), BitVec.ofInt_toInt]
  · have h2 := BitVec.le_toInt r
    have hlow : (-2147483649 : ℚ) < Fl.rnd (d - 1 / 2) := by
      have : -2147483649 < ⌈Fl.rnd (d - 1 / 2)⌉ := by rw [← hr]; omega
      rw [Int.lt_ceil] at this
      exact_mod_cast this
    have hlow2 : (-2147483649 : ℚ) < d - 1 / 2 := by
      by_contra hc
      have := Fl.rnd_le_rnd (not_lt.mp hc)
      rw [show (-2147483649 : ℚ) = ((-2147483649 : ℤ) : ℚ) by norm_num, Index.rnd_int (by norm_num)] at this
      push_cast at this
      linarith
    have hz1 : (-2147483648 : ℚ) ≤ Fl.rnd (1 / 2 + d) := by
      have := Fl.rnd_le_rnd (x := ((-2147483648 : ℤ) : ℚ)) (y := 1 / 2 + d) (by push_cast; linarith)
      rw [Index.rnd_int (by norm_num)] at this
      exact_mod_cast this
    have hz2 : Fl.rnd (1 / 2 + d) ≤ 1 / 2 := by
      have := Fl.rnd_le_rnd (x := 1 / 2 + d) (y := 1 / 2) (by linarith)
      rwa [rnd_half] at this
    have hof : Fl.ofRat (1 / 2 + d) = .fin (Fl.rnd (1 / 2 + d)) := by
      apply Fl.ofRat_fin
      have : |1 / 2 + d| ≤ 2 ^ 40 := by rw [abs_le]; constructor <;> norm_num <;> linarith
      exact this.trans (pow_le_1023 (by norm_num))
    simp only [Fl.add, hof]
    unfold Fl.toInt32
    dsimp only
    by_cases h0 : 0 ≤ Fl.rnd (1 / 2 + d)
    · have hf : ⌊Fl.rnd (1 / 2 + d)⌋ = 0 := by rw [Int.floor_eq_iff]; constructor <;> push_cast <;> linarith
      rw [if_pos h0, hf, if_pos (by norm_num)]
      refine ⟨_, rfl, ?_⟩
      intro hr0
      have : ⌈Fl.rnd (d - 1 / 2)⌉ ≤ 0 := by
        rw [Int.ceil_le]
        have := Fl.rnd_le_rnd (x := d - 1 / 2) (y := 0) (by linarith)
        rw [Fl.rnd_zero] at this
        exact_mod_cast this
      apply ofInt_range; omega
    · have hc1 : -2147483648 ≤ ⌈Fl.rnd (1 / 2 + d)⌉ := by
        have : ((-2147483648 : ℤ) : ℚ) ≤ ⌈Fl.rnd (1 / 2 + d)⌉ := (by push_cast; exact hz1 : ((-2147483648 : ℤ) : ℚ) ≤ _).trans (Int.le_ceil _)
        exact_mod_cast this
      have hc2 : ⌈Fl.rnd (1 / 2 + d)⌉ ≤ 2147483647 := by
        rw [Int.ceil_le]; push_cast; linarith
      rw [if_neg h0, if_pos ⟨hc1, hc2⟩]
      refine ⟨_, rfl, ?_⟩
      intro hr0
      exfalso
      have hgt : -1 < Fl.rnd (d - 1 / 2) := by
        have : (-1 : ℤ) < ⌈Fl.rnd (d - 1 / 2)⌉ := by omega
        rw [Int.lt_ceil] at this
        exact_mod_cast this
      have : -1 < d - 1 / 2 := by
        by_contra hc
        have := Fl.rnd_le_rnd (not_lt.mp hc)
        rw [Fl.rnd_neg, Fl.rnd_one] at this
        linarith
      exact h0 (Fl.rnd_nonneg (by linarith))

/-- The same for negative integers: txt2las rounds them to the wrong side, and gets one more. -/
theorem quant_neg {d : ℚ} (hrep : Fl.Rep d) {r : BitVec 32} (h : Fl.toInt32 (sround (.fin d)) = .ok r) (hneg : r.toInt < 0) :
    Fl.toInt32 (Fl.add (.fin (1 / 2)) (.fin d)) = .ok (r + 1) := by
  obtain ⟨d', e, hc⟩ := sround_cases h
  injection e with e
  subst e
  have hr : d ≤ 0 ∧ r.toInt = ⌈Fl.rnd (d - 1 / 2)⌉ := by
    rcases hc with ⟨hd, -, hr⟩ | hc
    · exfalso
      have := Int.floor_nonneg.mpr (Fl.rnd_nonneg (x := d + 1 / 2) (by linarith))
      omega
    · exact hc
  obtain ⟨hd, hr⟩ := hr
  obtain ⟨q, e1, -⟩ := quant_ok h
  have h2 := BitVec.le_toInt r
  have hE : Fl.rnd (d - 1 / 2) = - Fl.rnd (-d + 1 / 2) := by rw [← Fl.rnd_neg]; congr 1; ring
  have hF : Fl.rnd (1 / 2 + d) = - Fl.rnd (-d - 1 / 2) := by rw [← Fl.rnd_neg]; congr 1; ring
  rw [hE, Int.ceil_neg] at hr
  have hbig : -d < 2 ^ 39 := by
    by_contra hc
    have := Fl.rnd_le_rnd (x := ((2 ^ 39 : ℤ) : ℚ)) (y := -d + 1 / 2) (by push_cast; linarith [not_lt.mp hc])
    rw [Index.rnd_int (by norm_num)] at this
    have := Int.floor_le_floor this
    rw [Int.floor_intCast] at this
    norm_num at this
    omega
  have hof : Fl.ofRat (1 / 2 + d) = .fin (Fl.rnd (1 / 2 + d)) := by
    apply Fl.ofRat_fin
    have : |1 / 2 + d| ≤ 2 ^ 40 := by rw [abs_le]; norm_num at hbig ⊢; constructor <;> linarith
    exact this.trans (pow_le_1023 (by norm_num))
  have key : (if 0 ≤ Fl.rnd (1 / 2 + d) then ⌊Fl.rnd (1 / 2 + d)⌋ else ⌈Fl.rnd (1 / 2 + d)⌉) = r.toInt + 1 := by
    by_cases hh : 1 / 2 ≤ -d
    · have hrepn : Fl.Rep (-d) := by
        obtain ⟨k, e, a1, a2, a3, a4⟩ := hrep
        exact ⟨-k, e, by rw [a1]; push_cast; ring, by rw [abs_neg]; exact a2, a3, by rw [abs_neg]; exact a4⟩
      have := Fl.floor_half hrepn hh hbig
      have e3 : ⌈Fl.rnd (1 / 2 + d)⌉ = r.toInt + 1 := by rw [hF, Int.ceil_neg, this]; omega
      split
      · rename_i h0
        have z : Fl.rnd (1 / 2 + d) = 0 := by
          refine le_antisymm ?_ h0
          rw [hF]
          have := Fl.rnd_nonneg (x := -d - 1 / 2) (by linarith)
          linarith
        rw [z] at e3 ⊢
        simpa using e3
      · exact e3
    · have n0 : 0 ≤ Fl.rnd (1 / 2 + d) := Fl.rnd_nonneg (by linarith)
      have hz2 : Fl.rnd (1 / 2 + d) ≤ 1 / 2 := by
        have := Fl.rnd_le_rnd (x := 1 / 2 + d) (y := 1 / 2) (by linarith)
        rwa [rnd_half] at this
      have hf : ⌊Fl.rnd (1 / 2 + d)⌋ = 0 := by rw [Int.floor_eq_iff]; constructor <;> push_cast <;> linarith
      have h1 : Fl.rnd (-d + 1 / 2) ≤ 1 := by
        have := Fl.rnd_le_rnd (x := -d + 1 / 2) (y := 1) (by linarith)
        rwa [Fl.rnd_one] at this
      have := Int.floor_le_floor h1
      rw [Int.floor_one] at this
      rw [if_pos n0, hf]
      omega
  simp only [Fl.add, hof]
  unfold Fl.toInt32
  dsimp only
  rw [key, if_pos (by omega)]
  congr 1
  rw [BitVec.ofInt_add, BitVec.ofInt_toInt]
  rfl

theorem scaled_comm (r : BitVec 32) (s o : Fl) : Fl.add o (Fl.mul (Fl.ofInt32 r) s) = scaled r s o := by
  unfold scaled
  generalize Fl.mul (Fl.ofInt32 r) s = m
  cases m <;> cases o <;> simp [Fl.add, add_comm]
  rename_i a b
  cases a <;> cases b <;> simp

theorem quantized_ok {v s o : Fl} {r : BitVec 32} (h : descaled v s o = .ok r) :
    ∃ y, quantized v s o = .ok y ∧ (0 ≤ r.toInt → y = scaled r s o) := by
  obtain ⟨q, e, hq⟩ := quant_ok h
  refine ⟨_, by unfold quantized; rw [e]; rfl, ?_⟩
  intro h0
  rw [hq h0, scaled_comm]

theorem div_rep {a c : Fl} {d : ℚ} (h : Fl.div a c = .fin d) : Fl.Rep d := by
  have z : Fl.Rep 0 := ⟨0, 0, by simp, by norm_num, by norm_num, by simp⟩
  unfold Fl.div at h
  split at h
  all_goals first
    | cases h; done
    | (injection h with h; subst h; exact z)
    | (split at h <;> first
        | cases h; done
        | exact Fl.ofRat_rep h
        | (split at h <;> first | cases h; done | exact Fl.ofRat_rep h))
    | exact Fl.ofRat_rep h

/-- The bound that txt2las puts into the header for a coordinate: that of the stored integer, or one more when it is negative. -/
theorem quantized_exact {v s o : Fl} {r : BitVec 32} (h : descaled v s o = .ok r) :
    quantized v s o = .ok (scaled (if r.toInt < 0 then r + 1 else r) s o) := by
  by_cases hn : r.toInt < 0
  · rw [if_pos hn]
    obtain ⟨d, e, -⟩ := sround_cases h
    have hrep := div_rep e
    have h' : Fl.toInt32 (sround (.fin d)) = .ok r := by rw [← e]; exact h
    have := quant_neg hrep h' hn
    unfold quantized
    rw [e, this]
    show Outcome.ok _ = _
    rw [scaled_comm]
  · obtain ⟨y, e, hy⟩ := quantized_ok h
    rw [if_neg hn, e, hy (by omega)]

/-- A larger coordinate is stored as a larger integer. -/
theorem descaled_mono {v w o : ℚ} {p : ℚ} (hp : 0 < p) {r1 r2 : BitVec 32} (h1 : descaled (.fin v) (.fin p) (.fin o) = .ok r1)
    (h2 : descaled (.fin w) (.fin p) (.fin o) = .ok r2) (h : v ≤ w) : r1.toInt ≤ r2.toInt := by
  obtain ⟨d1, e1, c1⟩ := sround_cases h1
  obtain ⟨d2, e2, c2⟩ := sround_cases h2
  have quo : ∀ {x d : ℚ}, Fl.div (Fl.sub (.fin x) (.fin o)) (.fin p) = .fin d → d = Fl.rnd (Fl.rnd (x - o) / p) := by
    intro x d e
    simp only [Fl.sub, Fl.neg, Fl.add] at e
    cases e3 : Fl.ofRat (x + -o) with
    | nan => rw [e3] at e; simp [Fl.div] at e
    | inf n => rw [e3] at e; simp [Fl.div, hp.ne'] at e
    | fin z =>
      have hz := ofRat_inv e3
      rw [e3] at e
      simp only [Fl.div, if_neg hp.ne'] at e
      rw [ofRat_inv e, hz, sub_eq_add_neg]
  have hd : d1 ≤ d2 := by
    rw [quo e1, quo e2]
    apply Fl.rnd_le_rnd
    apply div_le_div_of_nonneg_right _ hp.le
    exact Fl.rnd_le_rnd (by linarith)
  rcases c1 with ⟨k1, -, c1⟩ | ⟨k1, c1⟩ <;> rcases c2 with ⟨k2, -, c2⟩ | ⟨k2, c2⟩ <;> rw [c1, c2]
  · exact Int.floor_le_floor (Fl.rnd_le_rnd (by linarith))
  · linarith
  · have a1 : ⌈Fl.rnd (d1 - 1 / 2)⌉ ≤ 0 := by
      rw [Int.ceil_le]
      have := Fl.rnd_le_rnd (x := d1 - 1 / 2) (y := 0) (by linarith)
      rw [Fl.rnd_zero] at this
      exact_mod_cast this
    have a2 : 0 ≤ ⌊Fl.rnd (d2 + 1 / 2)⌋ := Int.floor_nonneg.mpr (Fl.rnd_nonneg (by linarith))
    omega
  · exact Int.ceil_le_ceil (Fl.rnd_le_rnd (by linarith))

/-! ## The first pass -/

/-- What the first pass takes from a line. -/
structure Info where
  x : Fl
  y : Fl
  z : Fl
  r : Nat

def Info.at (i : Info) : Char → Fl ⊕ ℤ
  | 'x' => .inl i.x
  | 'y' => .inl i.y
  | 'z' => .inl i.z
  | _ => .inr i.r

/-- The information of a row. -/
structure InfoOf (letters : List Char) (fields : List (List Char)) (i : Info) : Prop where
  shown : List.Forall₂ (fun c t => c ∈ ['x', 'y', 'z', 'r'] → Shown t (i.at c)) letters fields
  none : 'r' ∉ letters → i.r = 0
  lt : i.r < 8

theorem minMax_ext {l : List Fl} {mn mx v : Fl} (h1 : isLowest l mn) (h2 : isHighest l mx) (hv : ∃ q, v = .fin q)
    (hl : ∀ x ∈ l, ∃ q, x = .fin q) : isLowest (l ++ [v]) (minMax mn mx v).1 ∧ isHighest (l ++ [v]) (minMax mn mx v).2 := by
  obtain ⟨q, rfl⟩ := hv
  obtain ⟨m1, hm1⟩ := hl _ h1.1
  obtain ⟨m2, hm2⟩ := hl _ h2.1
  subst hm1; subst hm2
  have lo : ∀ x ∈ l, ∃ a, x = Fl.fin a ∧ m1 ≤ a ∧ a ≤ m2 := by
    intro x hx
    obtain ⟨a, rfl⟩ := hl x hx
    have h3 := h1.2 _ hx
    have h4 := h2.2 _ hx
    simp only [Fl.le, decide_eq_true_eq] at h3 h4
    exact ⟨a, rfl, h3, h4⟩
  have h12 : m1 ≤ m2 := by obtain ⟨a, e, -, h⟩ := lo _ h1.1; cases e; exact h
  unfold minMax
  by_cases c1 : q < m1
  · rw [if_pos (by simpa [Fl.lt] using c1)]
    refine ⟨⟨by simp, ?_⟩, ⟨List.mem_append_left _ h2.1, ?_⟩⟩ <;> intro x hx <;> rw [List.mem_append] at hx <;> rcases hx with hx | hx
    · obtain ⟨a, rfl, h3, h4⟩ := lo x hx; simp [Fl.le]; linarith
    · simp at hx; subst hx; simp [Fl.le]
    · exact h2.2 x hx
    · simp at hx; subst hx; simp [Fl.le]; linarith
  · rw [if_neg (by simpa [Fl.lt] using c1)]
    by_cases c2 : m2 < q
    · rw [if_pos (by simpa [Fl.lt] using c2)]
      refine ⟨⟨List.mem_append_left _ h1.1, ?_⟩, ⟨by simp, ?_⟩⟩ <;> intro x hx <;> rw [List.mem_append] at hx <;> rcases hx with hx | hx
      · exact h1.2 x hx
      · simp at hx; subst hx; simp [Fl.le]; linarith
      · obtain ⟨a, rfl, h3, h4⟩ := lo x hx; simp [Fl.le]; linarith
      · simp at hx; subst hx; simp [Fl.le]
    · rw [if_neg (by simpa [Fl.lt] using c2)]
      refine ⟨⟨List.mem_append_left _ h1.1, ?_⟩, ⟨List.mem_append_left _ h2.1, ?_⟩⟩ <;> intro x hx <;> rw [List.mem_append] at hx <;> rcases hx with hx | hx
      · exact h1.2 x hx
      · simp at hx; subst hx; simp [Fl.le]; linarith
      · exact h2.2 x hx
      · simp at hx; subst hx; simp [Fl.le]; linarith

/-- All numbers are finite. -/
def Finite (l : List Fl) : Prop := ∀ x ∈ l, ∃ q, x = .fin q

/-- One axis of the bounds. -/
def Bounds1 (l : List Fl) (mn mx : Fl) : Prop := Finite l ∧ isLowest l mn ∧ isHighest l mx

theorem Bounds1.single {v : Fl} (hv : ∃ q, v = .fin q) : Bounds1 [v] v v := by
  obtain ⟨q, rfl⟩ := hv
  have : Fl.le (.fin q) (.fin q) = true := by simp [Fl.le]
  exact ⟨fun x hx => ⟨q, by simpa using hx⟩, ⟨by simp, by simpa using this⟩, ⟨by simp, by simpa using this⟩⟩

theorem Bounds1.more {l : List Fl} {mn mx v : Fl} (h : Bounds1 l mn mx) (hv : ∃ q, v = .fin q) :
    Bounds1 (l ++ [v]) (minMax mn mx v).1 (minMax mn mx v).2 := by
  refine ⟨?_, minMax_ext h.2.1 h.2.2 hv h.1⟩
  intro x hx
  rw [List.mem_append] at hx
  rcases hx with hx | hx
  · exact h.1 x hx
  · simp at hx; subst hx; exact hv

/-- What the first pass knows after the lines `done`. -/
structure Known (done : List Info) (s : Seen) : Prop where
  started : s.started = true ↔ done ≠ []
  x : done ≠ [] → Bounds1 (done.map (·.x)) s.min.x s.max.x
  y : done ≠ [] → Bounds1 (done.map (·.y)) s.min.y s.max.y
  z : done ≠ [] → Bounds1 (done.map (·.z)) s.min.z s.max.z
  len : s.byReturn.length = 8
  hist : ∀ k < 8, s.byReturn.getD k 0 = BitVec.ofNat 32 (done.countP fun i => i.r == k)
  count : s.count = BitVec.ofNat 32 done.length

theorem hist_step {done : List Info} {l : List (BitVec 32)} (hl : l.length = 8)
    (h : ∀ k < 8, l.getD k 0 = BitVec.ofNat 32 (done.countP fun i => i.r == k)) (i : Info) (hi : i.r < 8) :
    ∀ k < 8, (l.set i.r (l.getD i.r 0 + 1)).getD k 0 = BitVec.ofNat 32 ((done ++ [i]).countP fun i => i.r == k) := by
  intro k hk
  rw [List.countP_append, List.countP_singleton, List.getD_eq_getElem?_getD, List.getElem?_set]
  by_cases e : i.r = k
  · subst e
    rw [if_pos rfl, if_pos (by omega), h _ hi]
    simp [BitVec.ofNat_add]
  · rw [if_neg e, ← List.getD_eq_getElem?_getD, h k hk]
    simp [e]

theorem view_return_lt (b : Build) (f : PointFormat) (d : List Byte) : (view b f d).returnNumber < 8 := by
  have : ∀ x : BitVec 8, ((x &&& 0x07#8).setWidth 16).toNat < 8 := by decide
  exact this _

theorem forall₂_mem {α β : Type} {R : α → β → Prop} {l : List α} {m : List β} (h : List.Forall₂ R l m) {a : α} (ha : a ∈ l) :
    ∃ c ∈ m, R a c := by
  induction h with
  | nil => simp at ha
  | cons h1 _ ih =>
    rw [List.mem_cons] at ha
    rcases ha with rfl | ha
    · exact ⟨_, by simp, h1⟩
    · obtain ⟨c, hc, hr⟩ := ih ha
      exact ⟨c, by simp [hc], hr⟩

theorem fits_shown_fin {scale offset : Vec3 Fl} {letters : List Char} {fields : List (List Char)} {i : Info}
    (hf : List.Forall₂ (Fits scale offset) letters fields) (hi : InfoOf letters fields i) :
    ('x' ∈ letters → ∃ q, i.x = .fin q) ∧ ('y' ∈ letters → ∃ q, i.y = .fin q) ∧ ('z' ∈ letters → ∃ q, i.z = .fin q) := by
  have both : List.Forall₂ (fun c t => Fits scale offset c t ∧ (c ∈ ['x', 'y', 'z', 'r'] → Shown t (i.at c))) letters fields := by
    have h2 := hi.shown
    clear hi
    induction hf with
    | nil => exact .nil
    | cons h1 _ ih => cases h2 with | cons k1 k2 => exact .cons ⟨h1, k1⟩ (ih k2)
  refine ⟨fun hm => ?_, fun hm => ?_, fun hm => ?_⟩ <;> obtain ⟨t, -, ⟨a, -, hs⟩, hh⟩ := forall₂_mem both hm
  all_goals
    obtain ⟨p, w, hd, e⟩ := hs
    have := hh (by decide) p w hd
    rw [this]
    exact descaled_fin e

theorem blank_wf : blank.WF := by unfold Point.WF; decide +kernel

theorem blank_return (b : Build) (v : Vars) : slot 'r' (cells b { v with point := blank, color := ⟨0, 0, 0⟩ }) = .inr 0 := by
  have : (view b blank.hdr.fmt blank.data).returnNumber = 0 := by
    show ((rdByte blank.data 14 &&& 0x07#8).setWidth 16).toNat = 0
    decide +kernel
  show Sum.inr _ = _
  congr 1
  show ((view b blank.hdr.fmt blank.data).returnNumber : ℤ) = 0
  rw [this]; rfl

theorem firstPass_ok {sc : Scan} (hsc : Scans sc) {b : Build} {scale offset : Vec3 Fl} {ps : List Char} {n : Nat}
    (hx : 'x' ∈ ps) (hy : 'y' ∈ ps) (hz : 'z' ∈ ps) (hn : (ps.filter (· ≠ 's')).Nodup)
    (htail : ∀ c ∈ (ps.map lessOf).drop n, c = 's') {lines : List (List Char)} {rows : List (List (List Char))}
    (hc : Content scale offset ps lines rows) :
    ∀ (done : List Info) (s : Seen), Known done s →
      ∃ s' infos, firstPass sc b ((ps.map lessOf).take n) lines s = .ok s' ∧ Known (done ++ infos) s' ∧
        List.Forall₂ (InfoOf ps) rows infos := by
  induction hc with
  | nil => intro done s hk; exact ⟨s, [], rfl, by simpa using hk, .nil⟩
  | @row line lines fields rows hol hrow hcont ih =>
    intro done s hk
    obtain ⟨hcol, hfit⟩ := hrow
    obtain ⟨v, e1, h1, h2, h3, h4, h5, -⟩ := row_parses hsc (b := b) (columns_take hcol n)
      (List.forall₂_take n (fits_less hfit)) (less_nodup hn n) blank_wf s.vars
    let i : Info := ⟨v.x, v.y, v.z, (view b v.point.hdr.fmt v.point.data).returnNumber⟩
    have hi : InfoOf ps fields i := by
      refine ⟨(of_less hfit.length_eq h4 htail).imp ?_, ?_, view_return_lt b v.point.hdr.fmt v.point.data⟩
      · intro c t h hm
        rcases h hm with h | h
        · subst h; exact absurd hm (by decide)
        · simp only [List.mem_cons, List.not_mem_nil, or_false] at hm
          rcases hm with rfl | rfl | rfl | rfl <;> exact h
      · intro hr
        have := h5 'r' (by rw [mem_less htail (by decide)]; exact hr)
        rw [blank_return] at this
        have h6 : ((view b v.point.hdr.fmt v.point.data).returnNumber : ℤ) = 0 := by
          have h7 : (Sum.inr ((view b v.point.hdr.fmt v.point.data).returnNumber : ℤ) : Fl ⊕ ℤ) = .inr 0 := this
          injection h7
        exact_mod_cast h6
    obtain ⟨fx, fy, fz⟩ := fits_shown_fin hfit hi
    obtain ⟨-, -, -, -, ⟨r, er, hr⟩, -⟩ := Point.observe_inv (observe_eq (b := b) h1)
    have hir : r.toNat = i.r := hr
    have hnext : ∃ s1, Known (done ++ [i]) s1 ∧
        firstPass sc b ((ps.map lessOf).take n) (line :: lines) s = firstPass sc b ((ps.map lessOf).take n) lines s1 := by
      by_cases hst : s.started = true
      · have hd := hk.started.mp hst
        refine ⟨⟨true, v, s.count + 1, ⟨(minMax s.min.x s.max.x v.x).1, (minMax s.min.y s.max.y v.y).1, (minMax s.min.z s.max.z v.z).1⟩,
          ⟨(minMax s.min.x s.max.x v.x).2, (minMax s.min.y s.max.y v.y).2, (minMax s.min.z s.max.z v.z).2⟩,
          s.byReturn.set r.toNat (s.byReturn.getD r.toNat 0 + 1)⟩, ?_, ?_⟩
        rotate_left
        · conv_lhs => rw [firstPass]
          rw [e1]
          simp only [Outcome.bind_ok, if_true, er, hst]
        · constructor
          · simp
          · intro _; rw [List.map_append]; exact (hk.x hd).more (fx hx)
          · intro _; rw [List.map_append]; exact (hk.y hd).more (fy hy)
          · intro _; rw [List.map_append]; exact (hk.z hd).more (fz hz)
          · rw [List.length_set]; exact hk.len
          · dsimp only; rw [hir]; exact hist_step hk.len hk.hist i hi.lt
          · dsimp only; rw [hk.count]; simp [BitVec.ofNat_add]
      · have hd : done = [] := by
          by_contra h; exact hst (hk.started.mpr h)
        refine ⟨⟨true, v, 1, ⟨v.x, v.y, v.z⟩, ⟨v.x, v.y, v.z⟩, s.byReturn.set r.toNat (s.byReturn.getD r.toNat 0 + 1)⟩, ?_, ?_⟩
        rotate_left
        · conv_lhs => rw [firstPass]
          rw [e1]
          simp only [Outcome.bind_ok, if_true, er, hst]
          rfl
        · constructor
          · simp
          · intro _; rw [hd]; exact .single (fx hx)
          · intro _; rw [hd]; exact .single (fy hy)
          · intro _; rw [hd]; exact .single (fz hz)
          · rw [List.length_set]; exact hk.len
          · dsimp only; rw [hir]; exact hist_step hk.len hk.hist i hi.lt
          · rw [hd]; rfl
    obtain ⟨s1, hk1, e⟩ := hnext
    obtain ⟨s', infos, e2, k2, k3⟩ := ih (done ++ [i]) s1 hk1
    exact ⟨s', i :: infos, by rw [e, e2], by simpa using k2, .cons hi k3⟩
  | @comment line lines rows hol hcom hfirst hcont ih =>
    intro done s hk
    have hless : ∃ c rest, (ps.map lessOf).take n = c :: rest ∧ c ∈ ['x', 'y', 'z', 'r'] := by
      obtain ⟨c, cs, rfl, hm⟩ := hfirst
      have e : lessOf c = c := by
        simp only [List.mem_cons, List.not_mem_nil, or_false] at hm
        unfold lessOf; rw [if_pos hm]
      cases n with
      | zero =>
        have := htail (lessOf c) (by simp)
        rw [e] at this; subst this; exact absurd hm (by decide)
      | succ n => exact ⟨c, (cs.map lessOf).take n, by simp [e], hm⟩
    have e1 := comment_fails hsc (b := b) hcom hless blank s.vars
    obtain ⟨s', infos, e2, k2, k3⟩ := ih done { s with vars := { s.vars with point := blank, color := ⟨0, 0, 0⟩ } }
      ⟨hk.started, hk.x, hk.y, hk.z, hk.len, hk.hist, hk.count⟩
    refine ⟨s', infos, ?_, k2, k3⟩
    rw [firstPass, e1]
    exact e2

/-! ## The second pass -/

theorem call_ok {b : Build} {p : Point} (hw : p.WF) (s : CApi.PointSet) (op : SetOp) (hs : s.run b p = exec b p op)
    (hop : supported p.hdr.fmt op = true) :
    ∃ q, call b p s = .ok q ∧ q.WF ∧ q.hdr = p.hdr ∧ q.data.length = p.data.length ∧
      view b q.hdr.fmt q.data = apply (view b p.hdr.fmt p.data) op := by
  obtain ⟨q, a, h1, h2, h3, h4, h5, h6, -⟩ := set_then_get b p op hw hop
  refine ⟨q, ?_, h4, h5, h6, ?_⟩
  · unfold call
    rw [hs, h1]
  · rw [observe_eq hw] at h2; cases h2
    rw [observe_eq h4] at h3; injection h3

/-- The time a format can store. -/
def keepTime (f : PointFormat) (t : BitVec 64) : BitVec 64 := if hasTime f then t else 0

theorem time_ok {b : Build} {p : Point} (hw : p.WF) (t : BitVec 64) :
    ∃ q, call b p (.time t) = .ok q ∧ q.WF ∧ q.hdr = p.hdr ∧ q.data.length = p.data.length ∧
      view b q.hdr.fmt q.data = { view b p.hdr.fmt p.data with time := keepTime p.hdr.fmt t } := by
  by_cases h : hasTime p.hdr.fmt = true
  · obtain ⟨q, h1, h2, h3, h4, h5⟩ := call_ok (b := b) hw (.time t) (.time t) rfl h
    refine ⟨q, h1, h2, h3, h4, ?_⟩
    rw [h5, keepTime, if_pos h]; rfl
  · rw [Bool.not_eq_true] at h
    obtain ⟨k1, k2⟩ := (unsupported_attribute b p hw).1 h
    refine ⟨p, ?_, hw, rfl, rfl, ?_⟩
    · unfold call
      rw [show CApi.PointSet.run b p (.time t) = exec b p (.time t) from rfl, k1]
    · rw [keepTime, if_neg (by simp [h]), ← k2 _ (observe_eq hw)]

theorem coords_ok {b : Build} {v : Vars} (hw : v.point.WF) {rx ry rz : BitVec 32}
    (hx : descaled v.x v.point.hdr.scale.x v.point.hdr.offset.x = .ok rx)
    (hy : descaled v.y v.point.hdr.scale.y v.point.hdr.offset.y = .ok ry)
    (hz : descaled v.z v.point.hdr.scale.z v.point.hdr.offset.z = .ok rz) :
    ∃ p1 p2 p3 p4, call b v.point (.x v.x) = .ok p1 ∧ call b p1 (.y v.y) = .ok p2 ∧ call b p2 (.z v.z) = .ok p3 ∧
      call b p3 (.time v.t.toBits) = .ok p4 ∧ p4.hdr = v.point.hdr ∧ p4.data.length = v.point.data.length ∧
      observe b p4 = .ok { view b v.point.hdr.fmt v.point.data with
        rawX := rx, rawY := ry, rawZ := rz, time := keepTime v.point.hdr.fmt v.t.toBits } := by
  obtain ⟨p1, a1, a2, a3, a4, a5⟩ := call_ok (b := b) hw (.x v.x) (.rawX rx)
    (by show setX b v.point v.x = _; unfold setX; rw [hx]; rfl) rfl
  obtain ⟨p2, b1, b2, b3, b4, b5⟩ := call_ok (b := b) a2 (.y v.y) (.rawY ry)
    (by show setY b p1 v.y = _; unfold setY; rw [a3, hy]; rfl) rfl
  obtain ⟨p3, c1, c2, c3, c4, c5⟩ := call_ok (b := b) b2 (.z v.z) (.rawZ rz)
    (by show setZ b p2 v.z = _; unfold setZ; rw [b3, a3, hz]; rfl) rfl
  obtain ⟨p4, d1, d2, d3, d4, d5⟩ := time_ok (b := b) c2 v.t.toBits
  refine ⟨p1, p2, p3, p4, a1, b1, c1, d1, by rw [d3, c3, b3, a3], by rw [d4, c4, b4, a4], ?_⟩
  rw [observe_eq d2, d5, c5, b5, a5, c3, b3, a3]
  rfl

/-- All attributes zero. -/
def zeroAttrs : Attrs := ⟨0, 0, 0, 0, 0, 0, 0, 0, ⟨0⟩, 0, 0, 0, 0, ⟨0, 0, 0⟩⟩

theorem zero_view (b : Build) {f : PointFormat} (hf : f.std = true) : view b f (List.replicate (formatSize f) 0#8) = zeroAttrs := by
  obtain ⟨host, ea⟩ := b
  cases f <;> first | (exact absurd hf (by decide)) | (cases host <;> cases ea <;> decide +kernel)

/-- A header that records of the letters can be stored with. -/
structure Suits (letters : List Char) (scale offset : Vec3 Fl) (h : PHeader) : Prop where
  fmt : h.fmt = formatOf letters
  recLen : h.recLen = formatSize h.fmt
  scale : h.scale = scale
  offset : h.offset = offset

theorem formatOf_std (letters : List Char) : (formatOf letters).std = true := by
  unfold formatOf; split <;> split <;> rfl

theorem formatOf_time {letters : List Char} : hasTime (formatOf letters) = true ↔ 't' ∈ letters := by
  unfold formatOf; split <;> split <;> simp_all [hasTime]

theorem formatOf_color {letters : List Char} :
    hasColor (formatOf letters) = true ↔ 'R' ∈ letters ∨ 'G' ∈ letters ∨ 'B' ∈ letters := by
  unfold formatOf; split <;> split <;> simp_all [hasColor]

/-- A record that a row is turned into. -/
structure Made (b : Build) (letters : List Char) (scale offset : Vec3 Fl) (h : PHeader) (fields : List (List Char)) (d : List Byte) : Prop where
  len : d.length = h.recLen
  attrs : ∃ a, observe b ⟨d, h⟩ = .ok a ∧ List.Forall₂ (fun c t => Says scale offset c t a) letters fields ∧
    ∀ c ∈ "ianrcupedtRGB".toList, c ∉ letters → Says scale offset c ['0'] a

theorem showsInt_zero : ShowsInt 0 ['0'] := ⟨['0'], rfl, ⟨⟨by simp, by decide⟩, by simp⟩, rfl⟩

theorem decimal_zero : Decimal 0 0 ['0'] := ⟨false, ['0'], [], rfl, ⟨⟨by simp, by decide⟩, by simp⟩, rfl, by simp, by decide +kernel⟩

theorem forall₂_both {α β : Type} {R S : α → β → Prop} {l : List α} {m : List β} (h : List.Forall₂ R l m) (k : List.Forall₂ S l m) :
    List.Forall₂ (fun a c => R a c ∧ S a c) l m := by
  induction h with
  | nil => exact .nil
  | cons h1 _ ih => cases k with | cons k1 k2 => exact .cons ⟨h1, k1⟩ (ih k2)

theorem row_made {sc : Scan} (hsc : Scans sc) {b : Build} {scale offset : Vec3 Fl} {ps : List Char} {h : PHeader}
    (hh : Suits ps scale offset h)
    (hx : 'x' ∈ ps) (hy : 'y' ∈ ps) (hz : 'z' ∈ ps) (hn : (ps.filter (· ≠ 's')).Nodup) {fields : List (List Char)} {line : List Char}
    (hrow : Row scale offset ps fields line) (v : Vars) :
    ∃ v' p1 p2 p3 p4, parse sc b ps line ⟨List.replicate h.recLen 0#8, h⟩ v = .ok (true, v') ∧
      call b v'.point (.x v'.x) = .ok p1 ∧ call b p1 (.y v'.y) = .ok p2 ∧ call b p2 (.z v'.z) = .ok p3 ∧
      call b p3 (.time v'.t.toBits) = .ok p4 ∧ Made b ps scale offset h fields p4.data := by
  obtain ⟨hcol, hfit⟩ := hrow
  have hw : (⟨List.replicate h.recLen 0#8, h⟩ : Point).WF := by
    refine ⟨?_, ?_⟩
    · show h.fmt.std = true; rw [hh.fmt]; exact formatOf_std _
    · simp [hh.recLen]
  obtain ⟨v', e1, h1, h2, h3, h4, h5, h6⟩ := row_parses hsc (b := b) hcol hfit hn hw v
  have both := forall₂_both hfit h4
  have hk2 : v'.point.hdr = h := h2
  obtain ⟨rx, ex⟩ : ∃ rx, descaled v'.x h.scale.x h.offset.x = .ok rx := by
    obtain ⟨t, -, ⟨a, -, p, w, hd, e⟩, hh'⟩ := forall₂_mem both hx
    rcases hh' with hh' | hh'
    · exact absurd hh' (by decide)
    · have e2 : v'.x = Fl.ofRat w := hh' p w hd
      exact ⟨_, by rw [e2, hh.scale, hh.offset]; exact e⟩
  obtain ⟨ry, ey⟩ : ∃ ry, descaled v'.y h.scale.y h.offset.y = .ok ry := by
    obtain ⟨t, -, ⟨a, -, p, w, hd, e⟩, hh'⟩ := forall₂_mem both hy
    rcases hh' with hh' | hh'
    · exact absurd hh' (by decide)
    · have e2 : v'.y = Fl.ofRat w := hh' p w hd
      exact ⟨_, by rw [e2, hh.scale, hh.offset]; exact e⟩
  obtain ⟨rz, ez⟩ : ∃ rz, descaled v'.z h.scale.z h.offset.z = .ok rz := by
    obtain ⟨t, -, ⟨a, -, p, w, hd, e⟩, hh'⟩ := forall₂_mem both hz
    rcases hh' with hh' | hh'
    · exact absurd hh' (by decide)
    · have e2 : v'.z = Fl.ofRat w := hh' p w hd
      exact ⟨_, by rw [e2, hh.scale, hh.offset]; exact e⟩
  obtain ⟨p1, p2, p3, p4, c1, c2, c3, c4, c5, c6, c7⟩ := coords_ok (b := b) h1 (by rw [hk2]; exact ex) (by rw [hk2]; exact ey) (by rw [hk2]; exact ez)
  refine ⟨v', p1, p2, p3, p4, e1, c1, c2, c3, c4, ?_, ?_⟩
  · rw [c6, h3]; simp
  have ep : (⟨p4.data, h⟩ : Point) = p4 := by rw [← hk2, ← c5]
  rw [ep]
  refine ⟨_, c7, ?_, ?_⟩
  · -- the columns
    have both2 : List.Forall₂ (fun c t => c ∈ ps ∧ Fits scale offset c t ∧ Holds c t (cells b v')) ps fields := by
      have : ∀ {l : List Char} {m : List (List Char)}, List.Forall₂ (fun c t => Fits scale offset c t ∧ Holds c t (cells b v')) l m →
          (∀ c ∈ l, c ∈ ps) → List.Forall₂ (fun c t => c ∈ ps ∧ Fits scale offset c t ∧ Holds c t (cells b v')) l m := by
        intro l m hlm
        induction hlm with
        | nil => intro _; exact .nil
        | cons k1 _ ih => intro hc; exact .cons ⟨hc _ (by simp), k1⟩ (ih fun c hm => hc c (by simp [hm]))
      exact this both fun _ hc => hc
    refine both2.imp ?_
    rintro c t ⟨hm, ⟨a, -, hs⟩, hold⟩
    have hcol : (cells b v').a.color = keepColor h.fmt v'.color := h6
    have hkeep : 'R' ∈ ps ∨ 'G' ∈ ps ∨ 'B' ∈ ps → (cells b v').a.color = v'.color := by
      intro hc
      rw [hcol, keepColor, if_pos (by rw [hh.fmt]; exact formatOf_color.mpr hc)]
    rcases hold with rfl | hold
    · trivial
    unfold Says at hs ⊢
    split at hs
    · obtain ⟨p, w, hd, -⟩ := hs
      have e2 : v'.x = Fl.ofRat w := hold p w hd
      exact ⟨p, w, hd, by rw [← e2, ← hh.scale, ← hh.offset]; exact ex⟩
    · obtain ⟨p, w, hd, -⟩ := hs
      have e2 : v'.y = Fl.ofRat w := hold p w hd
      exact ⟨p, w, hd, by rw [← e2, ← hh.scale, ← hh.offset]; exact ey⟩
    · obtain ⟨p, w, hd, -⟩ := hs
      have e2 : v'.z = Fl.ofRat w := hold p w hd
      exact ⟨p, w, hd, by rw [← e2, ← hh.scale, ← hh.offset]; exact ez⟩
    · trivial
    · obtain ⟨p, w, hd, -, hneg⟩ := hs
      have e2 : v'.t = Fl.ofRat w := hold p w hd
      refine ⟨p, w, hd, ?_, hneg⟩
      show keepTime _ _ = _
      rw [keepTime, if_pos (by rw [hk2, hh.fmt]; exact formatOf_time.mpr hm), e2]
    · exact hold
    · exact hold
    · exact hold
    · exact hold
    · exact hold
    · exact hold
    · exact hold
    · exact hold
    · exact hold
    · show ShowsInt ((cells b v').a.color.c0.toNat) t
      rw [hkeep (.inl hm)]; exact hold
    · show ShowsInt ((cells b v').a.color.c1.toNat) t
      rw [hkeep (.inr (.inl hm))]; exact hold
    · show ShowsInt ((cells b v').a.color.c2.toNat) t
      rw [hkeep (.inr (.inr hm))]; exact hold
    · exact absurd hs id
  · -- the other attributes
    intro c hc hnot
    have hz0 := h5 c hnot
    have hv : (cells b { v with point := ⟨List.replicate h.recLen 0#8, h⟩, color := ⟨0, 0, 0⟩ }).a = zeroAttrs := by
      show view b h.fmt (List.replicate h.recLen 0#8) = _
      rw [hh.recLen]
      exact zero_view b (by rw [hh.fmt]; exact formatOf_std _)
    have hcol : (cells b v').a.color = keepColor h.fmt v'.color := h6
    generalize hk : cells b { v with point := ⟨List.replicate h.recLen 0#8, h⟩, color := ⟨0, 0, 0⟩ } = k at hz0 hv
    have hkc : k.color = ⟨0, 0, 0⟩ := by rw [← hk]; rfl
    have z : ∀ {n : ℤ}, n = 0 → ShowsInt n ['0'] := by rintro n rfl; exact showsInt_zero
    have colz : ∀ (f : Color → BitVec 16), (f ⟨0, 0, 0⟩ = 0) → f v'.color = 0 → ShowsInt ((f (cells b v').a.color).toNat : ℤ) ['0'] := by
      intro f f0 f1
      apply z
      rw [hcol, keepColor]
      split
      · rw [f1]; rfl
      · rw [f0]; rfl
    have cz : ∀ {x : BitVec 16}, (Sum.inr (x.toNat : ℤ) : Fl ⊕ ℤ) = Sum.inr (((0 : BitVec 16).toNat : Nat) : ℤ) → x = 0 := by
      intro x hx
      injection hx with hx
      apply BitVec.eq_of_toNat_eq
      exact_mod_cast hx
    have hmem : c = 'i' ∨ c = 'a' ∨ c = 'n' ∨ c = 'r' ∨ c = 'c' ∨ c = 'u' ∨ c = 'p' ∨ c = 'e' ∨ c = 'd' ∨ c = 't' ∨ c = 'R' ∨ c = 'G' ∨ c = 'B' := by
      simpa using hc
    rcases hmem with rfl | rfl | rfl | rfl | rfl | rfl | rfl | rfl | rfl | rfl | rfl | rfl | rfl
    all_goals simp only [slot, hv, hkc] at hz0
    · exact z (by injection hz0)
    · exact z (by injection hz0)
    · exact z (by injection hz0)
    · exact z (by injection hz0)
    · exact z (by injection hz0)
    · exact z (by injection hz0)
    · exact z (by injection hz0)
    · exact z (by injection hz0)
    · exact z (by injection hz0)
    · refine ⟨0, 0, decimal_zero, ?_, by simp⟩
      show keepTime _ _ = _
      rw [keepTime, if_neg (by rw [hk2, hh.fmt, formatOf_time]; exact hnot)]
      decide +kernel
    · exact colz (·.c0) rfl (cz hz0)
    · exact colz (·.c1) rfl (cz hz0)
    · exact colz (·.c2) rfl (cz hz0)

theorem blank_zero : byteSum blank.data = 0 := by decide +kernel

theorem secondPass_ok {sc : Scan} (hsc : Scans sc) {b : Build} {scale offset : Vec3 Fl} {ps : List Char} {h : PHeader}
    (hh : Suits ps scale offset h)
    (hx : 'x' ∈ ps) (hy : 'y' ∈ ps) (hz : 'z' ∈ ps) (hn : (ps.filter (· ≠ 's')).Nodup) {lines : List (List Char)}
    {rows : List (List (List Char))} (hc : Content scale offset ps lines rows) :
    ∀ v : Vars, ∃ ds, secondPass sc b ps h lines v = .ok ds ∧ List.Forall₂ (Made b ps scale offset h) rows ds := by
  have hset : setHeader b blank h = .ok ⟨List.replicate h.recLen 0#8, h⟩ := by
    unfold setHeader; rw [if_pos blank_zero]
  induction hc with
  | nil => intro v; exact ⟨[], rfl, .nil⟩
  | @row line lines fields rows hol hrow hcont ih =>
    intro v
    obtain ⟨v', p1, p2, p3, p4, e1, e2, e3, e4, e5, hm⟩ := row_made hsc (b := b) hh hx hy hz hn hrow v
    obtain ⟨ds, e6, hds⟩ := ih v'
    refine ⟨p4.data :: ds, ?_, .cons hm hds⟩
    rw [secondPass, hset]
    simp only [Outcome.bind_ok, e1, if_true, e2, e3, e4, e5, e6]
    rfl
  | @comment line lines rows hol hcom hfirst hcont ih =>
    intro v
    have e1 := comment_fails hsc (b := b) hcom hfirst ⟨List.replicate h.recLen 0#8, h⟩ v
    obtain ⟨ds, e2, hds⟩ := ih { v with point := ⟨List.replicate h.recLen 0#8, h⟩, color := ⟨0, 0, 0⟩ }
    refine ⟨ds, ?_, hds⟩
    rw [secondPass, hset]
    simp only [Outcome.bind_ok, e1]
    exact e2

/-! ## Lines -/

theorem linesFrom_line : ∀ (t : List Char) (room : Nat) (cur rest : List Char), '\n' ∉ t → t.length < room →
    linesFrom room cur (t ++ '\n' :: rest) = (cur ++ t ++ ['\n']) :: linesFrom 511 [] rest
  | [], room, cur, rest, _, _ => by simp [linesFrom]
  | c :: t, room, cur, rest, hn, hl => by
    have hc : c ≠ '\n' := by rintro rfl; simp at hn
    simp at hl
    rw [List.cons_append, linesFrom, if_neg (by rintro (h | h) <;> [exact hc h; omega]), linesFrom_line t (room - 1) (cur ++ [c]) rest
      (by intro h; exact hn (by simp [h])) (by omega)]
    simp

theorem lines_content {scale offset : Vec3 Fl} {ps : List Char} {ls : List (List Char)} {rows : List (List (List Char))}
    (hc : Content scale offset ps ls rows) : lines ls.flatten = ls := by
  have hl : ∀ l ∈ ls, OneLine l := by
    induction hc with
    | nil => simp
    | row h _ _ ih => intro l hm; rw [List.mem_cons] at hm; rcases hm with rfl | hm; exact h; exact ih l hm
    | comment h _ _ _ ih => intro l hm; rw [List.mem_cons] at hm; rcases hm with rfl | hm; exact h; exact ih l hm
  clear hc
  have e1 : linesFrom 511 [] ls.flatten = ls := by
    induction ls with
    | nil => rfl
    | cons l ls ih =>
      obtain ⟨t, rfl, h1, h2, -⟩ := hl l (by simp)
      rw [List.flatten_cons, List.append_assoc, List.singleton_append, linesFrom_line t 511 [] _ h2 (by omega),
        ih fun l hm => hl l (by simp [hm])]
      simp
  unfold lines
  rw [e1]
  conv_rhs => rw [← List.map_id ls]
  apply List.map_congr_left
  intro l hm
  obtain ⟨t, rfl, -, -, h3⟩ := hl l hm
  rw [List.takeWhile_eq_self_iff.mpr]
  · rfl
  · intro c hc
    rw [List.mem_append] at hc
    rcases hc with hc | hc
    · simp; rintro rfl; exact h3 hc
    · simp at hc; subst hc; decide

end Txt2las
end LibLAS
