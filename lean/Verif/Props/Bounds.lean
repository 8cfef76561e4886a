import Verif.Spec.Bounds
import Mathlib.Data.List.Forall2
import Mathlib.Tactic.Tauto
import Verif.Lemmas.Float
/-
C35: box algebra; C50: box equality and volume.
-/
namespace LibLAS
open Spec

namespace Fl

theorem le_refl' {a : Fl} (h : a ≠ nan) : le a a = true := by
  cases a with
  | nan => exact absurd rfl h
  | inf b => cases b <;> rfl
  | fin q => simp [le]

theorem le_trans' {a b c : Fl} (h1 : le a b = true) (h2 : le b c = true) : le a c = true := by
  rcases a with _ | (_ | _) | a <;> rcases b with _ | (_ | _) | b <;> rcases c with _ | (_ | _) | c <;>
    simp [le] at h1 h2 ⊢
  exact h1.trans h2

/-- Comparable numbers: `<` is the negation of the reverse `<=`. -/
theorem lt_eq {a b : Fl} (ha : a ≠ nan) (hb : b ≠ nan) : lt a b = !(le b a) := by
  rcases a with _ | (_ | _) | a <;> rcases b with _ | (_ | _) | b <;> simp [le, lt] at ha hb ⊢
  rw [← decide_not]; exact decide_eq_decide.mpr not_le.symm

theorem le_num {a b : Fl} (h : le a b = true) : a ≠ nan ∧ b ≠ nan := by
  rcases a with _ | (_ | _) | a <;> rcases b with _ | (_ | _) | b <;> simp [le] at h ⊢

theorem le_total' {a b : Fl} (ha : a ≠ nan) (hb : b ≠ nan) : le a b = true ∨ le b a = true := by
  rcases a with _ | (_ | _) | a <;> rcases b with _ | (_ | _) | b <;> simp [le] at ha hb ⊢
  exact _root_.le_total a b

theorem lt_le {a b : Fl} (h : lt a b = true) : le a b = true := by
  rcases a with _ | (_ | _) | a <;> rcases b with _ | (_ | _) | b <;> simp [le, lt] at h ⊢
  exact h.le

theorem lt_of_lt_of_le' {a b c : Fl} (h1 : lt a b = true) (h2 : le b c = true) : lt a c = true := by
  rcases a with _ | (_ | _) | a <;> rcases b with _ | (_ | _) | b <;> rcases c with _ | (_ | _) | c <;>
    simp [le, lt] at h1 h2 ⊢
  exact h1.trans_le h2

theorem lt_trans' {a b c : Fl} (h1 : lt a b = true) (h2 : lt b c = true) : lt a c = true :=
  lt_of_lt_of_le' h1 (lt_le h2)

theorem le_of_not_lt {a b : Fl} (ha : a ≠ nan) (hb : b ≠ nan) (h : ¬ lt a b = true) : le b a = true := by
  rw [lt_eq ha hb] at h; simpa using h

end Fl

/-- Inclusion of intervals, end by end. -/
private def sub (c a : Range) : Prop := Fl.le c.minimum a.minimum = true ∧ Fl.le a.maximum c.maximum = true

private theorem inRange_sub {c a : Range} {v : Fl} (h : sub c a) (hv : inRange a v) : inRange c v :=
  ⟨Fl.le_trans' h.1 hv.1, Fl.le_trans' hv.2 h.2⟩

private theorem within_of_sub {c a : Bounds} (h : List.Forall₂ sub c.ranges a.ranges) : within a c := by
  obtain ⟨c⟩ := c
  obtain ⟨a⟩ := a
  simp only [within, inBox] at *
  induction h with
  | nil => intro v hv; exact hv
  | cons h1 _ ih =>
    intro v hv
    cases hv with
    | cons p q => exact List.Forall₂.cons (inRange_sub h1 p) (ih _ q)

private theorem corner_in (f : Range → Fl) (l : List Range) (h : ∀ r ∈ l, inRange r (f r)) :
    List.Forall₂ inRange l (l.map f) := by
  induction l with
  | nil => exact List.Forall₂.nil
  | cons a as ih =>
    exact List.Forall₂.cons (h a (by simp)) (ih fun r hr => h r (List.mem_cons_of_mem _ hr))

private theorem sub_of_within {c a : Bounds} (hp : proper a) (h : within a c) : List.Forall₂ sub c.ranges a.ranges := by
  have h1 := h _ (corner_in Range.minimum a.ranges fun r hr =>
    ⟨Fl.le_refl' (Fl.le_num (hp r hr)).1, hp r hr⟩)
  have h2 := h _ (corner_in Range.maximum a.ranges fun r hr =>
    ⟨hp r hr, Fl.le_refl' (Fl.le_num (hp r hr)).2⟩)
  unfold inBox at h1 h2
  rw [List.forall₂_map_right_iff] at h1 h2
  have := h1.imp (fun _ _ h => h.1)
  clear hp h
  generalize c.ranges = cl at h1 h2 this ⊢
  generalize a.ranges = al at h1 h2 this ⊢
  clear this
  induction h1 with
  | nil => exact List.Forall₂.nil
  | cons p _ ih =>
    cases h2 with
    | cons q q' => exact List.Forall₂.cons ⟨p.1, q.2⟩ (ih q')

private theorem containsRange_iff (a r : Range) : a.containsRange r = true ↔ sub a r := by
  simp [Range.containsRange, sub]

private theorem scan_false_iff (f : Range → Range → Bool) (a b : List Range) (h : a.length ≤ b.length) :
    ∃ r, Bounds.scan f false a b = .ok r ∧
      (r = true ↔ List.Forall₂ (fun x y => f x y = false) a (b.take a.length)) := by
  induction a generalizing b with
  | nil => exact ⟨true, rfl, by simp⟩
  | cons x xs ih =>
    cases b with
    | nil => simp at h
    | cons y ys =>
      simp only [Bounds.scan]
      by_cases hf : f x y = true
      · exact ⟨false, by rw [if_pos hf], by simp [hf]⟩
      · obtain ⟨r, e, hr⟩ := ih ys (by simpa using h)
        refine ⟨r, by rw [if_neg hf, e], ?_⟩
        rw [hr, List.length_cons, List.take_succ_cons, List.forall₂_cons]
        rw [Bool.not_eq_true] at hf
        simp [hf]

private theorem contains_ok {a b : Bounds} (h : a.dimension ≤ b.dimension) :
    ∃ r, a.containsBounds b = .ok r ∧ (r = true ↔ List.Forall₂ sub a.ranges (b.ranges.take a.dimension)) := by
  obtain ⟨r, e, hr⟩ := scan_false_iff (fun x y => !(x.containsRange y)) a.ranges b.ranges h
  refine ⟨r, e, ?_⟩
  rw [hr]
  simp only [Bool.not_eq_false', containsRange_iff]
  rfl

private theorem contains_true {a b : Bounds} (h : a.dimension ≤ b.dimension) :
    a.containsBounds b = .ok true ↔ List.Forall₂ sub a.ranges (b.ranges.take a.dimension) := by
  obtain ⟨r, e, hr⟩ := contains_ok h
  rw [e, ← hr, Outcome.ok.injEq]

/-- C35: of two boxes of the same dimension, the second not empty, the first contains the second exactly when it
includes all its points. -/
theorem box_contains_iff (a b : Bounds) (hd : a.dimension = b.dimension) (hb : proper b) :
    ∃ r, a.containsBounds b = .ok r ∧ (r = true ↔ within b a) := by
  obtain ⟨r, e, hr⟩ := contains_ok hd.le
  refine ⟨r, e, ?_⟩
  rw [hr, show b.ranges.take a.dimension = b.ranges by rw [hd]; exact List.take_length]
  exact ⟨within_of_sub, sub_of_within hb⟩

/-- C35: a box without NaN contains itself. -/
theorem box_contains_itself (a : Bounds) (h : numeric a) : a.containsBounds a = .ok true := by
  rw [contains_true le_rfl, show a.ranges.take a.dimension = a.ranges from List.take_length, List.forall₂_same]
  exact fun r hr => ⟨Fl.le_refl' (h r hr).1, Fl.le_refl' (h r hr).2⟩

private theorem contains_len : ∀ (l m : List Range) (f : Range → Range → Bool),
    Bounds.scan f false l m = .ok true → l.length ≤ m.length := by
  intro l
  induction l with
  | nil => simp
  | cons x xs ih =>
    intro m f h
    cases m with
    | nil => simp [Bounds.scan] at h
    | cons y ys =>
      simp only [Bounds.scan] at h
      split at h
      · simp at h
      · simpa using ih ys f h

/-- C35: containment is transitive, for boxes of any dimensions. -/
theorem box_contains_trans (a b c : Bounds) (h1 : a.containsBounds b = .ok true) (h2 : b.containsBounds c = .ok true) :
    a.containsBounds c = .ok true := by
  have d1 : a.dimension ≤ b.dimension := contains_len _ _ _ h1
  have d2 : b.dimension ≤ c.dimension := contains_len _ _ _ h2
  rw [contains_true d1] at h1
  rw [contains_true d2] at h2
  rw [contains_true (d1.trans d2)]
  have h3 : List.Forall₂ sub (b.ranges.take a.dimension) (c.ranges.take a.dimension) := by
    have := List.forall₂_take a.dimension h2
    rwa [List.take_take, Nat.min_eq_left d1] at this
  clear h2
  generalize b.ranges.take a.dimension = bl at h1 h3
  generalize c.ranges.take a.dimension = cl at h3
  generalize a.ranges = al at h1 ⊢
  induction h1 generalizing cl with
  | nil => exact h3
  | cons p _ ih =>
    cases h3 with
    | cons q q' => exact List.Forall₂.cons ⟨Fl.le_trans' p.1 q.1, Fl.le_trans' q.2 p.2⟩ (ih _ q')

private theorem clip_range (a r : Range) (h : r.minimum ≠ .nan ∧ r.maximum ≠ .nan) (v : Fl) :
    inRange (a.clip r) v ↔ inRange a v ∧ inRange r v := by
  obtain ⟨a0, a1⟩ := a
  obtain ⟨r0, r1⟩ := r
  obtain ⟨h1, h2⟩ := h
  simp only at h1 h2
  have hmin : Fl.le (Range.clip ⟨a0, a1⟩ ⟨r0, r1⟩).minimum v = true ↔ Fl.le a0 v = true ∧ Fl.le r0 v = true := by
    have e : (Range.clip ⟨a0, a1⟩ ⟨r0, r1⟩).minimum = if Fl.lt a0 r0 then r0 else a0 := by
      simp only [Range.clip]
      split <;> split <;> rfl
    rw [e]
    split
    · rename_i hl
      exact ⟨fun x => ⟨Fl.le_trans' (Fl.lt_le hl) x, x⟩, fun x => x.2⟩
    · rename_i hl
      refine ⟨fun x => ⟨x, ?_⟩, fun x => x.1⟩
      exact Fl.le_trans' (Fl.le_of_not_lt (Fl.le_num x).1 h1 hl) x
  have hmax : Fl.le v (Range.clip ⟨a0, a1⟩ ⟨r0, r1⟩).maximum = true ↔ Fl.le v a1 = true ∧ Fl.le v r1 = true := by
    have e : (Range.clip ⟨a0, a1⟩ ⟨r0, r1⟩).maximum = if Fl.lt r1 a1 then r1 else a1 := by
      simp only [Range.clip]
      split <;> simp only <;> split <;> rfl
    rw [e]
    split
    · rename_i hl
      exact ⟨fun x => ⟨Fl.le_trans' x (Fl.lt_le hl), x⟩, fun x => x.2⟩
    · rename_i hl
      refine ⟨fun x => ⟨x, ?_⟩, fun x => x.1⟩
      exact Fl.le_trans' x (Fl.le_of_not_lt h2 (Fl.le_num x).2 hl)
  simp only [inRange, hmin, hmax]
  tauto

/-- C35: clipping a box to another (numeric) box of the same dimension leaves exactly the common points. -/
theorem box_clip (a r : Bounds) (hd : a.dimension = r.dimension) (hr : numeric r) :
    ∃ c, a.clip r = .ok c ∧ ∀ v, inBox c v ↔ inBox a v ∧ inBox r v := by
  obtain ⟨a⟩ := a
  obtain ⟨r⟩ := r
  simp only [Bounds.dimension, numeric] at hd hr
  have : ∀ (a r : List Range), a.length = r.length → (∀ x ∈ r, x.minimum ≠ .nan ∧ x.maximum ≠ .nan) →
      ∃ l, Bounds.zipOp Range.clip a r = .ok l ∧
        ∀ v, List.Forall₂ inRange l v ↔ List.Forall₂ inRange a v ∧ List.Forall₂ inRange r v := by
    intro a
    induction a with
    | nil =>
      intro r hl _
      cases r with
      | nil => exact ⟨[], rfl, fun v => by simp⟩
      | cons => simp at hl
    | cons x xs ih =>
      intro r hl hn
      cases r with
      | nil => simp at hl
      | cons y ys =>
        obtain ⟨l, e, hh⟩ := ih ys (by simpa using hl) fun z hz => hn z (List.mem_cons_of_mem _ hz)
        refine ⟨x.clip y :: l, by simp [Bounds.zipOp, e], ?_⟩
        intro v
        cases v with
        | nil => simp
        | cons w ws =>
          simp only [List.forall₂_cons, hh, clip_range _ _ (hn y (by simp))]
          tauto
  obtain ⟨l, e, hh⟩ := this a r hd hr
  exact ⟨⟨l⟩, by simp [Bounds.clip, e], hh⟩

private theorem growValue_spec (a : Range) (v : Fl) (ha : Fl.le a.minimum a.maximum = true) (hv : v ≠ .nan) :
    sub (a.growValue v) a ∧ inRange (a.growValue v) v ∧
      (∀ c, sub c a → inRange c v → sub c (a.growValue v)) ∧
      Fl.le (a.growValue v).minimum (a.growValue v).maximum = true := by
  obtain ⟨a0, a1⟩ := a
  obtain ⟨n0, n1⟩ := Fl.le_num ha
  simp only at ha n0 n1
  by_cases h0 : Fl.lt v a0 = true
  · have h1 : ¬ Fl.lt a1 v = true := fun h => by
      have := Fl.lt_trans' h h0
      rw [Fl.lt_eq n1 n0, ha] at this
      simp at this
    have e : Range.growValue ⟨a0, a1⟩ v = ⟨v, a1⟩ := by simp [Range.growValue, h0, h1]
    rw [e]
    have := Fl.lt_le h0
    exact ⟨⟨this, Fl.le_refl' n1⟩, ⟨Fl.le_refl' hv, Fl.le_trans' this ha⟩, fun c h1 h2 => ⟨h2.1, h1.2⟩,
      Fl.le_trans' this ha⟩
  · have hle := Fl.le_of_not_lt hv n0 h0
    by_cases h1 : Fl.lt a1 v = true
    · have e : Range.growValue ⟨a0, a1⟩ v = ⟨a0, v⟩ := by simp [Range.growValue, h0, h1]
      rw [e]
      exact ⟨⟨Fl.le_refl' n0, Fl.lt_le h1⟩, ⟨hle, Fl.le_refl' hv⟩, fun c h1 h2 => ⟨h1.1, h2.2⟩, hle⟩
    · have e : Range.growValue ⟨a0, a1⟩ v = ⟨a0, a1⟩ := by simp [Range.growValue, h0, h1]
      rw [e]
      exact ⟨⟨Fl.le_refl' n0, Fl.le_refl' n1⟩, ⟨hle, Fl.le_of_not_lt n1 hv h1⟩, fun c h1 _ => h1, ha⟩

/-- C35: growing a non-empty three-dimensional box by a point gives the smallest box that includes both. Missing:
empty boxes, see `grow_empty_wrong`. -/
theorem box_grow_point_partial (a : Bounds) (hd : a.dimension = 3) (ha : proper a) (x y z : Fl)
    (hx : x ≠ .nan) (hy : y ≠ .nan) (hz : z ≠ .nan) :
    ∃ g, a.growXYZ x y z = .ok g ∧ smallest g a (fun v => v = [x, y, z]) := by
  obtain ⟨l⟩ := a
  match l, hd with
  | [r0, r1, r2], _ =>
    obtain ⟨s0, i0, m0, -⟩ := growValue_spec r0 x (ha r0 (by simp)) hx
    obtain ⟨s1, i1, m1, -⟩ := growValue_spec r1 y (ha r1 (by simp)) hy
    obtain ⟨s2, i2, m2, -⟩ := growValue_spec r2 z (ha r2 (by simp)) hz
    refine ⟨⟨[r0.growValue x, r1.growValue y, r2.growValue z]⟩, rfl, ?_, ?_, ?_⟩
    · exact within_of_sub (.cons s0 (.cons s1 (.cons s2 .nil)))
    · rintro v rfl
      exact .cons i0 (.cons i1 (.cons i2 .nil))
    · intro c hc hp
      have hs := sub_of_within ha hc
      have hp := hp _ rfl
      obtain ⟨c⟩ := c
      simp only [inBox] at hs hp
      cases hs with
      | cons a1 hs => cases hs with
        | cons a2 hs => cases hs with
          | cons a3 hs => cases hs with
            | nil =>
              simp only [List.forall₂_cons] at hp
              exact within_of_sub (.cons (m0 _ a1 hp.1) (.cons (m1 _ a2 hp.2.1) (.cons (m2 _ a3 hp.2.2.1) .nil)))

/-- C35: growing a non-empty box by a non-empty box of the same dimension gives the smallest box that includes both. -/
theorem box_grow_box_partial (a r : Bounds) (hd : a.dimension = r.dimension) (ha : proper a) (hr : proper r) :
    ∃ g, a.growBounds r = .ok g ∧ smallest g a (inBox r) := by
  have key : ∀ (a r : List Range), a.length = r.length → (∀ x ∈ a, Fl.le x.minimum x.maximum = true) →
      (∀ x ∈ r, Fl.le x.minimum x.maximum = true) →
      ∃ l, Bounds.zipOp Range.growRange a r = .ok l ∧ List.Forall₂ sub l a ∧ List.Forall₂ sub l r ∧
        ∀ c, List.Forall₂ sub c a → List.Forall₂ sub c r → List.Forall₂ sub c l := by
    intro a
    induction a with
    | nil =>
      intro r hl _ _
      cases r with
      | nil => exact ⟨[], rfl, .nil, .nil, fun c h _ => h⟩
      | cons => simp at hl
    | cons x xs ih =>
      intro r hl hx hy
      cases r with
      | nil => simp at hl
      | cons y ys =>
        obtain ⟨l, e, h1, h2, h3⟩ := ih ys (by simpa using hl) (fun z hz => hx z (List.mem_cons_of_mem _ hz))
          fun z hz => hy z (List.mem_cons_of_mem _ hz)
        have py := hy y (by simp)
        obtain ⟨n0, n1⟩ := Fl.le_num py
        obtain ⟨s0, i0, m0, p0⟩ := growValue_spec x y.minimum (hx x (by simp)) n0
        obtain ⟨s1, i1, m1, p1⟩ := growValue_spec (x.growValue y.minimum) y.maximum p0 n1
        refine ⟨x.growRange y :: l, by simp [Bounds.zipOp, e], .cons ?_ h1, .cons ?_ h2, ?_⟩
        · exact ⟨Fl.le_trans' s1.1 s0.1, Fl.le_trans' s0.2 s1.2⟩
        · exact ⟨Fl.le_trans' s1.1 i0.1, i1.2⟩
        · intro c hc hc'
          cases hc with
          | cons a1 a2 => cases hc' with
            | cons b1 b2 =>
              refine .cons ?_ (h3 _ a2 b2)
              exact m1 _ (m0 _ a1 ⟨b1.1, Fl.le_trans' py b1.2⟩) ⟨Fl.le_trans' b1.1 py, b1.2⟩
  obtain ⟨l, e, h1, h2, h3⟩ := key a.ranges r.ranges hd ha hr
  refine ⟨⟨l⟩, by simp [Bounds.growBounds, e], within_of_sub h1, within_of_sub h2, ?_⟩
  intro c hc hc'
  exact within_of_sub (h3 _ (sub_of_within ha hc) (sub_of_within hr hc'))

/-- A box and its points, to exhibit the hypotheses. -/
def sampleBox : Bounds := Bounds.make3 (.fin 0) (.fin (-1)) (.fin 2) (.fin 10) (.fin 5) (.fin 2)
example : proper sampleBox ∧ numeric sampleBox ∧ sampleBox.dimension = 3 := by
  unfold proper numeric; decide +kernel
example : sampleBox.containsBounds (Bounds.make3 (.fin 1) (.fin 0) (.fin 2) (.fin 9) (.fin 5) (.fin 2)) = .ok true := by
  decide +kernel

/-- C35 fails for an empty box: a default box grown by the point (-5, -5, -5) contains the point (0, 0, 0) as well,
because its maxima start at the smallest positive number. -/
theorem grow_empty_wrong :
    (∀ v, ¬ inBox ⟨List.replicate 3 Range.default⟩ v) ∧
    ∃ g, Bounds.growXYZ ⟨List.replicate 3 Range.default⟩ (.fin (-5)) (.fin (-5)) (.fin (-5)) = .ok g ∧
      inBox g [.fin 0, .fin 0, .fin 0] := by
  constructor
  · intro v hv
    simp only [inBox, List.replicate] at hv
    cases hv with
    | cons h _ =>
      have := Fl.le_trans' h.1 h.2
      exact absurd this (by decide +kernel)
  · refine ⟨_, rfl, ?_⟩
    simp only [inBox, List.forall₂_cons, inRange, List.replicate, List.Forall₂.nil, and_true]
    decide +kernel

/-- The limits of a default range: the largest double and the smallest positive normal one, by their bit patterns. -/
theorem default_range_limits : Range.default.minimum = Fl.ofBits 0x7FEFFFFFFFFFFFFF#64 ∧
    Range.default.maximum = Fl.ofBits 0x0010000000000000#64 := by decide +kernel

/-- C35 fails when growing by an empty box: the result then reaches up to the largest double. -/
theorem grow_by_empty_wrong :
    ∃ g, sampleBox.growBounds ⟨List.replicate 3 Range.default⟩ = .ok g ∧
      inBox g (List.replicate 3 (Fl.ofBits 0x7FEFFFFFFFFFFFFF#64)) := by
  have e : Fl.ofBits 0x7FEFFFFFFFFFFFFF#64 = Range.dblMax := default_range_limits.1.symm
  rw [e]
  refine ⟨_, rfl, ?_⟩
  simp only [inBox, sampleBox, Bounds.make3, List.forall₂_cons, inRange, List.replicate, List.Forall₂.nil, and_true]
  decide +kernel

private theorem scan_true (f : Range → Range → Bool) (a b : List Range) (h : a.length ≤ b.length) :
    Bounds.scan f true a b = .ok ((List.zipWith f a b).any id) := by
  induction a generalizing b with
  | nil => simp [Bounds.scan]
  | cons x xs ih =>
    cases b with
    | nil => simp at h
    | cons y ys =>
      simp only [Bounds.scan]
      by_cases hf : f x y = true
      · simp [hf]
      · rw [if_neg hf, ih ys (by simpa using h)]
        simp [hf]

/-- C35, what `intersects` does: boxes with a common point strictly inside both intersect. The converse fails
(`intersects_disjoint`) and touching boxes do not intersect (`intersects_touching`). -/
theorem box_intersects_partial (a b : Bounds) (hd : a.dimension = b.dimension) (hpos : 0 < a.dimension) (v : List Fl)
    (ha : List.Forall₂ (fun r x => Fl.lt r.minimum x = true ∧ Fl.lt x r.maximum = true) a.ranges v)
    (hb : List.Forall₂ (fun r x => Fl.lt r.minimum x = true ∧ Fl.lt x r.maximum = true) b.ranges v) :
    a.intersects b = .ok true := by
  unfold Bounds.intersects
  rw [scan_true _ _ _ hd.le]
  obtain ⟨a⟩ := a
  obtain ⟨b⟩ := b
  simp only [Bounds.dimension] at *
  cases ha with
  | nil => simp at hpos
  | cons p _ => cases hb with
    | cons q _ =>
      simp only [List.zipWith_cons_cons, List.any_cons, id_eq, Range.overlaps, Fl.lt_trans' p.1 q.2,
        Fl.lt_trans' q.1 p.2, Bool.and_self, Bool.true_or]

example : List.Forall₂ (fun (r : Range) x => Fl.lt r.minimum x = true ∧ Fl.lt x r.maximum = true)
    (Bounds.make2 (.fin 0) (.fin 0) (.fin 2) (.fin 2)).ranges [.fin 1, .fin 1] := by
  simp only [Bounds.make2, List.forall₂_cons, List.Forall₂.nil, and_true]; decide +kernel

/-- C35 fails: two disjoint boxes, one far above the other, are reported to intersect. -/
theorem intersects_disjoint :
    let a := Bounds.make2 (.fin 0) (.fin 0) (.fin 1) (.fin 1)
    let b := Bounds.make2 (.fin 0) (.fin 10) (.fin 1) (.fin 11)
    a.intersects b = .ok true ∧ ¬ ∃ v, inBox a v ∧ inBox b v := by
  refine ⟨by decide +kernel, ?_⟩
  rintro ⟨v, ha, hb⟩
  simp only [inBox, Bounds.make2] at ha hb
  cases ha with
  | cons _ ha => cases ha with
    | cons p _ => cases hb with
      | cons _ hb => cases hb with
        | cons q _ => exact absurd (Fl.le_trans' q.1 p.2) (by decide +kernel)

/-- C35 fails: two boxes that share an edge are reported not to intersect. -/
theorem intersects_touching :
    let a := Bounds.make2 (.fin 0) (.fin 0) (.fin 1) (.fin 1)
    let b := Bounds.make2 (.fin 1) (.fin 1) (.fin 2) (.fin 2)
    a.intersects b = .ok false ∧ ∃ v, inBox a v ∧ inBox b v := by
  refine ⟨by decide +kernel, [.fin 1, .fin 1], ?_, ?_⟩ <;>
  · simp only [inBox, Bounds.make2, List.forall₂_cons, inRange, List.Forall₂.nil, and_true]
    decide +kernel

/-- Comparing, clipping or growing with a box of fewer dimensions may read outside its ranges. -/
theorem box_dimension_mismatch (r : Range) (h : r.minimum ≠ .nan ∧ r.maximum ≠ .nan) :
    Bounds.containsBounds ⟨[r, r]⟩ ⟨[r]⟩ = .ub ∧ Bounds.clip ⟨[r, r]⟩ ⟨[r]⟩ = .ub ∧
      Bounds.growBounds ⟨[r, r]⟩ ⟨[r]⟩ = .ub := by
  have : r.containsRange r = true := by
    rw [containsRange_iff]; exact ⟨Fl.le_refl' h.1, Fl.le_refl' h.2⟩
  simp [Bounds.containsBounds, Bounds.scan, this, Bounds.clip, Bounds.growBounds, Bounds.zipOp]

/-- C50: the volume of a box with finite sides is 0, whatever its sides. -/
theorem box_volume_zero (a : Bounds) (h : ∀ r ∈ a.ranges, ∃ q, r.length = .fin q) : a.volume = .fin 0 := by
  unfold Bounds.volume
  have z : ∀ q, Fl.mul (.fin 0) (.fin q) = .fin 0 := by
    intro q
    simp only [Fl.mul, zero_mul]
    decide +kernel
  obtain ⟨l⟩ := a
  simp only at h ⊢
  induction l with
  | nil => rfl
  | cons r rs ih =>
    obtain ⟨q, hq⟩ := h r (by simp)
    rw [List.foldl_cons, hq, z]
    exact ih fun x hx => h x (List.mem_cons_of_mem _ hx)

/-- C50 fails: a cube of side 2 has volume 0. -/
theorem box_volume_wrong :
    (Bounds.make3 (.fin 0) (.fin 0) (.fin 0) (.fin 2) (.fin 2) (.fin 2)).volume = .fin 0 := by decide +kernel

/-- C50: a box with finite ends equals itself, and equality with a box of at least its dimensions means that all ends
of its own dimensions are within 2^-52. -/
theorem box_equal_iff (a b : Bounds) (h : a.dimension ≤ b.dimension) :
    ∃ r, a.equal b = .ok r ∧ (r = true ↔ List.Forall₂ (fun x y =>
      Point.compareDistance x.minimum y.minimum = true ∧ Point.compareDistance x.maximum y.maximum = true)
      a.ranges (b.ranges.take a.dimension)) := by
  obtain ⟨r, e, hr⟩ := scan_false_iff (fun x y => !(x.equal y)) a.ranges b.ranges h
  refine ⟨r, e, ?_⟩
  rw [hr]
  apply iff_of_eq
  congr 1
  funext x y
  simp only [Range.equal]
  cases Point.compareDistance x.minimum y.minimum <;> cases Point.compareDistance x.maximum y.maximum <;> simp

/-- C50 fails: a flat box equals any box that agrees in its dimensions, but not the other way round (undefined). -/
theorem box_equal_prefix :
    let a := Bounds.make2 (.fin 0) (.fin 0) (.fin 1) (.fin 1)
    let b := Bounds.make3 (.fin 0) (.fin 0) (.fin 5) (.fin 1) (.fin 1) (.fin 9)
    a.equal b = .ok true ∧ b.equal a = .ub := by decide +kernel

/-- C50: shift and scale apply to every dimension, and throw when the number of arguments differs from the dimension. -/
theorem box_shift_scale (a : Bounds) (ds : List Fl) :
    (ds.length ≠ a.dimension → a.shift ds = .throw .runtimeError ∧ a.scale ds = .throw .runtimeError) ∧
    (ds.length = a.dimension → ∃ s t : Bounds, a.shift ds = .ok s ∧ a.scale ds = .ok t ∧
      s.dimension = a.dimension ∧ t.dimension = a.dimension ∧
      ∀ (i : Nat) (r : Range) (d : Fl), a.ranges[i]? = some r → ds[i]? = some d →
        s.ranges[i]? = some (⟨Fl.add r.minimum d, Fl.add r.maximum d⟩ : Range) ∧
        t.ranges[i]? = some (⟨Fl.mul r.minimum d, Fl.mul r.maximum d⟩ : Range)) := by
  constructor
  · intro h
    simp [Bounds.shift, Bounds.scale, Ne.symm h]
  · intro h
    refine ⟨_, _, by simp [Bounds.shift, h]; rfl, by simp [Bounds.scale, h]; rfl, ?_, ?_, ?_⟩
    · simp [Bounds.dimension, h]
    · simp [Bounds.dimension, h]
    · intro i r d hr hd
      simp [List.getElem?_zipWith, hr, hd, Range.shift, Range.scale]

end LibLAS
