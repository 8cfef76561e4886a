import Verif.Lemmas.Summary
import Verif.Props.RoundTrip
/-
C40: point statistics.
-/
namespace LibLAS
open Spec Point

namespace Summary

/-- What the counters must be. -/
def countersRight (as : List Attrs) (s : Summary) : Prop :=
  s.count = tally as (fun _ => true) ∧
  s.classes = (List.range 32).map (fun c => tally as (fun a => a.classification.flags.toNat % 32 == c)) ∧
  s.synthetic = tally as (fun a => a.classification.flags.getLsbD 5) ∧
  s.keypoint = tally as (fun a => a.classification.flags.getLsbD 6) ∧
  s.withheld = tally as (fun a => a.classification.flags.getLsbD 7) ∧
  s.pointsByReturn = (List.range 8).map (fun r => tally as (fun a => a.returnNumber == r)) ∧
  s.returnsOfPulse = (List.range 8).map (fun r => tally as (fun a => a.numberOfReturns == r))

/-- A header given to the summary before the points is that of the points (`none`: no header given). -/
def headerFits (given : Option PHeader) (p : Point) : Prop :=
  ∀ h, given = some h → p.hdr = h ∧ p.data.length = h.recLen ∧ sameScaling h h = true

private theorem zero_of_sum : ∀ (l : List Byte), (l.map BitVec.toNat).sum = 0 → ∀ x ∈ l, x.toNat = 0
  | [], _, x, hx => by simp at hx
  | y :: l, h, x, hx => by
    simp only [List.map_cons, List.sum_cons] at h
    rcases List.mem_cons.1 hx with rfl | hx
    · omega
    · exact zero_of_sum l (by omega) x hx

private theorem setHeader_self {b : Build} {p : Point} {h : PHeader} (h1 : p.hdr = h) (h2 : p.data.length = h.recLen)
    (h3 : sameScaling h h = true) : p.setHeader b h = .ok p := by
  unfold Point.setHeader
  split
  · rename_i hz
    unfold byteSum at hz
    have : p.data = List.replicate h.recLen 0#8 := by
      rw [← h2]
      rw [List.eq_replicate_iff]
      refine ⟨rfl, fun x hx => ?_⟩
      have := zero_of_sum _ hz x hx
      exact BitVec.eq_of_toNat_eq (by simpa using this)
    rw [← this, ← h1]
  · have : ¬ (h.recLen ≠ p.data.length) := by simp [h2]
    simp only [this, if_false, h1, h3, Bool.not_true, Bool.false_eq_true, Outcome.pure_eq, Outcome.bind_ok]
    rw [← h1]

private theorem prepare_first {b : Build} {s : Summary} {p : Point} (he : s.ext = none) (hg : headerFits s.header p) :
    prepare b s p = .ok (⟨p, p⟩, p.hdr.hasTimeDim, p.hdr.hasRedDim) := by
  unfold prepare
  rw [he]
  cases hh : s.header with
  | none => rfl
  | some h =>
    obtain ⟨h1, h2, h3⟩ := hg h hh
    simp only [firstPair, setHeader_self h1 h2 h3, Outcome.bind_ok, Outcome.pure_eq, adoptScaling]
    have : (⟨h.fmt, h.recLen, h.hasTimeDim, h.hasRedDim, p.hdr.scale, p.hdr.offset⟩ : PHeader) = p.hdr := by
      rw [h1]
    rw [this]

/-- The part of the state that does not depend on the extremes. -/
private theorem counters_step {as : List Attrs} {s s' : Summary} {a : Attrs} {cls byR ofP : List (BitVec 32)}
    (h : countersRight as s) (hs : s' = ⟨cls, addFlag s.synthetic a.classification.isSynthetic,
      addFlag s.withheld a.classification.isWithheld, addFlag s.keypoint a.classification.isKeyPoint, s.count + 1,
      byR, ofP, s'.ext, s'.header, s'.haveColor, s'.haveTime⟩)
    (hc : cls = table 32 fun c => tally (as ++ [a]) (fun a => a.classification.flags.toNat % 32 == c))
    (hr : byR = table 8 fun r => tally (as ++ [a]) (fun a => a.returnNumber == r))
    (hp : ofP = table 8 fun r => tally (as ++ [a]) (fun a => a.numberOfReturns == r)) :
    countersRight (as ++ [a]) s' := by
  obtain ⟨h1, h2, h3, h4, h5, h6, h7⟩ := h
  have hf : ∀ c : Classification, c.isSynthetic = c.flags.getLsbD 5 ∧ c.isKeyPoint = c.flags.getLsbD 6 ∧
      c.isWithheld = c.flags.getLsbD 7 := by
    intro ⟨f⟩; revert f; decide +kernel
  obtain ⟨f5, f6, f7⟩ := hf a.classification
  rw [hs]
  refine ⟨?_, hc, ?_, ?_, ?_, hr, hp⟩
  · rw [tally_snoc]; simp [h1]
  · rw [tally_snoc]; simp only [addFlag, f5, h3]
  · rw [tally_snoc]; simp only [addFlag, f6, h4]
  · rw [tally_snoc]; simp only [addFlag, f7, h5]

/-- What holds after the points `as`. -/
private structure Inv (b : Build) (f : PointFormat) (first : PHeader) (as : List Attrs) (s : Summary) : Prop where
  ext : ∃ e lo hi, s.ext = some e ∧ Tracks b f first first e lo hi ∧ numericExtremes as lo hi ∧
    ((∀ a ∈ as, timeOf a ≠ .nan) → timeExtremes as lo hi)
  time : s.haveTime = hasTime f
  color : s.haveColor = hasColor f
  counters : countersRight as s

private theorem add_core {b : Build} {f : PointFormat} {first : PHeader} {as : List Attrs} {s : Summary} {p : Point}
    {a : Attrs} {e : Extremes} {A C : Attrs} (hp : Shows b f p a)
    (hprep : prepare b s p = .ok (e, hasTime f, hasColor f)) (ht : Tracks b f first first e A C)
    (hc : countersRight as s)
    (hn : numericExtremes (as ++ [a]) (lowAttrs f a A) (highAttrs f a C))
    (htm : (∀ x ∈ as ++ [a], timeOf x ≠ .nan) → timeExtremes (as ++ [a]) (lowAttrs f a A) (highAttrs f a C)) :
    ∃ s', addPoint b s p = .ok s' ∧ s'.header = s.header ∧ Inv b f first (as ++ [a]) s' := by
  obtain ⟨e', r, t⟩ := stepAll_spec hp ht
  have P := parts hp.2.2
  have hk := packed_lt hp.1 hp.2.2
  obtain ⟨rn, grn, hrn⟩ := P.rn
  obtain ⟨nr, gnr, hnr⟩ := P.nr
  have hc' := hc
  obtain ⟨h1, h2, h3, h4, h5, h6, h7⟩ := hc
  have b1 : bump s.classes a.classification.getClass.toNat = .ok (table 32 fun c =>
      tally (as ++ [a]) (fun a => a.classification.flags.toNat % 32 == c)) := by
    rw [h2]
    refine bump_table (by rw [getClass_toNat]; omega) (fun j => ?_)
    rw [tally_snoc, getClass_toNat]
    by_cases hj : j = a.classification.flags.toNat % 32
    · simp [hj]
    · have : ¬ (a.classification.flags.toNat % 32 = j) := fun e => hj e.symm
      simp [hj, this]
  have b2 : bump s.pointsByReturn rn.toNat = .ok (table 8 fun c => tally (as ++ [a]) (fun a => a.returnNumber == c)) := by
    rw [h6]
    refine bump_table (by omega) (fun j => ?_)
    rw [tally_snoc, hrn]
    by_cases hj : j = a.returnNumber
    · simp [hj]
    · have : ¬ (a.returnNumber = j) := fun e => hj e.symm
      simp [hj, this]
  have b3 : bump s.returnsOfPulse nr.toNat =
      .ok (table 8 fun c => tally (as ++ [a]) (fun a => a.numberOfReturns == c)) := by
    rw [h7]
    refine bump_table (by omega) (fun j => ?_)
    rw [tally_snoc, hnr]
    by_cases hj : j = a.numberOfReturns
    · simp [hj]
    · have : ¬ (a.numberOfReturns = j) := fun e => hj e.symm
      simp [hj, this]
  unfold addPoint
  simp only [hprep, Outcome.bind_ok, r, P.c, b1, grn, b2, gnr, b3, Outcome.pure_eq]
  exact ⟨_, rfl, rfl, ⟨e', _, _, rfl, t, hn, htm⟩, rfl, rfl, counters_step hc' rfl rfl rfl rfl⟩

private theorem add_first {b : Build} {f : PointFormat} {s : Summary} {p : Point} {a : Attrs} (hp : Shows b f p a)
    (hd : p.hdr.hasTimeDim = hasTime f ∧ p.hdr.hasRedDim = hasColor f)
    (he : s.ext = none) (hg : headerFits s.header p) (hc : countersRight [] s) :
    ∃ s', addPoint b s p = .ok s' ∧ s'.header = s.header ∧ Inv b f p.hdr [a] s' := by
  have hprep := prepare_first (b := b) he hg
  rw [hd.1, hd.2] at hprep
  refine add_core (as := []) hp hprep ⟨hp, hp, rfl, rfl⟩ hc ?_ ?_
  · rw [lowAttrs_self, highAttrs_self]; exact numeric_single a
  · intro h; rw [lowAttrs_self, highAttrs_self]; exact time_single (h a (by simp))

private theorem add_next {b : Build} {f : PointFormat} {first : PHeader} {as : List Attrs} {s : Summary} {p : Point}
    {a : Attrs} (hp : Shows b f p a) (hi : Inv b f first as s) :
    ∃ s', addPoint b s p = .ok s' ∧ s'.header = s.header ∧ Inv b f first (as ++ [a]) s' := by
  obtain ⟨⟨e, lo, hi', he, ht, hn, htm⟩, h1, h2, h3⟩ := hi
  refine add_core (e := e) (A := lo) (C := hi') hp (by simp [prepare, he, h1, h2]) ht h3 ?_ ?_
  · exact numeric_snoc hp.reg ht.mn.reg ht.mx.reg hn
  · intro h
    exact time_snoc hp.reg ht.mn.reg ht.mx.reg (h a (by simp)) (htm (fun x hx => h x (by simp [hx])))

private theorem add_rest {b : Build} {f : PointFormat} {first : PHeader} :
    ∀ (ps : List Point) (as done : List Attrs) (s : Summary), (∀ p ∈ ps, p.WF ∧ p.hdr.fmt = f) →
      ps.map (observe b) = as.map .ok → Inv b f first done s →
      ∃ s', addAll b ps s = .ok s' ∧ Inv b f first (done ++ as) s' := by
  intro ps
  induction ps with
  | nil =>
    intro as done s _ ho hi
    have : as = [] := by simpa using ho.symm
    subst this
    exact ⟨s, rfl, by simpa using hi⟩
  | cons p ps ih =>
    intro as done s hw ho hi
    cases as with
    | nil => simp at ho
    | cons a as =>
      simp only [List.map_cons, List.cons.injEq] at ho
      obtain ⟨s1, h1, _, h2⟩ := add_next ⟨(hw p (by simp)).1, (hw p (by simp)).2, ho.1⟩ hi
      obtain ⟨s2, h3, h4⟩ := ih as (done ++ [a]) s1 (fun q hq => hw q (by simp [hq])) ho.2 h2
      refine ⟨s2, ?_, by simpa using h4⟩
      simp only [addAll, h1, Outcome.bind_ok, h3]

/-- A summary before the first point, with or without a header given. -/
def start : Option PHeader → Summary
  | none => new
  | some h => new.setHeader h

private theorem start_counters (g : Option PHeader) : countersRight [] (start g) := by
  cases g <;> exact ⟨rfl, rfl, rfl, rfl, rfl, rfl, rfl⟩

/-- C40: after adding any non-empty sequence of points of one format, every counter is the number of points with the
property (modulo 2^32), and minimum and maximum show the true extremes of every attribute, in the first point's
scaling. Missing: points of different formats or scalings (`mixed_scales_wrong`), undefined times
(`nan_time_order`), a header given beforehand that is not that of the points (`given_header_wrong`). -/
theorem summary_exact_partial (b : Build) (f : PointFormat) (given : Option PHeader) (p : Point) (ps : List Point)
    (as : List Attrs) (hw : ∀ q ∈ p :: ps, q.WF ∧ q.hdr.fmt = f) (ho : (p :: ps).map (observe b) = as.map .ok)
    (hd : p.hdr.hasTimeDim = hasTime f ∧ p.hdr.hasRedDim = hasColor f) (hg : headerFits given p) :
    ∃ s e lo hi, addAll b (p :: ps) (start given) = .ok s ∧ countersRight as s ∧ s.ext = some e ∧
      observe b e.minimum = .ok lo ∧ observe b e.maximum = .ok hi ∧ e.minimum.hdr = p.hdr ∧ e.maximum.hdr = p.hdr ∧
      numericExtremes as lo hi ∧ ((∀ a ∈ as, timeOf a ≠ .nan) → timeExtremes as lo hi) := by
  cases as with
  | nil => simp at ho
  | cons a as =>
    simp only [List.map_cons, List.cons.injEq] at ho
    have hst : (start given).ext = none ∧ (start given).header = given := by cases given <;> exact ⟨rfl, rfl⟩
    obtain ⟨s1, h1, _, h2⟩ := add_first ⟨(hw p (by simp)).1, (hw p (by simp)).2, ho.1⟩ hd hst.1
      (by rw [hst.2]; exact hg) (start_counters given)
    obtain ⟨s2, h3, h4⟩ := add_rest ps as [a] s1 (fun q hq => hw q (by simp [hq])) ho.2 h2
    obtain ⟨⟨e, lo, hi, he, ht, hn, htm⟩, _, _, hc⟩ := h4
    refine ⟨s2, e, lo, hi, ?_, hc, he, ht.mn.2.2, ht.mx.2.2, ht.hmn, ht.hmx, hn, htm⟩
    simp only [addAll, h1, Outcome.bind_ok, h3]

private theorem tally_perm {as as' : List Attrs} (h : as.Perm as') (p : Attrs → Bool) : tally as p = tally as' p := by
  unfold tally; rw [h.countP_eq]

private theorem smallest_unique {key : Attrs → Int} {as as' : List Attrs} (h : as.Perm as') {v w : Int}
    (h1 : isSmallest key as v) (h2 : isSmallest key as' w) : v = w := by
  obtain ⟨⟨x, hx, ex⟩, h1⟩ := h1
  obtain ⟨⟨y, hy, ey⟩, h2⟩ := h2
  have := h1 y (h.mem_iff.2 hy)
  have := h2 x (h.mem_iff.1 hx)
  omega

private theorem largest_unique {key : Attrs → Int} {as as' : List Attrs} (h : as.Perm as') {v w : Int}
    (h1 : isLargest key as v) (h2 : isLargest key as' w) : v = w := by
  obtain ⟨⟨x, hx, ex⟩, h1⟩ := h1
  obtain ⟨⟨y, hy, ey⟩, h2⟩ := h2
  have := h1 y (h.mem_iff.2 hy)
  have := h2 x (h.mem_iff.1 hx)
  omega

private theorem fl_antisymm {a b : Fl} (h1 : Fl.le a b = true) (h2 : Fl.le b a = true) : a = b := by
  rcases a with _ | (_ | _) | a <;> rcases b with _ | (_ | _) | b <;> simp [Fl.le] at h1 h2 ⊢
  exact le_antisymm h1 h2

/-- C40: the result does not depend on the order of the points: counters are equal, and minimum and maximum show the
same integer attributes and, without undefined times, the same times (as numbers). Same missing parts as
`summary_exact_partial`; the flag bits of the class byte of the extreme points do depend on the order
(`class_flags_order`). -/
theorem summary_order_partial (b : Build) (f : PointFormat) (ps ps' : List Point) (hperm : ps.Perm ps') (hne : ps ≠ [])
    (hw : ∀ q ∈ ps, q.WF ∧ q.hdr.fmt = f ∧ q.hdr.hasTimeDim = hasTime f ∧ q.hdr.hasRedDim = hasColor f)
    (hnan : ∀ q ∈ ps, ∀ a, observe b q = .ok a → timeOf a ≠ .nan) :
    ∃ s s' e e' lo hi lo' hi', addAll b ps new = .ok s ∧ addAll b ps' new = .ok s' ∧
      s.count = s'.count ∧ s.classes = s'.classes ∧ s.synthetic = s'.synthetic ∧ s.withheld = s'.withheld ∧
      s.keypoint = s'.keypoint ∧ s.pointsByReturn = s'.pointsByReturn ∧ s.returnsOfPulse = s'.returnsOfPulse ∧
      s.ext = some e ∧ s'.ext = some e' ∧
      observe b e.minimum = .ok lo ∧ observe b e.maximum = .ok hi ∧
      observe b e'.minimum = .ok lo' ∧ observe b e'.maximum = .ok hi' ∧
      (∀ key ∈ numericAttrs, key lo = key lo' ∧ key hi = key hi') ∧
      timeOf lo = timeOf lo' ∧ timeOf hi = timeOf hi' := by
  have hmap : ∀ l : List Point, (∀ q ∈ l, q.WF ∧ q.hdr.fmt = f ∧ q.hdr.hasTimeDim = hasTime f ∧
      q.hdr.hasRedDim = hasColor f) → l.map (observe b) = (l.map fun q => view b q.hdr.fmt q.data).map .ok := by
    intro l hl
    rw [List.map_map]
    exact List.map_congr_left (fun q hq => observe_eq (hl q hq).1)
  have hw' : ∀ q ∈ ps', q.WF ∧ q.hdr.fmt = f ∧ q.hdr.hasTimeDim = hasTime f ∧ q.hdr.hasRedDim = hasColor f :=
    fun q hq => hw q (hperm.mem_iff.2 hq)
  have hP := hperm.map (fun q => view b q.hdr.fmt q.data)
  have hnan1 : ∀ a ∈ ps.map (fun q => view b q.hdr.fmt q.data), timeOf a ≠ .nan := by
    intro a ha
    obtain ⟨q, hq, rfl⟩ := List.mem_map.1 ha
    exact hnan q hq _ (observe_eq (hw q hq).1)
  have hnan2 : ∀ a ∈ ps'.map (fun q => view b q.hdr.fmt q.data), timeOf a ≠ .nan :=
    fun a ha => hnan1 a (hP.mem_iff.2 ha)
  have m1 := hmap ps hw
  have m2 := hmap ps' hw'
  have hne' : ps' ≠ [] := fun h => hne (by rw [h] at hperm; exact hperm.eq_nil)
  generalize ps.map (fun q => view b q.hdr.fmt q.data) = as at *
  generalize ps'.map (fun q => view b q.hdr.fmt q.data) = as' at *
  obtain ⟨p, t, rfl⟩ := List.exists_cons_of_ne_nil hne
  obtain ⟨p', t', rfl⟩ := List.exists_cons_of_ne_nil hne'
  obtain ⟨s, e, lo, hi, r, c, x, o1, o2, _, _, n, tm⟩ := summary_exact_partial b f none p t as
    (fun q hq => ⟨(hw q hq).1, (hw q hq).2.1⟩) m1 (hw p (by simp)).2.2 (fun h hh => by simp at hh)
  obtain ⟨s', e', lo', hi', r', c', x', o1', o2', _, _, n', tm'⟩ := summary_exact_partial b f none p' t' as'
    (fun q hq => ⟨(hw' q hq).1, (hw' q hq).2.1⟩) m2 (hw' p' (by simp)).2.2 (fun h hh => by simp at hh)
  obtain ⟨c1, c2, c3, c4, c5, c6, c7⟩ := c
  obtain ⟨d1, d2, d3, d4, d5, d6, d7⟩ := c'
  obtain ⟨⟨y1, hy1, z1⟩, l1, ⟨y2, hy2, z2⟩, l2⟩ := tm hnan1
  obtain ⟨⟨y3, hy3, z3⟩, l3, ⟨y4, hy4, z4⟩, l4⟩ := tm' hnan2
  simp only [tally_perm hP] at c1 c2 c3 c4 c5 c6 c7
  refine ⟨s, s', e, e', lo, hi, lo', hi', r, r', c1.trans d1.symm, c2.trans d2.symm, c3.trans d3.symm,
    c5.trans d5.symm, c4.trans d4.symm, c6.trans d6.symm, c7.trans d7.symm, x, x', o1, o2, o1', o2', ?_, ?_, ?_⟩
  · intro key hk
    exact ⟨smallest_unique hP (n key hk).1 (n' key hk).1, largest_unique hP (n key hk).2 (n' key hk).2⟩
  · have a1 := l1 y3 (hP.mem_iff.2 hy3); have a2 := l3 y1 (hP.mem_iff.1 hy1)
    rw [z3] at a1; rw [z1] at a2
    exact fl_antisymm a1 a2
  · have a1 := l2 y4 (hP.mem_iff.2 hy4); have a2 := l4 y2 (hP.mem_iff.1 hy2)
    rw [z4] at a1; rw [z2] at a2
    exact fl_antisymm a2 a1

/-! Examples and the cases where the claim fails. -/

private def pc : Build := ⟨.little, false⟩
private def h1 : PHeader := ⟨.f1, 28, true, false, ⟨.fin 1, .fin 1, .fin 1⟩, ⟨.fin 0, .fin 0, .fin 0⟩⟩
private def h1half : PHeader := ⟨.f1, 28, true, false, ⟨.fin (1/2), .fin 1, .fin 1⟩, ⟨.fin 0, .fin 0, .fin 0⟩⟩
/-- A format 1 point with the given low byte of the raw x, class byte and last two bytes of the time. -/
private def pt (h : PHeader) (x cls t6 t7 : Byte) : Point :=
  ⟨[x, 0#8, 0#8, 0#8] ++ List.replicate 10 0#8 ++ [0x09#8, cls] ++ List.replicate 10 0#8 ++ [t6, t7], h⟩

private theorem pt_wf (h : PHeader) (x cls t6 t7 : Byte) (hf : h.fmt = .f1) : (pt h x cls t6 t7).WF := by
  refine ⟨?_, ?_⟩
  · show h.fmt.std = true; rw [hf]; rfl
  · show formatSize h.fmt ≤ _; rw [hf]; simp [pt, formatSize]

/-- The hypotheses of the theorems are met, with and without a header given. -/
example : (∀ q ∈ [pt h1 5#8 2#8 0xF0#8 0x3F#8, pt h1 200#8 0x26#8 0#8 0x40#8], q.WF ∧ q.hdr.fmt = .f1 ∧
    q.hdr.hasTimeDim = hasTime .f1 ∧ q.hdr.hasRedDim = hasColor .f1) ∧
    headerFits none (pt h1 5#8 2#8 0xF0#8 0x3F#8) ∧ headerFits (some h1) (pt h1 5#8 2#8 0xF0#8 0x3F#8) := by
  refine ⟨?_, by intro h hh; simp at hh, ?_⟩
  · intro q hq
    simp only [List.mem_cons, List.not_mem_nil, or_false] at hq
    rcases hq with rfl | rfl <;> exact ⟨pt_wf _ _ _ _ _ rfl, rfl, rfl, rfl⟩
  · intro h hh; cases hh; exact ⟨rfl, rfl, by decide +kernel⟩

/-- The extreme points of a summary. -/
private def extOf (s : Summary) : Extremes := s.ext.getD ⟨pt h1 0 0 0 0, pt h1 0 0 0 0⟩

/-- C40 refuted: with a time that is not a number, the earliest time depends on the order of the points. -/
theorem nan_time_order :
    ((addAll pc [pt h1 0 0 0xF0 0x3F, pt h1 0 0 0xF8 0x7F] new).check fun s =>
      decide ((extOf s).minimum.getTime pc = .ok 0x3FF0000000000000#64)) = true ∧
    ((addAll pc [pt h1 0 0 0xF8 0x7F, pt h1 0 0 0xF0 0x3F] new).check fun s =>
      decide ((extOf s).minimum.getTime pc = .ok 0x7FF8000000000000#64)) = true := by
  decide +kernel

/-- C40 refuted: points with different scales are compared by their raw integers, so the reported minimum (5) is larger
than the coordinate 3 of one of the points. -/
theorem mixed_scales_wrong :
    (pt h1half 6 0 0 0).getX pc = .ok (.fin 3) ∧
    ((addAll pc [pt h1 5 0 0 0, pt h1half 6 0 0 0] new).check fun s =>
      decide ((extOf s).minimum.getX pc = .ok (.fin 5))) = true := by
  decide +kernel

/-- C40 refuted: with a header of another scale given beforehand, the reported maximum is 20 although the points are at
10 and 12: the copies are converted to the given scale, and then the given header takes the points' scale. -/
theorem given_header_wrong :
    (pt h1 10 0 0 0).getX pc = .ok (.fin 10) ∧ (pt h1 12 0 0 0).getX pc = .ok (.fin 12) ∧
    ((addAll pc [pt h1 10 0 0 0, pt h1 12 0 0 0] (new.setHeader h1half)).check fun s =>
      decide ((extOf s).maximum.getX pc = .ok (.fin 20))) = true := by
  decide +kernel

/-- The flag bits of the class byte of the minimum depend on the order of the points. -/
theorem class_flags_order :
    ((addAll pc [pt h1 0 0x02 0 0, pt h1 0 0x22 0 0] new).check fun s =>
      decide ((extOf s).minimum.getClassification = .ok ⟨0x02⟩)) = true ∧
    ((addAll pc [pt h1 0 0x22 0 0, pt h1 0 0x02 0 0] new).check fun s =>
      decide ((extOf s).minimum.getClassification = .ok ⟨0x22⟩)) = true := by
  decide +kernel

end Summary

namespace CoordinateSummary

/-- What the counters must be. -/
def countersRight (as : List Attrs) (s : CoordinateSummary) : Prop :=
  s.count = tally as (fun _ => true) ∧
  s.pointsByReturn = (List.range 8).map (fun r => tally as (fun a => a.returnNumber == r)) ∧
  s.returnsOfPulse = (List.range 8).map (fun r => tally as (fun a => a.numberOfReturns == r))

/-- The coordinates. -/
def coordinateAttrs : List (Attrs → Int) := [fun a => a.rawX.toInt, fun a => a.rawY.toInt, fun a => a.rawZ.toInt]

/-- `lo` and `hi` hold the extremes of the three coordinates. -/
def coordinateExtremes (as : List Attrs) (lo hi : Attrs) : Prop :=
  ∀ key ∈ coordinateAttrs, isSmallest key as (key lo) ∧ isLargest key as (key hi)

open Summary

private structure Inv (b : Build) (f : PointFormat) (first : PHeader) (as : List Attrs) (s : CoordinateSummary) :
    Prop where
  ext : ∃ e lo hi, s.ext = some e ∧ Tracks b f first first e lo hi ∧ coordinateExtremes as lo hi
  counters : countersRight as s

private theorem stepCoords_spec {b : Build} {f : PointFormat} {p : Point} {a : Attrs} {e : Extremes} {A C : Attrs}
    {hmn hmx : PHeader} (hp : Shows b f p a) (ht : Tracks b f hmn hmx e A C) :
    ∃ e' A' C', Extremes.stepCoords b p e = .ok e' ∧ Tracks b f hmn hmx e' A' C' ∧
      (∀ key ∈ coordinateAttrs, key A' = min (key a) (key A)) ∧
      (∀ key ∈ coordinateAttrs, key C' = max (key a) (key C)) := by
  obtain ⟨e1, r1, t1⟩ := step_plain (lt := Extremes.slt) (fun a => a.rawX) .rawX (fun _ => rfl) (fun q c h => h.x)
    (set := Point.setRawX b) (fun _ _ => rfl) hp ht
  replace t1 := tracks_congr (A' := { A with rawX := low Extremes.slt a.rawX A.rawX })
    (C' := { C with rawX := high Extremes.slt a.rawX C.rawX }) t1
    (by simp only [low, apply]; split <;> rfl) (by simp only [high, apply]; split <;> rfl)
  obtain ⟨e2, r2, t2⟩ := step_plain (lt := Extremes.slt) (fun a => a.rawY) .rawY (fun _ => rfl) (fun q c h => h.y)
    (set := Point.setRawY b) (fun _ _ => rfl) hp t1
  replace t2 := tracks_congr (A' := { A with
      rawX := low Extremes.slt a.rawX A.rawX
      rawY := low Extremes.slt a.rawY A.rawY })
    (C' := { C with
      rawX := high Extremes.slt a.rawX C.rawX
      rawY := high Extremes.slt a.rawY C.rawY }) t2
    (by simp only [low, apply]; split <;> rfl) (by simp only [high, apply]; split <;> rfl)
  obtain ⟨e3, r3, t3⟩ := step_plain (lt := Extremes.slt) (fun a => a.rawZ) .rawZ (fun _ => rfl) (fun q c h => h.z)
    (set := Point.setRawZ b) (fun _ _ => rfl) hp t2
  replace t3 := tracks_congr (A' := { A with
      rawX := low Extremes.slt a.rawX A.rawX
      rawY := low Extremes.slt a.rawY A.rawY
      rawZ := low Extremes.slt a.rawZ A.rawZ })
    (C' := { C with
      rawX := high Extremes.slt a.rawX C.rawX
      rawY := high Extremes.slt a.rawY C.rawY
      rawZ := high Extremes.slt a.rawZ C.rawZ }) t3
    (by simp only [low, apply]; split <;> rfl) (by simp only [high, apply]; split <;> rfl)
  refine ⟨e3, _, _, by simp only [Extremes.stepCoords, r1, r2, r3, Outcome.bind_ok], t3, ?_, ?_⟩
  · simp only [coordinateAttrs, List.forall_mem_cons]
    exact ⟨low_slt _ _, low_slt _ _, low_slt _ _, by simp⟩
  · simp only [coordinateAttrs, List.forall_mem_cons]
    exact ⟨high_slt _ _, high_slt _ _, high_slt _ _, by simp⟩

private theorem add_core {b : Build} {f : PointFormat} {first : PHeader} {as : List Attrs} {s : CoordinateSummary}
    {p : Point} {a : Attrs} {e : Extremes} {A C : Attrs} (hp : Shows b f p a)
    (hprep : prepare b s p = .ok e) (ht : Tracks b f first first e A C) (hc : countersRight as s)
    (hn : ∀ key ∈ coordinateAttrs, isSmallest key (as ++ [a]) (min (key a) (key A)) ∧
      isLargest key (as ++ [a]) (max (key a) (key C))) :
    ∃ s', addPoint b s p = .ok s' ∧ Inv b f first (as ++ [a]) s' := by
  obtain ⟨e', A', C', r, t, k1, k2⟩ := stepCoords_spec hp ht
  have P := parts hp.2.2
  have hk := packed_lt hp.1 hp.2.2
  obtain ⟨rn, grn, hrn⟩ := P.rn
  obtain ⟨nr, gnr, hnr⟩ := P.nr
  obtain ⟨h1, h6, h7⟩ := hc
  have b2 : bump s.pointsByReturn rn.toNat = .ok (table 8 fun c => tally (as ++ [a]) (fun a => a.returnNumber == c)) := by
    rw [h6]
    refine bump_table (by omega) (fun j => ?_)
    rw [tally_snoc, hrn]
    by_cases hj : j = a.returnNumber
    · simp [hj]
    · have : ¬ (a.returnNumber = j) := fun e => hj e.symm
      simp [hj, this]
  have b3 : bump s.returnsOfPulse nr.toNat =
      .ok (table 8 fun c => tally (as ++ [a]) (fun a => a.numberOfReturns == c)) := by
    rw [h7]
    refine bump_table (by omega) (fun j => ?_)
    rw [tally_snoc, hnr]
    by_cases hj : j = a.numberOfReturns
    · simp [hj]
    · have : ¬ (a.numberOfReturns = j) := fun e => hj e.symm
      simp [hj, this]
  unfold addPoint
  simp only [hprep, Outcome.bind_ok, r, b2, grn, gnr, b3, Outcome.pure_eq]
  refine ⟨_, rfl, ⟨e', A', C', rfl, t, ?_⟩, ?_, rfl, rfl⟩
  · intro key hkey
    rw [k1 key hkey, k2 key hkey]; exact hn key hkey
  · rw [tally_snoc]; simp [h1]

private theorem add_rest {b : Build} {f : PointFormat} {first : PHeader} :
    ∀ (ps : List Point) (as done : List Attrs) (s : CoordinateSummary), (∀ p ∈ ps, p.WF ∧ p.hdr.fmt = f) →
      ps.map (observe b) = as.map .ok → Inv b f first done s →
      ∃ s', addAll b ps s = .ok s' ∧ Inv b f first (done ++ as) s' := by
  intro ps
  induction ps with
  | nil =>
    intro as done s _ ho hi
    have : as = [] := by simpa using ho.symm
    subst this
    exact ⟨s, rfl, by simpa using hi⟩
  | cons p ps ih =>
    intro as done s hw ho hi
    cases as with
    | nil => simp at ho
    | cons a as =>
      simp only [List.map_cons, List.cons.injEq] at ho
      obtain ⟨⟨e, lo, hi', he, ht, hn⟩, hc⟩ := hi
      obtain ⟨s1, h1, h2⟩ := add_core (a := a) (as := done) (e := e) ⟨(hw p (by simp)).1, (hw p (by simp)).2, ho.1⟩
        (by simp [prepare, he]) ht hc
        (fun key hk => ⟨smallest_snoc (hn key hk).1 rfl, largest_snoc (hn key hk).2 rfl⟩)
      obtain ⟨s2, h3, h4⟩ := ih as (done ++ [a]) s1 (fun q hq => hw q (by simp [hq])) ho.2 h2
      refine ⟨s2, ?_, by simpa using h4⟩
      simp only [addAll, h1, Outcome.bind_ok, h3]

/-- C40 for coordinate summaries (without a header given): counters and coordinate extremes are exact for every
non-empty sequence of points of one format. -/
theorem coordinate_summary_exact_partial (b : Build) (f : PointFormat) (p : Point) (ps : List Point)
    (as : List Attrs) (hw : ∀ q ∈ p :: ps, q.WF ∧ q.hdr.fmt = f) (ho : (p :: ps).map (observe b) = as.map .ok) :
    ∃ s e lo hi, addAll b (p :: ps) new = .ok s ∧ countersRight as s ∧ s.ext = some e ∧
      observe b e.minimum = .ok lo ∧ observe b e.maximum = .ok hi ∧ e.minimum.hdr = p.hdr ∧ e.maximum.hdr = p.hdr ∧
      coordinateExtremes as lo hi := by
  cases as with
  | nil => simp at ho
  | cons a as =>
    simp only [List.map_cons, List.cons.injEq] at ho
    have hp : Shows b f p a := ⟨(hw p (by simp)).1, (hw p (by simp)).2, ho.1⟩
    obtain ⟨s1, h1, h2⟩ := add_core (s := new) (as := []) (e := ⟨p, p⟩) hp rfl ⟨hp, hp, rfl, rfl⟩ ⟨rfl, rfl, rfl⟩
      (fun key _ => ⟨⟨⟨a, by simp, by simp⟩, by simp⟩, ⟨⟨a, by simp, by simp⟩, by simp⟩⟩)
    obtain ⟨s2, h3, h4⟩ := add_rest ps as [a] s1 (fun q hq => hw q (by simp [hq])) ho.2 h2
    obtain ⟨⟨e, lo, hi, he, ht, hn⟩, hc⟩ := h4
    refine ⟨s2, e, lo, hi, ?_, hc, he, ht.mn.2.2, ht.mx.2.2, ht.hmn, ht.hmx, hn⟩
    simp only [addAll, h1, Outcome.bind_ok, h3]

end CoordinateSummary
end LibLAS
