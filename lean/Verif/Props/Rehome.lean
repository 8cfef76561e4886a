import Verif.Props.Coord
/-
C08: re-homing a point to another header (`Point::SetHeader`).
-/
set_option linter.unusedSimpArgs false
namespace LibLAS
open Spec Fl

/-- A header whose record length holds its format and whose schema has the dimensions "Time" and "Red" exactly when
the format stores them (true of every header built through the API without user dimensions of those names). -/
def PHeader.Coherent (h : PHeader) : Prop :=
  h.fmt.std = true ∧ formatSize h.fmt ≤ h.recLen ∧ h.hasTimeDim = hasTime h.fmt ∧ h.hasRedDim = hasColor h.fmt

namespace Point

/-- What must survive: everything both formats store; time and colour become 0 and black when the new format lacks
them. Coordinates are given by the integers `x y z`. -/
def rehomed (a : Attrs) (f : PointFormat) (x y z : BitVec 32) : Attrs :=
  { a with
    rawX := x, rawY := y, rawZ := z
    time := if hasTime f then a.time else 0
    color := if hasColor f then a.color else ⟨0, 0, 0⟩ }

private theorem scan_flags {b : Build} {p q : Point} {a c : Attrs} (hp : p.WF) (hq : q.WF)
    (ha : observe b p = .ok a) (hc : observe b q = .ok c) :
    ∃ f q', getScanFlags p = .ok f ∧ setScanFlags q f = .ok q' ∧ q'.WF ∧ q'.hdr = q.hdr ∧
      q'.data.length = q.data.length ∧
      observe b q' = .ok { c with returnNumber := a.returnNumber, numberOfReturns := a.numberOfReturns,
                                  scanDirection := a.scanDirection, edge := a.edge } := by
  have h20 : ∀ p : Point, p.WF → 20 ≤ p.data.length := by
    rintro p ⟨hs, hl⟩
    cases hf : p.hdr.fmt <;> simp_all [formatSize, PointFormat.std] <;> omega
  have hp' := h20 p hp
  have hq' := h20 q hq
  have hwf' : ({ q with data := splice q.data 14 [rdByte p.data 14] } : Point).WF := by
    refine ⟨hq.1, ?_⟩
    simp only
    rw [splice_length (by simp; omega)]; exact hq.2
  refine ⟨rdByte p.data 14, { q with data := splice q.data 14 [rdByte p.data 14] },
    getByte_eq (by omega), setByte_eq (by omega), hwf', rfl, splice_length (by simp; omega), ?_⟩
  rw [observe_eq hwf']
  rw [observe_eq hp] at ha
  rw [observe_eq hq] at hc
  cases ha; cases hc
  have hb := rdByte_splice_same (d := q.data) (pos := 14) (v := rdByte p.data 14) (by omega)
  congr 1
  have hl := hq.2
  cases hf : q.hdr.fmt <;> simp (disch := simp only [List.length_singleton]; omega) only
    [view, hb, rdInt_splice_other, rdByte_splice_other, reduceCtorEq, or_self, or_true, true_or, if_true, if_false]

/-- The copy branch. -/
private theorem copyInto_spec {b : Build} {p : Point} {h : PHeader} {a : Attrs} {x y z : Fl} {vx vy vz : BitVec 32}
    (hp : p.WF) (hh : h.Coherent) (ha : observe b p = .ok a)
    (hx : getX b p = .ok x) (hy : getY b p = .ok y) (hz : getZ b p = .ok z)
    (dx : descaled x h.scale.x h.offset.x = .ok vx) (dy : descaled y h.scale.y h.offset.y = .ok vy)
    (dz : descaled z h.scale.z h.offset.z = .ok vz) :
    ∃ q, copyInto b p h = .ok q ∧ q.hdr = h ∧ q.WF ∧ q.data.length = h.recLen ∧
      observe b q = .ok (rehomed a h.fmt vx vy vz) := by
  have h20 : 20 ≤ p.data.length := by
    obtain ⟨hs, hl⟩ := hp
    cases hf : p.hdr.fmt <;> simp_all [formatSize, PointFormat.std] <;> omega
  have ha' := ha
  rw [observe_eq hp] at ha'
  have gi : getIntensity b p = .ok a.intensity := by cases ha'; exact getInt_eq (by omega)
  have gc : getClassification p = .ok a.classification := by
    cases ha'; unfold getClassification; rw [getByte_eq (by omega)]; rfl
  have gs : getScanAngleRank p = .ok a.scanAngle := by cases ha'; exact getByte_eq (by omega)
  have gu : getUserData p = .ok a.userData := by cases ha'; exact getByte_eq (by omega)
  have gp : getPointSourceID b p = .ok a.sourceId := by cases ha'; exact getInt_eq (by omega)
  have gt : getTime b p = .ok a.time := by
    cases ha'
    obtain ⟨hs, hl⟩ := hp
    unfold getTime
    cases hf : p.hdr.fmt <;> simp [hf, formatSize, PointFormat.std] at hs hl <;> simp [view] <;>
      exact getInt_eq (by omega)
  have gco : getColor b p = .ok a.color := by
    cases ha'
    obtain ⟨hs, hl⟩ := hp
    unfold getColor
    cases hf : p.hdr.fmt <;> simp [hf, formatSize, PointFormat.std] at hs hl <;> simp [view] <;>
      rw [getInt_eq (by omega), getInt_eq (by omega), getInt_eq (by omega)] <;> rfl
  obtain ⟨hstd, hlen, htd, hrd⟩ := hh
  set q0 : Point := ⟨List.replicate h.recLen 0#8, h⟩ with hq0
  have w0 : q0.WF := ⟨hstd, by simpa [hq0] using hlen⟩
  have l0 : q0.data.length = h.recLen := by simp [hq0]
  obtain ⟨q1, c0, e1, o0, o1, w1, k1, l1, _⟩ := set_then_get b q0 (.rawX vx) w0 rfl
  obtain ⟨q2, _, e2, o1', o2, w2, k2, l2, _⟩ := set_then_get b q1 (.rawY vy) w1 rfl
  rw [o1] at o1'; cases o1'
  obtain ⟨q3, _, e3, o2', o3, w3, k3, l3, _⟩ := set_then_get b q2 (.rawZ vz) w2 rfl
  rw [o2] at o2'; cases o2'
  obtain ⟨q4, _, e4, o3', o4, w4, k4, l4, _⟩ := set_then_get b q3 (.intensity a.intensity) w3 rfl
  rw [o3] at o3'; cases o3'
  obtain ⟨fl, q5, gf, e5, w5, k5, l5, o5⟩ := scan_flags hp w4 ha o4
  obtain ⟨q6, _, e6, o5', o6, w6, k6, l6, _⟩ := set_then_get b q5 (.classification a.classification) w5 rfl
  rw [o5] at o5'; cases o5'
  obtain ⟨q7, _, e7, o6', o7, w7, k7, l7, _⟩ := set_then_get b q6 (.scanAngle a.scanAngle) w6 rfl
  rw [o6] at o6'; cases o6'
  obtain ⟨q8, _, e8, o7', o8, w8, k8, l8, _⟩ := set_then_get b q7 (.userData a.userData) w7 rfl
  rw [o7] at o7'; cases o7'
  obtain ⟨q9, _, e9, o8', o9, w9, k9, l9, _⟩ := set_then_get b q8 (.sourceId a.sourceId) w8 rfl
  rw [o8] at o8'; cases o8'
  have k0 : q0.hdr = h := rfl
  have hk1 : q1.hdr = h := by rw [k1]
  have hk2 : q2.hdr = h := by rw [k2, hk1]
  have hk9 : q9.hdr = h := by rw [k9, k8, k7, k6, k5, k4, k3, hk2]
  have hl9 : q9.data.length = h.recLen := by rw [l9, l8, l7, l6, l5, l4, l3, l2, l1, l0]
  simp only [exec] at e1 e2 e3 e4 e6 e7 e8 e9
  -- time
  obtain ⟨q10, e10, w10, k10, l10, o10⟩ : ∃ q10,
      (if h.hasTimeDim then do let t ← getTime b p; setTime b q9 t else pure q9) = .ok q10 ∧ q10.WF ∧
      q10.hdr = h ∧ q10.data.length = h.recLen ∧
      observe b q10 = .ok { (rehomed a h.fmt vx vy vz) with color := c0.color } := by
    by_cases ht : hasTime h.fmt = true
    · obtain ⟨q10, _, e10, o9', o10, w10, k10, l10, _⟩ :=
        set_then_get b q9 (.time a.time) w9 (by rw [hk9]; exact ht)
      rw [o9] at o9'; cases o9'
      refine ⟨q10, ?_, w10, by rw [k10, hk9], by rw [l10, hl9], ?_⟩
      · rw [htd, ht, if_pos rfl, gt]; exact e10
      · rw [o10]; simp [apply, rehomed, ht]
    · have ht' : hasTime h.fmt = false := by simpa using ht
      refine ⟨q9, by rw [htd, ht']; rfl, w9, hk9, hl9, ?_⟩
      have h0 := ((unsupported_attribute b q0 w0).1 ht').2 c0 o0
      rw [o9]; simp [apply, rehomed, ht', h0]
  -- colour
  obtain ⟨q11, e11, w11, k11, l11, o11⟩ : ∃ q11,
      (if h.hasRedDim then do let c ← getColor b p; setColor b q10 c else pure q10) = .ok q11 ∧ q11.WF ∧
      q11.hdr = h ∧ q11.data.length = h.recLen ∧
      observe b q11 = .ok (rehomed a h.fmt vx vy vz) := by
    by_cases ht : hasColor h.fmt = true
    · obtain ⟨q11, _, e11, o10', o11, w11, k11, l11, _⟩ :=
        set_then_get b q10 (.color a.color) w10 (by rw [k10]; exact ht)
      rw [o10] at o10'; cases o10'
      refine ⟨q11, ?_, w11, by rw [k11, k10], by rw [l11, l10], ?_⟩
      · rw [hrd, ht, if_pos rfl, gco]; exact e11
      · rw [o11]; simp [apply, rehomed, ht]
    · have ht' : hasColor h.fmt = false := by simpa using ht
      refine ⟨q10, by rw [hrd, ht']; rfl, w10, k10, l10, ?_⟩
      have h0 := ((unsupported_attribute b q0 w0).2 ht').2 c0 o0
      rw [o10]; simp [apply, rehomed, ht', h0]
  refine ⟨q11, ?_, k11, w11, l11, o11⟩
  unfold copyInto setX setY setZ
  rw [← hq0]
  simp only [hx, hy, hz, Outcome.bind_ok, k0, hk1, hk2, dx, dy, dz, e1, e2, e3, gi, e4, gf, e5, gc, e6, gs, e7, gu,
    e8, gp, e9]
  cases htd' : h.hasTimeDim
  · simp only [htd', Bool.false_eq_true, if_false, Outcome.pure_eq, Outcome.ok.injEq] at e10
    subst e10
    simp only [Bool.false_eq_true, if_false, Outcome.pure_eq, Outcome.bind_ok]
    exact e11
  · simp only [htd', if_true, gt, Outcome.bind_ok] at e10
    simp only [if_true, gt, Outcome.bind_ok, e10]
    exact e11

private theorem getters {b : Build} {p : Point} {a : Attrs} (hp : p.WF) (ha : observe b p = .ok a) :
    getX b p = .ok (scaled a.rawX p.hdr.scale.x p.hdr.offset.x) ∧
      getY b p = .ok (scaled a.rawY p.hdr.scale.y p.hdr.offset.y) ∧
      getZ b p = .ok (scaled a.rawZ p.hdr.scale.z p.hdr.offset.z) := by
  have h20 : 20 ≤ p.data.length := by
    obtain ⟨hs, hl⟩ := hp
    cases hf : p.hdr.fmt <;> simp_all [formatSize, PointFormat.std] <;> omega
  rw [observe_eq hp] at ha; cases ha
  unfold getX getY getZ getRawX getRawY getRawZ
  rw [getInt_eq (by omega), getInt_eq (by omega), getInt_eq (by omega)]
  simp [view]

private theorem descaled_scaled'' {v : BitVec 32} {s o : Fl} (hg : GoodAxis s o) :
    descaled (scaled v s o) s o = .ok v := by
  obtain ⟨sq, oq, rfl, rfl, hs, hs2, ho⟩ := hg
  obtain ⟨x, h1, h2⟩ := descaled_scaled (v := v) hs hs2 ho
  rw [h1, h2]

private theorem set3 {b : Build} {q : Point} {c : Attrs} {x y z : Fl} {vx vy vz : BitVec 32} (hq : q.WF)
    (hc : observe b q = .ok c) (dx : descaled x q.hdr.scale.x q.hdr.offset.x = .ok vx)
    (dy : descaled y q.hdr.scale.y q.hdr.offset.y = .ok vy) (dz : descaled z q.hdr.scale.z q.hdr.offset.z = .ok vz) :
    ∃ q', (do let q ← setX b q x
              let q ← setY b q y
              setZ b q z) = .ok q' ∧ q'.WF ∧ q'.hdr = q.hdr ∧ q'.data.length = q.data.length ∧
      observe b q' = .ok { c with rawX := vx, rawY := vy, rawZ := vz } := by
  obtain ⟨q1, _, e1, o0, o1, w1, k1, l1, _⟩ := set_then_get b q (.rawX vx) hq rfl
  rw [hc] at o0; cases o0
  obtain ⟨q2, _, e2, o1', o2, w2, k2, l2, _⟩ := set_then_get b q1 (.rawY vy) w1 rfl
  rw [o1] at o1'; cases o1'
  obtain ⟨q3, _, e3, o2', o3, w3, k3, l3, _⟩ := set_then_get b q2 (.rawZ vz) w2 rfl
  rw [o2] at o2'; cases o2'
  refine ⟨q3, ?_, w3, by rw [k3, k2, k1], by rw [l3, l2, l1], by rw [o3]; rfl⟩
  simp only [exec] at e1 e2 e3
  simp only [setX, setY, setZ, dx, Outcome.bind_ok, e1, k1, dy, e2, k2, dz, e3]

/-- The common part of the two theorems below: what `setHeader` computes when the new header is coherent, either
the record length changes or the format stays, and `v.` are the integers it stores. -/
private theorem setHeader_core {b : Build} {p : Point} {h : PHeader} {a : Attrs}
    (hp : p.WF) (hh : h.Coherent) (ha : observe b p = .ok a) (hsum : byteSum p.data ≠ 0)
    (hlen : h.recLen ≠ p.data.length ∨ h.fmt = p.hdr.fmt) (hg : GoodScaling h)
    {vx vy vz : BitVec 32}
    (dv : ¬ (h.recLen = p.data.length ∧ sameScaling h p.hdr = true) →
      descaled (scaled a.rawX p.hdr.scale.x p.hdr.offset.x) h.scale.x h.offset.x = .ok vx ∧
      descaled (scaled a.rawY p.hdr.scale.y p.hdr.offset.y) h.scale.y h.offset.y = .ok vy ∧
      descaled (scaled a.rawZ p.hdr.scale.z p.hdr.offset.z) h.scale.z h.offset.z = .ok vz)
    (hs : h.recLen = p.data.length ∧ sameScaling h p.hdr = true → vx = a.rawX ∧ vy = a.rawY ∧ vz = a.rawZ) :
    ∃ q, setHeader b p h = .ok q ∧ q.hdr = h ∧ q.WF ∧ q.data.length = h.recLen ∧
      observe b q = .ok (rehomed a h.fmt vx vy vz) := by
  obtain ⟨hx, hy, hz⟩ := getters hp ha
  unfold setHeader
  rw [if_neg hsum]
  by_cases hl : h.recLen = p.data.length
  · -- same length: bytes stay, same format
    have hf : h.fmt = p.hdr.fmt := by rcases hlen with h1 | h1; exact absurd hl h1; exact h1
    have hw : ({ p with hdr := h } : Point).WF := ⟨hh.1, by simpa [hl] using hh.2.1⟩
    have ho : observe b { p with hdr := h } = .ok a := by
      rw [observe_eq hw, ← ha, observe_eq hp, hf]
    have hre : ∀ x y z, rehomed a h.fmt x y z = { a with rawX := x, rawY := y, rawZ := z } := by
      intro x y z
      have hu := unsupported_attribute b p hp
      unfold rehomed
      have ht : (if hasTime h.fmt then a.time else 0) = a.time := by
        by_cases c : hasTime h.fmt = true
        · rw [if_pos c]
        · rw [if_neg c]; exact (((hu.1 (by rw [← hf]; simpa using c)).2 a ha)).symm
      have hc : (if hasColor h.fmt then a.color else ⟨0, 0, 0⟩) = a.color := by
        by_cases c : hasColor h.fmt = true
        · rw [if_pos c]
        · rw [if_neg c]; exact (((hu.2 (by rw [← hf]; simpa using c)).2 a ha)).symm
      rw [ht, hc]
    simp only [hl, ne_eq, not_true_eq_false, if_false, Outcome.pure_eq, Outcome.bind_ok]
    cases hsc : sameScaling h p.hdr
    · obtain ⟨dx, dy, dz⟩ := dv (by rw [hsc]; simp)
      simp only [Bool.not_false, if_true, hx, hy, hz, Outcome.bind_ok]
      obtain ⟨q', e, w, k, l, o⟩ := set3 (q := { p with hdr := h }) hw ho dx dy dz
      exact ⟨q', e, k, w, by rw [l], by rw [o, hre]⟩
    · simp only [Bool.not_true, Bool.false_eq_true, if_false]
      obtain ⟨e1, e2, e3⟩ := hs ⟨hl, hsc⟩
      refine ⟨{ p with hdr := h }, rfl, rfl, hw, rfl, ?_⟩
      rw [ho, hre, e1, e2, e3]
  · obtain ⟨dx, dy, dz⟩ := dv (fun h => hl h.1)
    obtain ⟨q, e, k, w, l, o⟩ := copyInto_spec hp hh ha hx hy hz dx dy dz
    simp only [hl, ne_eq, not_false_eq_true, if_true, e, Outcome.bind_ok]
    have hq : ({ q with hdr := h } : Point) = q := by rw [← k]
    cases hsc : sameScaling h p.hdr
    · obtain ⟨gx, gy, gz⟩ := hg
      obtain ⟨hx', hy', hz'⟩ := getters w o
      simp only [Bool.not_false, if_true, hx', hy', hz', Outcome.bind_ok, hq]
      obtain ⟨q', e', w', k', l', o'⟩ := set3 (b := b) (vx := vx) (vy := vy) (vz := vz)
        (x := scaled vx q.hdr.scale.x q.hdr.offset.x) (y := scaled vy q.hdr.scale.y q.hdr.offset.y)
        (z := scaled vz q.hdr.scale.z q.hdr.offset.z) w o
        (by rw [k]; exact descaled_scaled'' gx) (by rw [k]; exact descaled_scaled'' gy)
        (by rw [k]; exact descaled_scaled'' gz)
      exact ⟨q', e', by rw [k', k], w', by rw [l', l], by rw [o']; rfl⟩
    · simp only [Bool.not_true, Bool.false_eq_true, if_false, hq]
      exact ⟨q, rfl, k, w, l, o⟩

/-- C08 for headers with the same scale and offset: every attribute both formats store survives bit for bit
(raw coordinates included), the rest becomes 0 or black, the record has the new length, and no byte outside it is
touched (an out-of-range access would be the outcome `ub`). Missing: a point whose record is all zero bytes
(`set_header_zero_record`), a new header with another format but the same record length (`set_header_same_length`),
badly conditioned scales. -/
theorem set_header_same_scaling_partial (b : Build) (p : Point) (h : PHeader) (hp : p.WF) (hh : h.Coherent)
    (hsum : byteSum p.data ≠ 0) (hlen : h.recLen ≠ p.data.length ∨ h.fmt = p.hdr.fmt) (hg : GoodScaling h)
    (hsc : h.scale = p.hdr.scale) (hof : h.offset = p.hdr.offset) :
    ∃ q a, observe b p = .ok a ∧ setHeader b p h = .ok q ∧ q.hdr = h ∧ q.data.length = h.recLen ∧
      observe b q = .ok (rehomed a h.fmt a.rawX a.rawY a.rawZ) := by
  have ha := observe_eq (b := b) hp
  obtain ⟨gx, gy, gz⟩ := hg
  obtain ⟨q, e, k, w, l, o⟩ := setHeader_core (vx := (view b p.hdr.fmt p.data).rawX)
    (vy := (view b p.hdr.fmt p.data).rawY) (vz := (view b p.hdr.fmt p.data).rawZ) hp hh ha hsum hlen ⟨gx, gy, gz⟩
    (fun _ => ⟨by rw [← hsc, ← hof]; exact descaled_scaled'' gx, by rw [← hsc, ← hof]; exact descaled_scaled'' gy,
      by rw [← hsc, ← hof]; exact descaled_scaled'' gz⟩) (fun _ => ⟨rfl, rfl, rfl⟩)
  exact ⟨q, _, ha, e, k, l, o⟩

private theorem near (b : Build) {x s o : Fl} (hg : GoodAxis s o) (hr : InRange x s o) :
    ∃ v, descaled x s o = .ok v ∧ Nearest v x s o := by
  let hd : PHeader := ⟨.f0, 20, false, false, ⟨s, s, s⟩, ⟨o, o, o⟩⟩
  obtain ⟨p', a, v, h1, h2, h3, h4⟩ :=
    (coordinate_set_nearest b (Point.new hd) ⟨rfl, by simp [Point.new, hd, formatSize]⟩ ⟨hg, hg, hg⟩ x).1 hr
  unfold setX at h1
  cases hd' : descaled x (Point.new hd).hdr.scale.x (Point.new hd).hdr.offset.x with
  | ok w =>
    rw [hd'] at h1
    simp only [Outcome.bind_ok] at h1
    obtain ⟨p2, a2, g1, g2, g3, _⟩ := set_then_get b (Point.new hd) (.rawX w)
      ⟨rfl, by simp [Point.new, hd, formatSize]⟩ rfl
    simp only [exec] at g1
    rw [g1] at h1; cases h1
    rw [g2] at h2; cases h2
    rw [g3] at h3
    simp only [apply, Outcome.ok.injEq, Attrs.mk.injEq] at h3
    rw [h3.1] at hd'
    exact ⟨v, hd', h4⟩
  | throw e => rw [hd'] at h1; simp at h1
  | ub => rw [hd'] at h1; simp at h1

/-- C08 for headers with another scale or offset: the same, with coordinates restored to the nearest multiple of the
new scale. -/
theorem set_header_rescale_partial (b : Build) (p : Point) (h : PHeader) (hp : p.WF) (hh : h.Coherent)
    (hsum : byteSum p.data ≠ 0) (hlen : h.recLen ≠ p.data.length ∨ h.fmt = p.hdr.fmt) (hg : GoodScaling h)
    (hdiff : sameScaling h p.hdr = false) (x y z : Fl)
    (hx : getX b p = .ok x) (hy : getY b p = .ok y) (hz : getZ b p = .ok z)
    (rx : InRange x h.scale.x h.offset.x) (ry : InRange y h.scale.y h.offset.y)
    (rz : InRange z h.scale.z h.offset.z) :
    ∃ q a vx vy vz, observe b p = .ok a ∧ setHeader b p h = .ok q ∧ q.hdr = h ∧ q.data.length = h.recLen ∧
      observe b q = .ok (rehomed a h.fmt vx vy vz) ∧
      Nearest vx x h.scale.x h.offset.x ∧ Nearest vy y h.scale.y h.offset.y ∧
      Nearest vz z h.scale.z h.offset.z := by
  have ha := observe_eq (b := b) hp
  obtain ⟨hx', hy', hz'⟩ := getters hp ha
  rw [hx] at hx'; rw [hy] at hy'; rw [hz] at hz'
  cases hx'; cases hy'; cases hz'
  obtain ⟨gx, gy, gz⟩ := hg
  obtain ⟨vx, dx, nx⟩ := near b gx rx
  obtain ⟨vy, dy, ny⟩ := near b gy ry
  obtain ⟨vz, dz, nz⟩ := near b gz rz
  obtain ⟨q, e, k, w, l, o⟩ := setHeader_core hp hh ha hsum hlen ⟨gx, gy, gz⟩ (fun _ => ⟨dx, dy, dz⟩)
    (fun h => by rw [hdiff] at h; simp at h)
  exact ⟨q, _, vx, vy, vz, ha, e, k, l, o, nx, ny, nz⟩

/-- C08 for any two scalings: as before, except that a record that keeps its length is left alone when scale and offset
are the same up to 2^-52. -/
theorem set_header_partial (b : Build) (p : Point) (h : PHeader) (hp : p.WF) (hh : h.Coherent)
    (hsum : byteSum p.data ≠ 0) (hlen : h.recLen ≠ p.data.length ∨ h.fmt = p.hdr.fmt) (hg : GoodScaling h) (x y z : Fl)
    (hx : getX b p = .ok x) (hy : getY b p = .ok y) (hz : getZ b p = .ok z)
    (rx : InRange x h.scale.x h.offset.x) (ry : InRange y h.scale.y h.offset.y)
    (rz : InRange z h.scale.z h.offset.z) :
    ∃ q a vx vy vz, observe b p = .ok a ∧ setHeader b p h = .ok q ∧ q.hdr = h ∧ q.data.length = h.recLen ∧
      observe b q = .ok (rehomed a h.fmt vx vy vz) ∧
      (Nearest vx x h.scale.x h.offset.x ∧ Nearest vy y h.scale.y h.offset.y ∧ Nearest vz z h.scale.z h.offset.z ∨
        sameScaling h p.hdr = true ∧ vx = a.rawX ∧ vy = a.rawY ∧ vz = a.rawZ) := by
  have ha := observe_eq (b := b) hp
  by_cases hc : h.recLen = p.data.length ∧ sameScaling h p.hdr = true
  · obtain ⟨q, e, k, w, l, o⟩ := setHeader_core (vx := (view b p.hdr.fmt p.data).rawX)
      (vy := (view b p.hdr.fmt p.data).rawY) (vz := (view b p.hdr.fmt p.data).rawZ) hp hh ha hsum hlen hg
      (fun h => absurd hc h) (fun _ => ⟨rfl, rfl, rfl⟩)
    exact ⟨q, _, _, _, _, ha, e, k, l, o, Or.inr ⟨hc.2, rfl, rfl, rfl⟩⟩
  · obtain ⟨hx', hy', hz'⟩ := getters hp ha
    rw [hx] at hx'; rw [hy] at hy'; rw [hz] at hz'
    cases hx'; cases hy'; cases hz'
    obtain ⟨gx, gy, gz⟩ := hg
    obtain ⟨vx, dx, nx⟩ := near b gx rx
    obtain ⟨vy, dy, ny⟩ := near b gy ry
    obtain ⟨vz, dz, nz⟩ := near b gz rz
    obtain ⟨q, e, k, w, l, o⟩ := setHeader_core hp hh ha hsum hlen ⟨gx, gy, gz⟩ (fun _ => ⟨dx, dy, dz⟩)
      (fun h => absurd h hc)
    exact ⟨q, _, vx, vy, vz, ha, e, k, l, o, Or.inl ⟨nx, ny, nz⟩⟩

/-- Formats 3 and 0 at scale 1/4. -/
def exH3 : PHeader := ⟨.f3, 34, true, true, ⟨.fin (1/4), .fin (1/4), .fin (1/4)⟩, ⟨.fin 100, .fin 0, .fin 0⟩⟩
def exH2 : PHeader := ⟨.f2, 34, false, true, ⟨.fin (1/4), .fin (1/4), .fin (1/4)⟩, ⟨.fin 100, .fin 0, .fin 0⟩⟩
def exH1 : PHeader := ⟨.f1, 28, true, false, ⟨.fin (1/4), .fin (1/4), .fin (1/4)⟩, ⟨.fin 100, .fin 0, .fin 0⟩⟩
def exH0 : PHeader := ⟨.f0, 20, false, false, ⟨.fin (1/4), .fin (1/4), .fin (1/4)⟩, ⟨.fin 0, .fin 0, .fin 0⟩⟩
def exB : Build := ⟨.little, false⟩

example : exH1.Coherent ∧ (exPoint exH3 7).WF ∧ byteSum (exPoint exH3 7).data ≠ 0 ∧
    exH1.recLen ≠ (exPoint exH3 7).data.length ∧ exH1.scale = exH3.scale ∧ exH1.offset = exH3.offset := by
  refine ⟨⟨rfl, by decide, rfl, rfl⟩, ⟨rfl, by decide⟩, by decide, by decide, rfl, rfl⟩

example : GoodScaling exH1 := by
  have key : ∀ o : ℚ, |o| ≤ 100 → GoodAxis (.fin (1 / 4)) (.fin o) := by
    intro o ho
    refine ⟨1 / 4, o, rfl, rfl, ?_, ?_, ?_⟩
    · refine le_trans (one_div_le_one_div_of_le (by norm_num)
        (pow_le_pow_right₀ (a := (2 : ℚ)) (by norm_num) (show 2 ≤ 1000 by norm_num))) ?_
      norm_num [abs_of_pos]
    · refine le_trans ?_ (pow_le_pow_right₀ (a := (2 : ℚ)) (by norm_num) (show 1 ≤ 900 by norm_num))
      norm_num [abs_of_pos]
    · refine ho.trans ?_; norm_num [abs_of_pos]
  exact ⟨key 100 (by norm_num), key 0 (by norm_num), key 0 (by norm_num)⟩

/-- C08 in full: attributes both formats store survive, for every pair of coherent headers with equal scale and
offset, or coordinates survive to half a unit. -/
def SetHeaderKeepsAttributes : Prop :=
  ∀ (b : Build) (p : Point) (h : PHeader) (a : Attrs), p.WF → p.hdr.Coherent → p.data.length = p.hdr.recLen →
    h.Coherent → observe b p = .ok a →
    ∃ q a', setHeader b p h = .ok q ∧ observe b q = .ok a' ∧ a'.intensity = a.intensity ∧
      (hasTime p.hdr.fmt ∧ hasTime h.fmt → a'.time = a.time) ∧
      (hasColor p.hdr.fmt ∧ hasColor h.fmt → a'.color = a.color)

/-- C08 fails: moving a coloured format 3 record (34 bytes) to a format 2 header whose records are also 34 bytes
long (8 bytes of user dimensions) reinterprets the bytes in place, and the colour is lost. -/
theorem set_header_same_length : ¬ SetHeaderKeepsAttributes := by
  intro h
  obtain ⟨q, a', h1, h2, _, _, h5⟩ := h exB (step exB (Point.new exH3) (.color ⟨1, 2, 3⟩)) exH2
    { rawX := 0, rawY := 0, rawZ := 0, intensity := 0, returnNumber := 0, numberOfReturns := 0, scanDirection := 0,
      edge := 0, classification := ⟨0⟩, scanAngle := 0, userData := 0, sourceId := 0, time := 0, color := ⟨1, 2, 3⟩ }
    ⟨rfl, by decide⟩ ⟨rfl, by decide, rfl, rfl⟩ (by decide) ⟨rfl, by decide, rfl, rfl⟩ (by decide)
  have h6 := h5 ⟨by decide, by decide⟩
  have e : setHeader exB (step exB (Point.new exH3) (.color ⟨1, 2, 3⟩)) exH2 =
      .ok ⟨(step exB (Point.new exH3) (.color ⟨1, 2, 3⟩)).data, exH2⟩ := by decide +kernel
  rw [e] at h1
  cases h1
  have e2 : observe exB ⟨(step exB (Point.new exH3) (.color ⟨1, 2, 3⟩)).data, exH2⟩ = .ok
    { rawX := 0, rawY := 0, rawZ := 0, intensity := 0, returnNumber := 0, numberOfReturns := 0, scanDirection := 0,
      edge := 0, classification := ⟨0⟩, scanAngle := 0, userData := 0, sourceId := 0, time := 0, color := ⟨0, 0, 0⟩ } := by
    decide +kernel
  rw [e2] at h2
  cases h2
  revert h6
  decide

/-- C08 fails for coordinates of an all-zero record: the point at x = 100 (raw 0, offset 100) moved to a header with
offset 0 ends up at x = 0. -/
theorem set_header_zero_record :
    getX exB (Point.new exH3) = .ok (.fin 100) ∧
    ∃ q, setHeader exB (Point.new exH3) exH0 = .ok q ∧ getX exB q = .ok (.fin 0) := by
  refine ⟨by decide +kernel, Point.new exH0, by decide +kernel, by decide +kernel⟩

/-- C08 fails with an exception when the new header's schema has a user dimension named "Time" on a format without
time: `SetHeader` throws `invalid_format` half way. -/
theorem set_header_user_time_dim_throws :
    setHeader exB (exPoint exH3 7) { exH0 with hasTimeDim := true, recLen := 28 } = .throw .invalidFormat := by
  decide +kernel

end Point
end LibLAS
