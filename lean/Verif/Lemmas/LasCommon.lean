import Verif.Spec.LasCommon
import Verif.Lemmas.Summary
import Verif.Props.Coord
/-
Lemmas for Props/LasCommon: one point added to a C summary.
-/
namespace LibLAS.LasCommon
open Spec Point Fl Summary

/-- What is known of one of the three coordinates: `R` reads the stored integer, `put` stores it. -/
structure IsAxis (b : Build) (f : PointFormat) (H : PHeader) (get : Point → Outcome Fl) (set : Point → Fl → Outcome Point)
    (R : Attrs → BitVec 32) (put : Attrs → BitVec 32 → Attrs) (s o : Fl) : Prop where
  good : GoodAxis s o
  get : ∀ q c, Shows b f q c → q.hdr = H → get q = .ok (scaled (R c) s o)
  set : ∀ q c v, Shows b f q c → q.hdr = H → ∃ q', set q (scaled v s o) = .ok q' ∧ q'.hdr = H ∧ Shows b f q' (put c v)

theorem scaled_back {v : BitVec 32} {s o : Fl} (hg : GoodAxis s o) :
    (∃ x, scaled v s o = fin x) ∧ descaled (scaled v s o) s o = .ok v := by
  obtain ⟨sq, oq, rfl, rfl, hs, hs2, ho⟩ := hg
  obtain ⟨x, h1, h2⟩ := descaled_scaled (v := v) hs hs2 ho
  rw [h1]
  exact ⟨⟨x, rfl⟩, h2⟩

theorem axisX {b : Build} {f : PointFormat} {H : PHeader} (hg : GoodScaling H) :
    IsAxis b f H (getX b) (setX b) (fun a => a.rawX) (fun a v => { a with rawX := v }) H.scale.x H.offset.x := by
  refine ⟨hg.1, fun q c hq hh => ?_, fun q c v hq hh => ?_⟩
  · simp only [getX, (parts hq.2.2).x, Outcome.bind_ok, Outcome.pure_eq, hh]
  · obtain ⟨q', h1, h2, h3⟩ := shows_set (.rawX v) hq rfl
    exact ⟨q', by simp only [setX, hh, (scaled_back hg.1).2, Outcome.bind_ok]; exact h1, by rw [h2, hh], h3⟩

theorem axisY {b : Build} {f : PointFormat} {H : PHeader} (hg : GoodScaling H) :
    IsAxis b f H (getY b) (setY b) (fun a => a.rawY) (fun a v => { a with rawY := v }) H.scale.y H.offset.y := by
  refine ⟨hg.2.1, fun q c hq hh => ?_, fun q c v hq hh => ?_⟩
  · simp only [getY, (parts hq.2.2).y, Outcome.bind_ok, Outcome.pure_eq, hh]
  · obtain ⟨q', h1, h2, h3⟩ := shows_set (.rawY v) hq rfl
    exact ⟨q', by simp only [setY, hh, (scaled_back hg.2.1).2, Outcome.bind_ok]; exact h1, by rw [h2, hh], h3⟩

theorem axisZ {b : Build} {f : PointFormat} {H : PHeader} (hg : GoodScaling H) :
    IsAxis b f H (getZ b) (setZ b) (fun a => a.rawZ) (fun a v => { a with rawZ := v }) H.scale.z H.offset.z := by
  refine ⟨hg.2.2, fun q c hq hh => ?_, fun q c v hq hh => ?_⟩
  · simp only [getZ, (parts hq.2.2).z, Outcome.bind_ok, Outcome.pure_eq, hh]
  · obtain ⟨q', h1, h2, h3⟩ := shows_set (.rawZ v) hq rfl
    exact ⟨q', by simp only [setZ, hh, (scaled_back hg.2.2).2, Outcome.bind_ok]; exact h1, by rw [h2, hh], h3⟩

/-- The stored integer kept of two: the one of the smaller coordinate, the one of the larger. -/
def lowRaw (s o : Fl) (v w : BitVec 32) : BitVec 32 := if Fl.lt (scaled v s o) (scaled w s o) then v else w
def highRaw (s o : Fl) (v w : BitVec 32) : BitVec 32 := if Fl.lt (scaled w s o) (scaled v s o) then v else w

theorem scaled_low (s o : Fl) (v w : BitVec 32) : scaled (lowRaw s o v w) s o = dmin (scaled v s o) (scaled w s o) := by
  unfold lowRaw dmin; split <;> rfl
theorem scaled_high (s o : Fl) (v w : BitVec 32) : scaled (highRaw s o v w) s o = dmax (scaled v s o) (scaled w s o) := by
  unfold highRaw dmax; split <;> rfl

/-- One axis: both points of the pair take the right coordinate. -/
theorem widen_spec {b : Build} {f : PointFormat} {H : PHeader} {get : Point → Outcome Fl} {set : Point → Fl → Outcome Point}
    {R : Attrs → BitVec 32} {put : Attrs → BitVec 32 → Attrs} {s o : Fl} (h : IsAxis b f H get set R put s o)
    {p : Point} {a : Attrs} {e : Extremes} {A C : Attrs} (hp : Shows b f p a) (hh : p.hdr = H) (ht : Tracks b f H H e A C) :
    ∃ e', widen get set p e = .ok e' ∧
      Tracks b f H H e' (put A (lowRaw s o (R a) (R A))) (put C (highRaw s o (R a) (R C))) := by
  obtain ⟨m1, h1, h2, h3⟩ := h.set e.minimum A (lowRaw s o (R a) (R A)) ht.mn ht.hmn
  obtain ⟨m2, h4, h5, h6⟩ := h.set e.maximum C (highRaw s o (R a) (R C)) ht.mx ht.hmx
  rw [scaled_low] at h1
  rw [scaled_high] at h4
  exact ⟨⟨m1, m2⟩, by simp only [widen, h.get p a hp hh, h.get _ _ ht.mn ht.hmn, h.get _ _ ht.mx ht.hmx, Outcome.bind_ok, h1, h4,
    Outcome.pure_eq], ⟨h3, h6, h2, h5⟩⟩

/-- All axes. -/
theorem widenBox_spec {b : Build} {f : PointFormat} {H : PHeader} (hg : GoodScaling H) {p : Point} {a : Attrs} {e : Extremes}
    {A C : Attrs} (hp : Shows b f p a) (hh : p.hdr = H) (ht : Tracks b f H H e A C) :
    ∃ e' A' C', widenBox b p e = .ok e' ∧ Tracks b f H H e' A' C' ∧
      A'.rawX = lowRaw H.scale.x H.offset.x a.rawX A.rawX ∧ A'.rawY = lowRaw H.scale.y H.offset.y a.rawY A.rawY ∧
      A'.rawZ = lowRaw H.scale.z H.offset.z a.rawZ A.rawZ ∧ C'.rawX = highRaw H.scale.x H.offset.x a.rawX C.rawX ∧
      C'.rawY = highRaw H.scale.y H.offset.y a.rawY C.rawY ∧ C'.rawZ = highRaw H.scale.z H.offset.z a.rawZ C.rawZ ∧
      A' = { A with rawX := A'.rawX, rawY := A'.rawY, rawZ := A'.rawZ } ∧
      C' = { C with rawX := C'.rawX, rawY := C'.rawY, rawZ := C'.rawZ } := by
  obtain ⟨e1, r1, t1⟩ := widen_spec (axisX hg) hp hh ht
  obtain ⟨e2, r2, t2⟩ := widen_spec (axisY hg) hp hh t1
  obtain ⟨e3, r3, t3⟩ := widen_spec (axisZ hg) hp hh t2
  exact ⟨e3, _, _, by simp only [widenBox, r1, r2, r3, Outcome.bind_ok], t3, rfl, rfl, rfl, rfl, rfl, rfl, rfl, rfl⟩

/-- One attribute: both points of the pair take the right value. -/
theorem keep_spec {α : Type} {b : Build} {f : PointFormat} {H : PHeader} {get : Point → Outcome α} {set : Point → α → Outcome Point}
    (lo hi : α → α → α) (P : Attrs → α) (put : Attrs → α → Attrs) (hget : ∀ q c, Shows b f q c → get q = .ok (P c))
    (hset : ∀ q c v, Shows b f q c → ∃ q', set q v = .ok q' ∧ q'.hdr = q.hdr ∧ Shows b f q' (put c v))
    {p : Point} {a : Attrs} {e : Extremes} {A C : Attrs} (hp : Shows b f p a) (ht : Tracks b f H H e A C) :
    ∃ e', keep get set lo hi p e = .ok e' ∧ Tracks b f H H e' (put A (lo (P a) (P A))) (put C (hi (P a) (P C))) := by
  obtain ⟨m1, h1, h2, h3⟩ := hset e.minimum A (lo (P a) (P A)) ht.mn
  obtain ⟨m2, h4, h5, h6⟩ := hset e.maximum C (hi (P a) (P C)) ht.mx
  exact ⟨⟨m1, m2⟩, by simp only [keep, hget p a hp, hget _ _ ht.mn, hget _ _ ht.mx, Outcome.bind_ok, h1, h4, Outcome.pure_eq],
    ⟨h3, h6, h2.trans ht.hmn, h5.trans ht.hmx⟩⟩

/-- A setter every format supports. -/
theorem put_spec {α : Type} {b : Build} {f : PointFormat} {set : Point → α → Outcome Point} (mk : α → SetOp)
    (hs : ∀ v, supported f (mk v) = true) (he : ∀ q v, set q v = exec b q (mk v)) :
    ∀ q c v, Shows b f q c → ∃ q', set q v = .ok q' ∧ q'.hdr = q.hdr ∧ Shows b f q' (apply c (mk v)) := by
  intro q c v h
  rw [he]
  exact shows_set (mk v) h (hs v)

theorem quiet_time {b : Build} {f : PointFormat} : ∀ q c v, Shows b f q c →
    ∃ q', quiet (setTime b) q v = .ok q' ∧ q'.hdr = q.hdr ∧ Shows b f q' (applyIf f c (.time v)) := by
  intro q c v h
  cases hf : hasTime f
  · have : setTime b q v = .throw .invalidFormat := by
      have hfm := h.2.1
      have hw := h.1.1
      rw [hfm] at hw
      unfold setTime
      rw [if_pos]
      rw [hfm]
      cases f <;> simp_all [hasTime, PointFormat.std]
    refine ⟨q, by simp only [quiet, this], rfl, ?_⟩
    simpa only [applyIf, supported, hf, Bool.false_eq_true, if_false] using h
  · obtain ⟨q', h1, h2, h3⟩ := shows_set (.time v) h hf
    refine ⟨q', ?_, h2, by simpa only [applyIf, supported, hf, if_true] using h3⟩
    have h1 : setTime b q v = .ok q' := h1
    simp only [quiet, h1]

theorem quiet_color {b : Build} {f : PointFormat} : ∀ q c v, Shows b f q c →
    ∃ q', quiet (setColor b) q v = .ok q' ∧ q'.hdr = q.hdr ∧ Shows b f q' (applyIf f c (.color v)) := by
  intro q c v h
  cases hf : hasColor f
  · have : setColor b q v = .throw .invalidFormat := by
      have hfm := h.2.1
      have hw := h.1.1
      rw [hfm] at hw
      unfold setColor
      rw [if_pos]
      rw [hfm]
      cases f <;> simp_all [hasColor, PointFormat.std]
    refine ⟨q, by simp only [quiet, this], rfl, ?_⟩
    simpa only [applyIf, supported, hf, Bool.false_eq_true, if_false] using h
  · obtain ⟨q', h1, h2, h3⟩ := shows_set (.color v) h hf
    refine ⟨q', ?_, h2, by simpa only [applyIf, supported, hf, if_true] using h3⟩
    have h1 : setColor b q v = .ok q' := h1
    simp only [quiet, h1]

/-- The packed attributes, as the getters return them. -/
def word (n : Nat) : BitVec 16 := BitVec.ofNat 16 n

theorem word_of {r : BitVec 16} {n : Nat} (h : r.toNat = n) : r = word n := by
  rw [← h]; simp [word]

/-- The attributes of one of the two points after one more point. -/
def taken (f : PointFormat) (m : ∀ {n : Nat}, BitVec n → BitVec n → BitVec n) (sm : BitVec 8 → BitVec 8 → BitVec 8)
    (tm : BitVec 64 → BitVec 64 → BitVec 64) (a A : Attrs) : Attrs where
  rawX := A.rawX
  rawY := A.rawY
  rawZ := A.rawZ
  intensity := m a.intensity A.intensity
  returnNumber := (m (word a.returnNumber) (word A.returnNumber)).toNat % 8
  numberOfReturns := (m (word a.numberOfReturns) (word A.numberOfReturns)).toNat % 8
  scanDirection := (m (word a.scanDirection) (word A.scanDirection)).toNat % 2
  edge := (m (word a.edge) (word A.edge)).toNat % 2
  classification := ⟨m a.classification.flags A.classification.flags⟩
  scanAngle := sm a.scanAngle A.scanAngle
  userData := m a.userData A.userData
  sourceId := m a.sourceId A.sourceId
  time := if hasTime f then tm a.time A.time else A.time
  color := if hasColor f then ⟨m A.color.getRed a.color.getRed, m A.color.getGreen a.color.getGreen,
    m A.color.getBlue a.color.getBlue⟩ else A.color

theorem widenAttrs_spec {b : Build} {f : PointFormat} {H : PHeader} {p : Point} {a : Attrs} {e : Extremes} {A C : Attrs}
    (hp : Shows b f p a) (ht : Tracks b f H H e A C) :
    ∃ e', widenAttrs b p e = .ok e' ∧ Tracks b f H H e' (taken f umin smin tmin a A) (taken f umax smax tmax a C) := by
  have getw : ∀ {get : Point → Outcome (BitVec 16)} {g : Attrs → Nat},
      (∀ q c, Parts b q c → ∃ r, get q = .ok r ∧ r.toNat = g c) → ∀ q c, Shows b f q c → get q = .ok (word (g c)) := by
    intro get g h q c hs
    obtain ⟨r, h1, h2⟩ := h q c (parts hs.2.2)
    rw [h1, word_of h2]
  obtain ⟨e1, r1, t1⟩ := keep_spec (get := getIntensity b) (set := setIntensity b) umin umax (fun a => a.intensity) _
    (fun q c h => (parts h.2.2).i) (put_spec .intensity (fun _ => rfl) (fun _ _ => rfl)) hp ht
  obtain ⟨e2, r2, t2⟩ := keep_spec (get := getTime b) tmin tmax (fun a => a.time) _
    (fun q c h => (parts h.2.2).t) quiet_time hp t1
  obtain ⟨e3, r3, t3⟩ := keep_spec (get := getReturnNumber) (set := setReturnNumber) umin umax (fun a => word a.returnNumber) _
    (getw fun q c h => h.rn) (put_spec (b := b) .returnNumber (fun _ => rfl) (fun _ _ => rfl)) hp t2
  obtain ⟨e4, r4, t4⟩ := keep_spec (get := getNumberOfReturns) (set := setNumberOfReturns) umin umax
    (fun a => word a.numberOfReturns) _
    (getw fun q c h => h.nr) (put_spec (b := b) .numberOfReturns (fun _ => rfl) (fun _ _ => rfl)) hp t3
  obtain ⟨e5, r5, t5⟩ := keep_spec (get := getScanDirection) (set := setScanDirection) umin umax (fun a => word a.scanDirection) _
    (getw fun q c h => h.sd) (put_spec (b := b) .scanDirection (fun _ => rfl) (fun _ _ => rfl)) hp t4
  obtain ⟨e6, r6, t6⟩ := keep_spec (get := getFlightLineEdge) (set := setFlightLineEdge) umin umax (fun a => word a.edge) _
    (getw fun q c h => h.fe) (put_spec (b := b) .edge (fun _ => rfl) (fun _ _ => rfl)) hp t5
  obtain ⟨e7, r7, t7⟩ := keep_spec (get := getScanAngleRank) (set := setScanAngleRank) smin smax (fun a => a.scanAngle) _
    (fun q c h => (parts h.2.2).ar) (put_spec (b := b) .scanAngle (fun _ => rfl) (fun _ _ => rfl)) hp t6
  obtain ⟨e8, r8, t8⟩ := keep_spec (get := getUserData) (set := setUserData) umin umax (fun a => a.userData) _
    (fun q c h => (parts h.2.2).u) (put_spec (b := b) .userData (fun _ => rfl) (fun _ _ => rfl)) hp t7
  obtain ⟨e9, r9, t9⟩ := keep_spec (get := getClassification) (set := setClassification) cmin cmax (fun a => a.classification) _
    (fun q c h => (parts h.2.2).c) (put_spec (b := b) .classification (fun _ => rfl) (fun _ _ => rfl)) hp t8
  obtain ⟨e10, r10, t10⟩ := keep_spec (get := getPointSourceID b) (set := setPointSourceID b) umin umax (fun a => a.sourceId) _
    (fun q c h => (parts h.2.2).s) (put_spec .sourceId (fun _ => rfl) (fun _ _ => rfl)) hp t9
  obtain ⟨e11, r11, t11⟩ := keep_spec (get := getColor b) (fun v m => colmin m v) (fun v m => colmax m v) (fun a => a.color) _
    (fun q c h => (parts h.2.2).col) quiet_color hp t10
  refine ⟨e11, by simp only [widenAttrs, r1, r2, r3, r4, r5, r6, r7, r8, r9, r10, r11, Outcome.bind_ok], ?_⟩
  refine tracks_congr t11 ?_ ?_ <;>
    (cases h1 : hasTime f <;> cases h2 : hasColor f <;>
      simp only [taken, applyIf, apply, supported, h1, h2, cmin, cmax, colmin, colmax, if_true, if_false, Bool.false_eq_true])

/-- The new values of the attributes, as numbers. -/
structure AttrStep (a A C A' C' : Attrs) : Prop where
  ints : ∀ key ∈ cNumericAttrs, key A' = min (key a) (key A) ∧ key C' = max (key a) (key C)
  tlo : timeOf A' = if Fl.lt (timeOf a) (timeOf A) then timeOf a else timeOf A
  thi : timeOf C' = if Fl.lt (timeOf C) (timeOf a) then timeOf a else timeOf C

/-- The packed attributes are in range. -/
def Small (a : Attrs) : Prop := a.returnNumber < 8 ∧ a.numberOfReturns < 8 ∧ a.scanDirection < 2 ∧ a.edge < 2

theorem word_min {k : Nat} {x y : Nat} (hx : x < k) (hy : y < k) (hk : k ≤ 8) :
    (((umin (word x) (word y)).toNat % k : Nat) : Int) = min (x : Int) y := by
  have ex : (word x).toNat = x := by simp [word]; omega
  have ey : (word y).toNat = y := by simp [word]; omega
  unfold umin Extremes.ult
  rw [ex, ey]
  by_cases c : x < y
  · simp only [c, decide_true, if_true, ex, Nat.mod_eq_of_lt hx]; omega
  · simp only [c, decide_false, Bool.false_eq_true, if_false, ey, Nat.mod_eq_of_lt hy]; omega

theorem word_max {k : Nat} {x y : Nat} (hx : x < k) (hy : y < k) (hk : k ≤ 8) :
    (((umax (word x) (word y)).toNat % k : Nat) : Int) = max (x : Int) y := by
  have ex : (word x).toNat = x := by simp [word]; omega
  have ey : (word y).toNat = y := by simp [word]; omega
  unfold umax Extremes.ult
  rw [ex, ey]
  by_cases c : y < x
  · simp only [c, decide_true, if_true, ex, Nat.mod_eq_of_lt hx]; omega
  · simp only [c, decide_false, Bool.false_eq_true, if_false, ey, Nat.mod_eq_of_lt hy]; omega

theorem chan_min {f : PointFormat} {x y : Color} (g : Color → BitVec 16) (z : Color) (hz : g z = umin (g y) (g x))
    (hb : hasColor f = false → x = ⟨0, 0, 0⟩ ∧ y = ⟨0, 0, 0⟩) :
    ((g (if hasColor f then z else y)).toNat : Int) = min ((g x).toNat : Int) (g y).toNat := by
  cases h : hasColor f
  · obtain ⟨rfl, rfl⟩ := hb h
    simp
  · simp only [if_true, hz]
    rw [show umin (g y) (g x) = low Extremes.ult (g y) (g x) from rfl, low_ult, min_comm]

theorem chan_max {f : PointFormat} {x y : Color} (g : Color → BitVec 16) (z : Color) (hz : g z = umax (g y) (g x))
    (hb : hasColor f = false → x = ⟨0, 0, 0⟩ ∧ y = ⟨0, 0, 0⟩) :
    ((g (if hasColor f then z else y)).toNat : Int) = max ((g x).toNat : Int) (g y).toNat := by
  cases h : hasColor f
  · obtain ⟨rfl, rfl⟩ := hb h
    simp
  · simp only [if_true, hz]
    rw [show umax (g y) (g x) = high Extremes.ult (g y) (g x) from rfl, high_ult, max_comm]

theorem attr_step {f : PointFormat} {a A C : Attrs} (ra : Reg f a) (rA : Reg f A) (rC : Reg f C) (sa : Small a) (sA : Small A)
    (sC : Small C) : AttrStep a A C (taken f umin smin tmin a A) (taken f umax smax tmax a C) := by
  have cA : hasColor f = false → a.color = ⟨0, 0, 0⟩ ∧ A.color = ⟨0, 0, 0⟩ := fun h => ⟨ra.2 h, rA.2 h⟩
  have cC : hasColor f = false → a.color = ⟨0, 0, 0⟩ ∧ C.color = ⟨0, 0, 0⟩ := fun h => ⟨ra.2 h, rC.2 h⟩
  refine ⟨?_, ?_, ?_⟩
  · intro key hk
    simp only [cNumericAttrs, List.mem_cons, List.not_mem_nil, or_false] at hk
    rcases hk with rfl | rfl | rfl | rfl | rfl | rfl | rfl | rfl | rfl | rfl | rfl | rfl
    · exact ⟨low_ult _ _, high_ult _ _⟩
    · exact ⟨word_min sa.1 sA.1 (by omega), word_max sa.1 sC.1 (by omega)⟩
    · exact ⟨word_min sa.2.1 sA.2.1 (by omega), word_max sa.2.1 sC.2.1 (by omega)⟩
    · exact ⟨word_min sa.2.2.1 sA.2.2.1 (by omega), word_max sa.2.2.1 sC.2.2.1 (by omega)⟩
    · exact ⟨word_min sa.2.2.2 sA.2.2.2 (by omega), word_max sa.2.2.2 sC.2.2.2 (by omega)⟩
    · exact ⟨low_slt _ _, high_slt _ _⟩
    · exact ⟨low_ult _ _, high_ult _ _⟩
    · exact ⟨low_ult _ _, high_ult _ _⟩
    · exact ⟨low_ult _ _, high_ult _ _⟩
    · exact ⟨chan_min Color.getRed _ rfl cA, chan_max Color.getRed _ rfl cC⟩
    · exact ⟨chan_min Color.getGreen _ rfl cA, chan_max Color.getGreen _ rfl cC⟩
    · exact ⟨chan_min Color.getBlue _ rfl cA, chan_max Color.getBlue _ rfl cC⟩
  · have := time_low ra rA
    exact this
  · have := time_high ra rC
    exact this

theorem attributes_snoc {as : List Attrs} {a A C A' C' : Attrs} (s : AttrStep a A C A' C') (h : AttributeExtremes as A C) :
    AttributeExtremes (as ++ [a]) A' C' := by
  refine ⟨fun key hk => ⟨smallest_snoc (h.1 key hk).1 (s.ints key hk).1, largest_snoc (h.1 key hk).2 (s.ints key hk).2⟩, fun hn => ?_⟩
  have hna : timeOf a ≠ .nan := hn a (by simp)
  obtain ⟨⟨x, hx, ex⟩, h2, ⟨y, hy, ey⟩, h4⟩ := h.2 (fun c hc => hn c (by simp [hc]))
  have nlo : timeOf A ≠ .nan := (Fl.le_num (h2 x hx)).1
  have nhi : timeOf C ≠ .nan := (Fl.le_num (h4 y hy)).2
  unfold timeExtremes
  rw [s.tlo, s.thi]
  refine ⟨?_, ?_, ?_, ?_⟩
  · split
    · exact ⟨a, by simp, rfl⟩
    · exact ⟨x, by simp [hx], ex⟩
  · intro z hz
    rcases List.mem_append.1 hz with hz | hz
    · split
      · exact Fl.le_trans' (Fl.lt_le (by assumption)) (h2 z hz)
      · exact h2 z hz
    · simp at hz; subst hz
      split
      · exact Fl.le_refl' hna
      · exact Fl.le_of_not_lt hna nlo (by assumption)
  · split
    · exact ⟨a, by simp, rfl⟩
    · exact ⟨y, by simp [hy], ey⟩
  · intro z hz
    rcases List.mem_append.1 hz with hz | hz
    · split
      · exact Fl.le_trans' (h4 z hz) (Fl.lt_le (by assumption))
      · exact h4 z hz
    · simp at hz; subst hz
      split
      · exact Fl.le_refl' hna
      · exact Fl.le_of_not_lt nhi hna (by assumption)

theorem attributes_one {a A' C' : Attrs} (s : AttrStep a a a A' C') : AttributeExtremes [a] A' C' := by
  refine ⟨fun key hk => ?_, fun hn => ?_⟩
  · obtain ⟨h1, h2⟩ := s.ints key hk
    rw [min_self] at h1
    rw [max_self] at h2
    exact ⟨⟨⟨a, by simp, h1.symm⟩, by simp [h1]⟩, ⟨⟨a, by simp, h2.symm⟩, by simp [h2]⟩⟩
  · have h := time_single (hn a (by simp))
    unfold timeExtremes at h ⊢
    rw [s.tlo, s.thi, ite_self]
    exact h

/-- Least and greatest of values computed from attributes. -/
def least (g : Attrs → Fl) (as : List Attrs) (v : Fl) : Prop := (∃ a ∈ as, g a = v) ∧ ∀ a ∈ as, Fl.le v (g a) = true
def greatest (g : Attrs → Fl) (as : List Attrs) (v : Fl) : Prop := (∃ a ∈ as, g a = v) ∧ ∀ a ∈ as, Fl.le (g a) v = true

theorem least_snoc {g : Attrs → Fl} (hfin : ∀ a, ∃ x, g a = fin x) {as : List Attrs} {v : Fl} (h : least g as v) (a : Attrs) :
    least g (as ++ [a]) (dmin (g a) v) := by
  obtain ⟨⟨c, hc, rfl⟩, hl⟩ := h
  obtain ⟨x, hx⟩ := hfin a
  obtain ⟨y, hy⟩ := hfin c
  have hmin : dmin (g a) (g c) = fin (min x y) := by
    rw [hx, hy]; simp only [dmin, Fl.lt]
    by_cases hxy : x < y
    · simp [hxy, hxy.le]
    · simp [hxy, not_lt.1 hxy]
  rw [hmin]
  refine ⟨?_, fun d hd => ?_⟩
  · rcases min_choice x y with e | e
    · exact ⟨a, by simp, by rw [e, hx]⟩
    · exact ⟨c, by simp [hc], by rw [e, hy]⟩
  · rcases List.mem_append.1 hd with hd | hd
    · obtain ⟨z, hz⟩ := hfin d
      have := hl d hd
      rw [hy, hz] at this
      rw [hz]
      simp only [Fl.le, decide_eq_true_eq] at this ⊢
      exact le_trans (min_le_right _ _) this
    · simp at hd; subst hd
      rw [hx]; simp [Fl.le]

theorem greatest_snoc {g : Attrs → Fl} (hfin : ∀ a, ∃ x, g a = fin x) {as : List Attrs} {v : Fl} (h : greatest g as v) (a : Attrs) :
    greatest g (as ++ [a]) (dmax (g a) v) := by
  obtain ⟨⟨c, hc, rfl⟩, hl⟩ := h
  obtain ⟨x, hx⟩ := hfin a
  obtain ⟨y, hy⟩ := hfin c
  have hmax : dmax (g a) (g c) = fin (max x y) := by
    rw [hx, hy]; simp only [dmax, Fl.lt]
    by_cases hxy : y < x
    · simp [hxy, hxy.le]
    · simp [hxy, not_lt.1 hxy]
  rw [hmax]
  refine ⟨?_, fun d hd => ?_⟩
  · rcases max_choice x y with e | e
    · exact ⟨a, by simp, by rw [e, hx]⟩
    · exact ⟨c, by simp [hc], by rw [e, hy]⟩
  · rcases List.mem_append.1 hd with hd | hd
    · obtain ⟨z, hz⟩ := hfin d
      have := hl d hd
      rw [hy, hz] at this
      rw [hz]
      simp only [Fl.le, decide_eq_true_eq] at this ⊢
      exact le_trans this (le_max_right _ _)
    · simp at hd; subst hd
      rw [hx]; simp [Fl.le]

theorem dmin_self (v : Fl) : dmin v v = v := by simp [dmin]
theorem dmax_self (v : Fl) : dmax v v = v := by simp [dmax]

/-- The coordinates as functions of the attributes. -/
def xOf (H : PHeader) (a : Attrs) : Fl := scaled a.rawX H.scale.x H.offset.x
def yOf (H : PHeader) (a : Attrs) : Fl := scaled a.rawY H.scale.y H.offset.y
def zOf (H : PHeader) (a : Attrs) : Fl := scaled a.rawZ H.scale.z H.offset.z

/-- The pair of points holds the box of the attributes seen. -/
structure Boxed (H : PHeader) (as : List Attrs) (A C : Attrs) : Prop where
  x : least (xOf H) as (xOf H A) ∧ greatest (xOf H) as (xOf H C)
  y : least (yOf H) as (yOf H A) ∧ greatest (yOf H) as (yOf H C)
  z : least (zOf H) as (zOf H A) ∧ greatest (zOf H) as (zOf H C)

/-- What holds after the points `as`. -/
structure Inv (b : Build) (f : PointFormat) (H : PHeader) (as : List Attrs) (s : CSummary) : Prop where
  counters : cCountersRight as s
  ext : ∃ A C, Tracks b f H H s.ext A C ∧ Boxed H as A C ∧ AttributeExtremes as A C

theorem boxed_snoc {H : PHeader} (hg : GoodScaling H) {as : List Attrs} {a A C A' C' : Attrs} (h : Boxed H as A C)
    (h1 : xOf H A' = dmin (xOf H a) (xOf H A)) (h2 : yOf H A' = dmin (yOf H a) (yOf H A)) (h3 : zOf H A' = dmin (zOf H a) (zOf H A))
    (h4 : xOf H C' = dmax (xOf H a) (xOf H C)) (h5 : yOf H C' = dmax (yOf H a) (yOf H C)) (h6 : zOf H C' = dmax (zOf H a) (zOf H C)) :
    Boxed H (as ++ [a]) A' C' := by
  have fx : ∀ a, ∃ x, xOf H a = fin x := fun a => (scaled_back hg.1).1
  have fy : ∀ a, ∃ x, yOf H a = fin x := fun a => (scaled_back hg.2.1).1
  have fz : ∀ a, ∃ x, zOf H a = fin x := fun a => (scaled_back hg.2.2).1
  exact ⟨⟨h1 ▸ least_snoc fx h.x.1 a, h4 ▸ greatest_snoc fx h.x.2 a⟩, ⟨h2 ▸ least_snoc fy h.y.1 a, h5 ▸ greatest_snoc fy h.y.2 a⟩,
    ⟨h3 ▸ least_snoc fz h.z.1 a, h6 ▸ greatest_snoc fz h.z.2 a⟩⟩

theorem boxed_one {H : PHeader} (hg : GoodScaling H) {a A' C' : Attrs}
    (h1 : xOf H A' = xOf H a) (h2 : yOf H A' = yOf H a) (h3 : zOf H A' = zOf H a)
    (h4 : xOf H C' = xOf H a) (h5 : yOf H C' = yOf H a) (h6 : zOf H C' = zOf H a) : Boxed H [a] A' C' := by
  have fx : ∀ a, ∃ x, xOf H a = fin x := fun a => (scaled_back hg.1).1
  have fy : ∀ a, ∃ x, yOf H a = fin x := fun a => (scaled_back hg.2.1).1
  have fz : ∀ a, ∃ x, zOf H a = fin x := fun a => (scaled_back hg.2.2).1
  have key : ∀ g : Attrs → Fl, (∀ a, ∃ x, g a = fin x) → least g [a] (g a) ∧ greatest g [a] (g a) := by
    intro g hf
    obtain ⟨x, hx⟩ := hf a
    refine ⟨⟨⟨a, by simp, rfl⟩, ?_⟩, ⟨a, by simp, rfl⟩, ?_⟩ <;> (intro d hd; simp at hd; subst hd; rw [hx]; simp [Fl.le])
  refine ⟨?_, ?_, ?_⟩
  · rw [h1, h4]; exact key _ fx
  · rw [h2, h5]; exact key _ fy
  · rw [h3, h6]; exact key _ fz

/-- The counters after one more point. -/
theorem add_core {b : Build} {f : PointFormat} {H : PHeader} (hg : GoodScaling H) {p : Point} {a : Attrs} {as : List Attrs}
    {s : CSummary} {A C : Attrs} (hp : Shows b f p a) (hh : p.hdr = H) (ht : Tracks b f H H s.ext A C) (hc : cCountersRight as s) :
    ∃ s' A' C', addPoint b p s = .ok s' ∧ cCountersRight (as ++ [a]) s' ∧ Tracks b f H H s'.ext A' C' ∧
      xOf H A' = dmin (xOf H a) (xOf H A) ∧ yOf H A' = dmin (yOf H a) (yOf H A) ∧ zOf H A' = dmin (zOf H a) (zOf H A) ∧
      xOf H C' = dmax (xOf H a) (xOf H C) ∧ yOf H C' = dmax (yOf H a) (yOf H C) ∧ zOf H C' = dmax (zOf H a) (zOf H C) ∧
      AttrStep a A C A' C' := by
  obtain ⟨e0, A0, C0, r, t0, k1, k2, k3, k4, k5, k6, q1, q2⟩ := widenBox_spec hg hp hh ht
  obtain ⟨e', r', t⟩ := widenAttrs_spec hp t0
  have hstep := attr_step hp.reg t0.mn.reg t0.mx.reg (packed_lt hp.1 hp.2.2) (packed_lt t0.mn.1 t0.mn.2.2) (packed_lt t0.mx.1 t0.mx.2.2)
  have hstep : AttrStep a A C (taken f umin smin tmin a A0) (taken f umax smax tmax a C0) := by
    obtain ⟨i1, i2, i3⟩ := hstep
    have t1 : timeOf A0 = timeOf A := by rw [q1]; rfl
    have t2 : timeOf C0 = timeOf C := by rw [q2]; rfl
    refine ⟨fun key hk => ?_, by rw [i2, t1], by rw [i3, t2]⟩
    obtain ⟨j1, j2⟩ := i1 key hk
    have y1 : key A0 = key A := by
      rw [q1]
      simp only [cNumericAttrs, List.mem_cons, List.not_mem_nil, or_false] at hk
      rcases hk with rfl | rfl | rfl | rfl | rfl | rfl | rfl | rfl | rfl | rfl | rfl | rfl <;> rfl
    have y2 : key C0 = key C := by
      rw [q2]
      simp only [cNumericAttrs, List.mem_cons, List.not_mem_nil, or_false] at hk
      rcases hk with rfl | rfl | rfl | rfl | rfl | rfl | rfl | rfl | rfl | rfl | rfl | rfl <;> rfl
    rw [y1] at j1; rw [y2] at j2
    exact ⟨j1, j2⟩
  have P := parts hp.2.2
  have hk := packed_lt hp.1 hp.2.2
  obtain ⟨rn, grn, hrn⟩ := P.rn
  obtain ⟨nr, gnr, hnr⟩ := P.nr
  obtain ⟨h1, h2, h3, h4, h5, h6, h7⟩ := hc
  have hz : (rn ≠ 0) ↔ a.returnNumber ≠ 0 := by
    rw [← hrn]
    constructor
    · intro h hh; exact h (BitVec.eq_of_toNat_eq (by simpa using hh))
    · intro h hh; exact h (by rw [hh]; rfl)
  have b1 : bump s.byReturn (if rn ≠ 0 then rn.toNat - 1 else rn.toNat) =
      .ok (table 8 fun r => tally (as ++ [a]) (fun a => countedAs a (r + 1))) := by
    rw [h2]
    refine bump_table (by split <;> omega) (fun j => ?_)
    rw [tally_snoc]
    have : countedAs a (j + 1) = decide (j = if rn ≠ 0 then rn.toNat - 1 else rn.toNat) := by
      simp only [countedAs]
      by_cases h0 : a.returnNumber = 0
      · have : ¬ (rn ≠ 0) := fun h => hz.1 h h0
        rw [if_neg this, hrn, h0]
        by_cases hj : j = 0 <;> simp [hj]
      · rw [if_pos (hz.2 h0), hrn]
        by_cases hj : j = a.returnNumber - 1
        · have : a.returnNumber = j + 1 := by omega
          simp [this]
        · have : ¬ (a.returnNumber = j + 1) := by omega
          simp [hj, this, h0]
    rw [this]; simp
  have b2 : bump s.ofPulse nr.toNat = .ok (table 8 fun c => tally (as ++ [a]) (fun a => a.numberOfReturns == c)) := by
    rw [h3]
    refine bump_table (by omega) (fun j => ?_)
    rw [tally_snoc, hnr]
    by_cases hj : j = a.numberOfReturns
    · simp [hj]
    · have : ¬ (a.numberOfReturns = j) := fun e => hj e.symm
      simp [hj, this]
  have hm : ∀ x : BitVec 8, (x &&& 31).toNat = x.toNat % 32 ∧ (x &&& 32 != 0) = x.getLsbD 5 ∧ (x &&& 64 != 0) = x.getLsbD 6 ∧
      (x &&& 128 != 0) = x.getLsbD 7 := by decide +kernel
  obtain ⟨m1, m2, m3, m4⟩ := hm a.classification.flags
  have b3 : bump s.classes (a.classification.flags &&& 31).toNat =
      .ok (table 32 fun c => tally (as ++ [a]) (fun a => a.classification.flags.toNat % 32 == c)) := by
    rw [h4, m1]
    refine bump_table (by omega) (fun j => ?_)
    rw [tally_snoc]
    by_cases hj : j = a.classification.flags.toNat % 32
    · simp [hj]
    · have : ¬ (a.classification.flags.toNat % 32 = j) := fun e => hj e.symm
      simp [hj, this]
  refine ⟨⟨s.count + 1, table 8 fun r => tally (as ++ [a]) (fun a => countedAs a (r + 1)),
    table 8 fun c => tally (as ++ [a]) (fun a => a.numberOfReturns == c),
    table 32 fun c => tally (as ++ [a]) (fun a => a.classification.flags.toNat % 32 == c),
    addIf s.synthetic (a.classification.flags &&& 32 != 0), addIf s.keypoint (a.classification.flags &&& 64 != 0),
    addIf s.withheld (a.classification.flags &&& 128 != 0), e'⟩, _, _, ?_, ⟨?_, rfl, rfl, rfl, ?_, ?_, ?_⟩, t, ?_, ?_, ?_, ?_, ?_, ?_, hstep⟩
  · simp only [addPoint, r, r', grn, gnr, P.c, Outcome.bind_ok, b1, b2, b3, Outcome.pure_eq]
  · rw [tally_snoc]; simp [h1]
  · rw [tally_snoc]; simp only [addIf, m2, h5]
  · rw [tally_snoc]; simp only [addIf, m3, h6]
  · rw [tally_snoc]; simp only [addIf, m4, h7]
  · simp only [taken, xOf, k1, scaled_low]
  · simp only [taken, yOf, k2, scaled_low]
  · simp only [taken, zOf, k3, scaled_low]
  · simp only [taken, xOf, k4, scaled_high]
  · simp only [taken, yOf, k5, scaled_high]
  · simp only [taken, zOf, k6, scaled_high]

end LibLAS.LasCommon
