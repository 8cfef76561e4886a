import Verif.Lemmas.Coord
import Verif.Lemmas.FloatOrder
import Verif.Props.Point
/-
C05 (scaled coordinates), C07 (point comparison), C08 (re-homing a point to another header).
-/
set_option linter.unusedSimpArgs false
namespace LibLAS
open Spec Fl

/-- Scale and offset are finite, the scale is neither vanishing nor huge and the offset is at most 2^50 scale units:
the range in which doubles can tell adjacent multiples of the scale apart. -/
def GoodAxis (s o : Fl) : Prop :=
  ∃ sq oq : ℚ, s = fin sq ∧ o = fin oq ∧ 1 / 2 ^ 1000 ≤ |sq| ∧ |sq| ≤ 2 ^ 900 ∧ |oq| ≤ 2 ^ 50 * |sq|

/-- The same for all three axes of a header. -/
def GoodScaling (h : PHeader) : Prop :=
  GoodAxis h.scale.x h.offset.x ∧ GoodAxis h.scale.y h.offset.y ∧ GoodAxis h.scale.z h.offset.z

/-- The coordinate is at most 2^31 - 2 scale units away from the offset, so it fits the 32-bit integer. -/
def InRange (x s o : Fl) : Prop :=
  ∃ xq sq oq : ℚ, x = fin xq ∧ s = fin sq ∧ o = fin oq ∧ |(xq - oq) / sq| ≤ 2 ^ 31 - 2

/-- Integer `v` denotes the coordinate `x` up to half a scale unit (plus 2^-18 units of floating-point rounding). -/
def Nearest (v : BitVec 32) (x s o : Fl) : Prop :=
  ∃ xq sq oq : ℚ, x = fin xq ∧ s = fin sq ∧ o = fin oq ∧
    |v.toInt * sq + oq - xq| ≤ |sq| * (1 / 2 + 1 / 2 ^ 18)

namespace Point

private theorem descaled_near {x s o : Fl} (hg : GoodAxis s o) (hr : InRange x s o) :
    ∃ v, descaled x s o = .ok v ∧ Nearest v x s o := by
  obtain ⟨sq, oq, rfl, rfl, hs, hs2, _⟩ := hg
  obtain ⟨xq, sq', oq', rfl, h1, h2, hb⟩ := hr
  cases h1; cases h2
  have hs0 : 0 < |sq| := lt_of_lt_of_le (by positivity) hs
  have hsne : sq ≠ 0 := by intro h; simp [h] at hs0
  obtain ⟨n, hn1, hn2, _⟩ := descaled_spec (x := xq) (o := oq) hs hs2 (by norm_num at hb ⊢; linarith)
  have hnr : -2147483648 ≤ n ∧ n ≤ 2147483647 := by
    rw [abs_le] at hb hn2
    norm_num at hb hn2
    constructor
    · have : (-2147483648 : ℚ) ≤ n := by linarith [hb.1, hb.2, hn2.1, hn2.2]
      exact_mod_cast this
    · have : (n : ℚ) ≤ 2147483647 := by linarith [hb.1, hb.2, hn2.1, hn2.2]
      exact_mod_cast this
  refine ⟨BitVec.ofInt 32 n, ?_, xq, sq, oq, rfl, rfl, rfl, ?_⟩
  · unfold descaled
    rw [hn1, toInt32_int hnr.1 hnr.2]
  · have ht : (BitVec.ofInt 32 n).toInt = n := by
      rw [BitVec.toInt_ofInt]
      exact Int.bmod_eq_of_le (by omega) (by omega)
    rw [ht]
    have : (n : ℚ) * sq + oq - xq = ((n : ℚ) - (xq - oq) / sq) * sq := by field_simp; ring
    rw [this, abs_mul, mul_comm |sq|]
    exact mul_le_mul_of_nonneg_right hn2 hs0.le

private theorem descaled_scaled' {v : BitVec 32} {s o : Fl} (hg : GoodAxis s o) :
    descaled (scaled v s o) s o = .ok v := by
  obtain ⟨sq, oq, rfl, rfl, hs, hs2, ho⟩ := hg
  obtain ⟨x, h1, h2⟩ := descaled_scaled (v := v) hs hs2 ho
  rw [h1, h2]

/-- C05, first half: on a well-conditioned axis, storing the double that was just read changes nothing, for every
stored integer. -/
theorem coordinate_get_set_partial (b : Build) (p : Point) (hwf : p.WF) (hg : GoodScaling p.hdr) :
    (∃ x p', getX b p = .ok x ∧ setX b p x = .ok p' ∧ observe b p' = observe b p) ∧
    (∃ y p', getY b p = .ok y ∧ setY b p y = .ok p' ∧ observe b p' = observe b p) ∧
    (∃ z p', getZ b p = .ok z ∧ setZ b p z = .ok p' ∧ observe b p' = observe b p) := by
  obtain ⟨gx, gy, gz⟩ := hg
  have ho := observe_eq (b := b) hwf
  have h20 : 20 ≤ p.data.length := by
    obtain ⟨hs, hl⟩ := hwf
    cases hf : p.hdr.fmt <;> simp_all [formatSize, PointFormat.std] <;> omega
  have rx : getRawX b p = .ok (view b p.hdr.fmt p.data).rawX := getInt_eq (by omega)
  have ry : getRawY b p = .ok (view b p.hdr.fmt p.data).rawY := getInt_eq (by omega)
  have rz : getRawZ b p = .ok (view b p.hdr.fmt p.data).rawZ := getInt_eq (by omega)
  refine ⟨?_, ?_, ?_⟩
  · obtain ⟨p', a, h1, h2, h3, _⟩ := set_then_get b p (.rawX (view b p.hdr.fmt p.data).rawX) hwf rfl
    rw [ho] at h2; cases h2
    exact ⟨scaled (view b p.hdr.fmt p.data).rawX p.hdr.scale.x p.hdr.offset.x, p', by simp [getX, rx], by simp only [setX, descaled_scaled' gx]; exact h1, by rw [h3, ho]; rfl⟩
  · obtain ⟨p', a, h1, h2, h3, _⟩ := set_then_get b p (.rawY (view b p.hdr.fmt p.data).rawY) hwf rfl
    rw [ho] at h2; cases h2
    exact ⟨scaled (view b p.hdr.fmt p.data).rawY p.hdr.scale.y p.hdr.offset.y, p', by simp [getY, ry], by simp only [setY, descaled_scaled' gy]; exact h1, by rw [h3, ho]; rfl⟩
  · obtain ⟨p', a, h1, h2, h3, _⟩ := set_then_get b p (.rawZ (view b p.hdr.fmt p.data).rawZ) hwf rfl
    rw [ho] at h2; cases h2
    exact ⟨scaled (view b p.hdr.fmt p.data).rawZ p.hdr.scale.z p.hdr.offset.z, p', by simp [getZ, rz], by simp only [setZ, descaled_scaled' gz]; exact h1, by rw [h3, ho]; rfl⟩

/-- The usual case: scale 0.01, offsets of a few million. -/
example : GoodAxis (Fl.ofRat (1 / 100)) (.fin 4567890) := by
  refine ⟨5764607523034235 / 576460752303423488, 4567890, by decide +kernel, rfl, ?_, ?_, ?_⟩
  · refine le_trans (one_div_le_one_div_of_le (by norm_num)
      (pow_le_pow_right₀ (a := (2 : ℚ)) (by norm_num) (show 20 ≤ 1000 by norm_num))) ?_
    norm_num [abs_of_pos]
  · refine le_trans ?_ (pow_le_pow_right₀ (a := (2 : ℚ)) (by norm_num) (show 1 ≤ 900 by norm_num))
    norm_num [abs_of_pos]
  · norm_num [abs_of_pos]

/-- The full first half of C05. -/
def CoordinateRoundTrip : Prop :=
  ∀ (v : BitVec 32) (s o x : ℚ), s ≠ 0 → scaled v (fin s) (fin o) = fin x → descaled (fin x) (fin s) (fin o) = .ok v

/-- C05 fails without the conditioning: with offset 2^60 and scale 1/4 the integer 1 comes back as 0. -/
theorem coordinate_round_trip_fails : ¬ CoordinateRoundTrip := by
  intro h
  have h1 := h 1 (1 / 4) (2 ^ 60) (2 ^ 60) (by norm_num) (by decide +kernel)
  revert h1
  decide +kernel

/-- C05, second half: storing an in-range double stores the nearest multiple of the scale and changes no other
attribute. -/
theorem coordinate_set_nearest (b : Build) (p : Point) (hwf : p.WF) (hg : GoodScaling p.hdr) (x : Fl) :
    (InRange x p.hdr.scale.x p.hdr.offset.x → ∃ p' a v, setX b p x = .ok p' ∧ observe b p = .ok a ∧
      observe b p' = .ok { a with rawX := v } ∧ Nearest v x p.hdr.scale.x p.hdr.offset.x) ∧
    (InRange x p.hdr.scale.y p.hdr.offset.y → ∃ p' a v, setY b p x = .ok p' ∧ observe b p = .ok a ∧
      observe b p' = .ok { a with rawY := v } ∧ Nearest v x p.hdr.scale.y p.hdr.offset.y) ∧
    (InRange x p.hdr.scale.z p.hdr.offset.z → ∃ p' a v, setZ b p x = .ok p' ∧ observe b p = .ok a ∧
      observe b p' = .ok { a with rawZ := v } ∧ Nearest v x p.hdr.scale.z p.hdr.offset.z) := by
  obtain ⟨gx, gy, gz⟩ := hg
  refine ⟨fun hr => ?_, fun hr => ?_, fun hr => ?_⟩
  · obtain ⟨v, hv, hn⟩ := descaled_near gx hr
    obtain ⟨p', a, h1, h2, h3, _⟩ := set_then_get b p (.rawX v) hwf rfl
    exact ⟨p', a, v, by simp only [setX, hv]; exact h1, h2, h3, hn⟩
  · obtain ⟨v, hv, hn⟩ := descaled_near gy hr
    obtain ⟨p', a, h1, h2, h3, _⟩ := set_then_get b p (.rawY v) hwf rfl
    exact ⟨p', a, v, by simp only [setY, hv]; exact h1, h2, h3, hn⟩
  · obtain ⟨v, hv, hn⟩ := descaled_near gz hr
    obtain ⟨p', a, h1, h2, h3, _⟩ := set_then_get b p (.rawZ v) hwf rfl
    exact ⟨p', a, v, by simp only [setZ, hv]; exact h1, h2, h3, hn⟩

/-- C05, all three at once: `SetCoordinates` stores the nearest multiples of the scales on all axes and changes no other
attribute. -/
theorem set_coordinates_nearest (b : Build) (p : Point) (hwf : p.WF) (hg : GoodScaling p.hdr) {x y z : Fl}
    (hx : InRange x p.hdr.scale.x p.hdr.offset.x) (hy : InRange y p.hdr.scale.y p.hdr.offset.y)
    (hz : InRange z p.hdr.scale.z p.hdr.offset.z) :
    ∃ p' a u v w, setCoordinates b p x y z = .ok p' ∧ observe b p = .ok a ∧
      observe b p' = .ok { a with rawX := u, rawY := v, rawZ := w } ∧ Nearest u x p.hdr.scale.x p.hdr.offset.x ∧
      Nearest v y p.hdr.scale.y p.hdr.offset.y ∧ Nearest w z p.hdr.scale.z p.hdr.offset.z := by
  obtain ⟨gx, gy, gz⟩ := hg
  obtain ⟨u, hu, nu⟩ := descaled_near gx hx
  obtain ⟨v, hv, nv⟩ := descaled_near gy hy
  obtain ⟨w, hw, nw⟩ := descaled_near gz hz
  obtain ⟨p1, a, a1, a2, a3, f1, e1, -⟩ := set_then_get b p (.rawX u) hwf rfl
  obtain ⟨p2, a', b1, b2, b3, f2, e2, -⟩ := set_then_get b p1 (.rawY v) f1 rfl
  obtain ⟨p3, a'', c1, c2, c3, -⟩ := set_then_get b p2 (.rawZ w) f2 rfl
  rw [a3] at b2
  cases b2
  rw [b3] at c2
  cases c2
  refine ⟨p3, a, u, v, w, ?_, a2, c3, nu, nv, nw⟩
  have s1 : setX b p x = .ok p1 := by simp only [setX, hu]; exact a1
  have s2 : setY b p1 y = .ok p2 := by rw [setY, e1, hv]; exact b1
  have s3 : setZ b p2 z = .ok p3 := by rw [setZ, e2, e1, hw]; exact c1
  unfold setCoordinates
  rw [s1]
  simp only [Outcome.bind_ok]
  rw [s2]
  simp only [Outcome.bind_ok]
  exact s3

example : InRange (.fin 1000000) (.fin (1 / 4)) (.fin 0) :=
  ⟨1000000, 1 / 4, 0, rfl, rfl, rfl, by norm_num [abs_of_pos]⟩

/-- What the range hypothesis of `coordinate_set_nearest` excludes: a coordinate more than 2^31 + 1 units above the
offset makes the conversion to `int32_t` undefined. -/
theorem coordinate_out_of_range_ub (x s o : ℚ) (hs : 1 / 2 ^ 1000 ≤ |s|) (hs2 : |s| ≤ 2 ^ 900)
    (h1 : 2 ^ 31 + 1 ≤ (x - o) / s) (h2 : (x - o) / s ≤ 2 ^ 32) :
    descaled (fin x) (fin s) (fin o) = .ub := by
  obtain ⟨n, hn1, hn2, _⟩ := descaled_spec hs hs2 (by rw [abs_le]; constructor <;> norm_num at * <;> linarith)
  have : (2147483647 : ℤ) < n := by
    rw [abs_le] at hn2
    norm_num at hn2 h1
    have : (2147483647 : ℚ) < n := by linarith [hn2.1]
    exact_mod_cast this
  unfold descaled
  rw [hn1]
  unfold toInt32
  have hn0 : (0 : ℚ) ≤ n := by have : (0 : ℤ) ≤ n := by omega
                               exact_mod_cast this
  simp only [hn0, if_true, Int.floor_intCast]
  rw [if_neg (by omega)]

example : (2 : ℚ) ^ 31 + 1 ≤ (30000000 - 0) / (1 / 100) ∧ ((30000000 : ℚ) - 0) / (1 / 100) ≤ 2 ^ 32 := by norm_num

/-! ### C07 -/

private theorem ofRat_neg (x : ℚ) : ofRat (-x) = Fl.neg (ofRat x) := by
  have hr : rnd (-x) = - rnd x := by
    unfold rnd ulpExp
    rw [abs_neg, neg_div, rne_neg]
    push_cast; ring
  have hp : (0 : ℚ) < 2 ^ (1024 : ℤ) := by positivity
  unfold ofRat
  rw [hr]
  generalize (2 : ℚ) ^ (1024 : ℤ) = B at *
  generalize rnd x = r
  simp only
  by_cases c1 : B ≤ r
  · rw [if_neg (by linarith), if_pos (by linarith), if_pos c1]; rfl
  · by_cases c2 : r ≤ -B
    · rw [if_pos (by linarith), if_neg c1, if_pos c2]; rfl
    · rw [if_neg (by linarith), if_neg (by linarith), if_neg c1, if_neg c2]; rfl

private theorem within_comm (x y : Fl) : within eqEpsilon (Fl.sub x y) = within eqEpsilon (Fl.sub y x) := by
  have hw : ∀ d, within eqEpsilon (Fl.neg d) = within eqEpsilon d := by
    have he : eqEpsilon = fin (5902958103587057 / 590295810358705651712) := by decide +kernel
    intro d
    rw [he]
    cases d with
    | nan => rfl
    | inf b => cases b <;> rfl
    | fin q =>
      simp only [within, Fl.neg, Fl.le]
      by_cases c1 : q ≤ 5902958103587057 / 590295810358705651712 <;>
        by_cases c2 : -(5902958103587057 / 590295810358705651712) ≤ q
      · rw [decide_eq_true c1, decide_eq_true c2, decide_eq_true (by linarith), decide_eq_true (by linarith)]
      · rw [decide_eq_true c1, decide_eq_false c2, decide_eq_false (by intro h; apply c2; linarith), decide_eq_true (by linarith)]; rfl
      · rw [decide_eq_false c1, decide_eq_true c2, decide_eq_true (by linarith), decide_eq_false (by intro h; apply c1; linarith)]; rfl
      · rw [decide_eq_false c1, decide_eq_false c2, decide_eq_false (by intro h; apply c2; linarith), decide_eq_false (by intro h; apply c1; linarith)]
  rw [← hw]
  congr 1
  cases x with
  | nan => cases y <;> rfl
  | inf a =>
    cases y with
    | nan => rfl
    | inf b => cases a <;> cases b <;> rfl
    | fin q => cases a <;> rfl
  | fin p =>
    cases y with
    | nan => rfl
    | inf b => cases b <;> rfl
    | fin q =>
      show Fl.neg (ofRat (p + -q)) = ofRat (q + -p)
      rw [← ofRat_neg]
      congr 1; ring

/-- C07: point comparison is symmetric (whatever the coordinates, including NaN and infinities). -/
theorem equal_symmetric (b : Build) (p q : Point) (hp : p.WF) (hq : q.WF) : equal b p q = equal b q p := by
  have h20 : ∀ p : Point, p.WF → 20 ≤ p.data.length := by
    rintro p ⟨hs, hl⟩
    cases hf : p.hdr.fmt <;> simp_all [formatSize, PointFormat.std] <;> omega
  have hp' := h20 p hp
  have hq' := h20 q hq
  unfold equal getX getY getZ getRawX getRawY getRawZ
  rw [getInt_eq (by omega), getInt_eq (by omega), getInt_eq (by omega), getInt_eq (by omega),
    getInt_eq (by omega), getInt_eq (by omega)]
  simp only [Outcome.bind_ok, Outcome.pure_eq]
  rw [within_comm (scaled _ p.hdr.scale.x _), within_comm (scaled _ p.hdr.scale.y _),
    within_comm (scaled _ p.hdr.scale.z _)]

/-- C07: comparison is reflexive on points with finite coordinates. -/
theorem equal_reflexive_partial (b : Build) (p : Point) (x y z : ℚ) (hx : getX b p = .ok (fin x))
    (hy : getY b p = .ok (fin y)) (hz : getZ b p = .ok (fin z)) : equal b p p = .ok true := by
  have hs : ∀ q : ℚ, within eqEpsilon (Fl.sub (fin q) (fin q)) = true := by
    intro q
    have : Fl.sub (fin q) (fin q) = fin 0 := by
      simp only [Fl.sub, Fl.neg, Fl.add, add_neg_cancel]; decide +kernel
    rw [this]; decide +kernel
  simp [equal, hx, hy, hz, hs]

/-- A zero-offset header with scale 2^-17 (7.6e-6), a multiple small against the comparison tolerance 1e-5. -/
def exFine : PHeader :=
  ⟨.f0, 20, false, false, ⟨.fin (1 / 2 ^ 17), .fin (1 / 2 ^ 17), .fin (1 / 2 ^ 17)⟩, ⟨.fin 0, .fin 0, .fin 0⟩⟩

/-- The point with raw x `v` and all else zero. -/
def exPoint (h : PHeader) (v : BitVec 32) : Point := step ⟨.little, false⟩ (Point.new h) (.rawX v)

example : equal ⟨.little, false⟩ (exPoint exFine 5) (exPoint exFine 5) = .ok true := by decide +kernel

/-- The third law C07 asks for. -/
def EqualTransitive : Prop :=
  ∀ (b : Build) (p q r : Point), p.WF → q.WF → r.WF → equal b p q = .ok true → equal b q r = .ok true →
    equal b p r = .ok true

/-- C07 fails: comparison is not transitive (tolerance 1e-5, points 7.6e-6 apart). -/
theorem equal_not_transitive : ¬ EqualTransitive := by
  intro h
  have := h ⟨.little, false⟩ (exPoint exFine 0) (exPoint exFine 1) (exPoint exFine 2)
    ⟨rfl, by decide⟩ ⟨rfl, by decide⟩ ⟨rfl, by decide⟩ (by decide +kernel) (by decide +kernel)
  revert this
  decide +kernel

/-- C07: comparison ignores everything but the coordinates. -/
theorem equal_ignores_attributes (b : Build) (p q p' : Point) (op : SetOp) (hp : p.WF)
    (hop : supported p.hdr.fmt op = true) (hne : ∀ v, op ≠ .rawX v ∧ op ≠ .rawY v ∧ op ≠ .rawZ v)
    (he : exec b p op = .ok p') : equal b p' q = equal b p q := by
  obtain ⟨p1, a, h1, h2, h3, h4, h5, h6, _⟩ := set_then_get b p op hp hop
  rw [he] at h1; cases h1
  have hget : ∀ p : Point, p.WF → ∀ a, observe b p = .ok a → getX b p = .ok (scaled a.rawX p.hdr.scale.x p.hdr.offset.x) ∧
      getY b p = .ok (scaled a.rawY p.hdr.scale.y p.hdr.offset.y) ∧
      getZ b p = .ok (scaled a.rawZ p.hdr.scale.z p.hdr.offset.z) := by
    intro p hp a ha
    have h20 : 20 ≤ p.data.length := by
      obtain ⟨hs, hl⟩ := hp
      cases hf : p.hdr.fmt <;> simp_all [formatSize, PointFormat.std] <;> omega
    rw [observe_eq hp] at ha; cases ha
    unfold getX getY getZ getRawX getRawY getRawZ
    rw [getInt_eq (by omega), getInt_eq (by omega), getInt_eq (by omega)]
    simp [view]
  obtain ⟨x1, y1, z1⟩ := hget p hp a h2
  obtain ⟨x2, y2, z2⟩ := hget p' h4 _ h3
  have e : (apply a op).rawX = a.rawX ∧ (apply a op).rawY = a.rawY ∧ (apply a op).rawZ = a.rawZ := by
    cases op <;> simp [apply] at hne ⊢
  simp only [equal, x1, y1, z1, x2, y2, z2, e.1, e.2.1, e.2.2, h5]

end Point
end LibLAS
