import Verif.Model.Summary
import Verif.Spec.Summary
import Verif.Props.Point
import Verif.Props.Bounds
/-
The running extremes of a summary, seen through the getters.
-/
set_option linter.unusedSimpArgs false
namespace LibLAS
open Spec Point

namespace Summary

theorem bind_ok_inv {α β : Type} {x : Outcome α} {f : α → Outcome β} {b : β} (h : (x >>= f) = .ok b) :
    ∃ a, x = .ok a ∧ f a = .ok b := by
  cases x with
  | ok a => exact ⟨a, rfl, h⟩
  | throw e => exact absurd h (by simp)
  | ub => exact absurd h (by simp)

/-- All getters, one at a time. -/
structure Parts (b : Build) (p : Point) (a : Attrs) : Prop where
  x : p.getRawX b = .ok a.rawX
  y : p.getRawY b = .ok a.rawY
  z : p.getRawZ b = .ok a.rawZ
  i : p.getIntensity b = .ok a.intensity
  rn : ∃ r, p.getReturnNumber = .ok r ∧ r.toNat = a.returnNumber
  nr : ∃ r, p.getNumberOfReturns = .ok r ∧ r.toNat = a.numberOfReturns
  sd : ∃ r, p.getScanDirection = .ok r ∧ r.toNat = a.scanDirection
  fe : ∃ r, p.getFlightLineEdge = .ok r ∧ r.toNat = a.edge
  c : p.getClassification = .ok a.classification
  ar : p.getScanAngleRank = .ok a.scanAngle
  u : p.getUserData = .ok a.userData
  s : p.getPointSourceID b = .ok a.sourceId
  t : p.getTime b = .ok a.time
  col : p.getColor b = .ok a.color

theorem parts {b : Build} {p : Point} {a : Attrs} (h : observe b p = .ok a) : Parts b p a := by
  unfold observe at h
  obtain ⟨_, h1, h⟩ := bind_ok_inv h
  obtain ⟨_, h2, h⟩ := bind_ok_inv h
  obtain ⟨_, h3, h⟩ := bind_ok_inv h
  obtain ⟨_, h4, h⟩ := bind_ok_inv h
  obtain ⟨_, h5, h⟩ := bind_ok_inv h
  obtain ⟨_, h6, h⟩ := bind_ok_inv h
  obtain ⟨_, h7, h⟩ := bind_ok_inv h
  obtain ⟨_, h8, h⟩ := bind_ok_inv h
  obtain ⟨_, h9, h⟩ := bind_ok_inv h
  obtain ⟨_, h10, h⟩ := bind_ok_inv h
  obtain ⟨_, h11, h⟩ := bind_ok_inv h
  obtain ⟨_, h12, h⟩ := bind_ok_inv h
  obtain ⟨_, h13, h⟩ := bind_ok_inv h
  obtain ⟨_, h14, h⟩ := bind_ok_inv h
  simp only [Outcome.pure_eq, Outcome.ok.injEq] at h
  subst h
  exact ⟨h1, h2, h3, h4, ⟨_, h5, rfl⟩, ⟨_, h6, rfl⟩, ⟨_, h7, rfl⟩, ⟨_, h8, rfl⟩, h9, h10, h11, h12, h13, h14⟩

/-- Packed attributes are in range. -/
theorem packed_lt {b : Build} {p : Point} {a : Attrs} (hp : p.WF) (h : observe b p = .ok a) :
    a.returnNumber < 8 ∧ a.numberOfReturns < 8 ∧ a.scanDirection < 2 ∧ a.edge < 2 := by
  rw [observe_eq hp] at h; cases h
  simp only [view]
  generalize rdByte p.data 14 = f
  revert f; decide +kernel

/-- A well-formed point of format `f` showing the attributes `a`. -/
def Shows (b : Build) (f : PointFormat) (p : Point) (a : Attrs) : Prop :=
  p.WF ∧ p.hdr.fmt = f ∧ observe b p = .ok a

theorem shows_set {b : Build} {f : PointFormat} {p : Point} {a : Attrs} (op : SetOp) (h : Shows b f p a)
    (hs : supported f op = true) :
    ∃ q, exec b p op = .ok q ∧ q.hdr = p.hdr ∧ Shows b f q (apply a op) := by
  obtain ⟨hw, hf, ho⟩ := h
  obtain ⟨q, a', h1, h2, h3, h4, h5, _⟩ := set_then_get b p op hw (by rw [hf]; exact hs)
  rw [ho] at h2; cases h2
  exact ⟨q, h1, h5, h4, by rw [h5, hf], h3⟩

/-- A pair of points showing a pair of attribute records, with given headers. -/
structure Tracks (b : Build) (f : PointFormat) (hmn hmx : PHeader) (e : Extremes) (A C : Attrs) : Prop where
  mn : Shows b f e.minimum A
  mx : Shows b f e.maximum C
  hmn : e.minimum.hdr = hmn
  hmx : e.maximum.hdr = hmx

theorem step_spec {α κ : Type} {b : Build} {f : PointFormat} {p : Point} {a : Attrs} {e : Extremes} {A C : Attrs}
    {hmn hmx : PHeader}
    {get : Point → Outcome α} {set : Point → α → Outcome Point} {lt : α → α → Bool}
    (K : α → κ) (proj : Attrs → κ) (ltK : κ → κ → Bool) (put : Attrs → κ → Attrs)
    (hlt : ∀ v w, lt v w = ltK (K v) (K w))
    (hget : ∀ q c, Shows b f q c → ∃ v, get q = .ok v ∧ K v = proj c)
    (hset : ∀ q c v, Shows b f q c → K v = proj a →
      ∃ q', set q v = .ok q' ∧ q'.hdr = q.hdr ∧ Shows b f q' (put c (K v)))
    (hp : Shows b f p a) (ht : Tracks b f hmn hmx e A C) :
    ∃ e', Extremes.step get set lt p e = .ok e' ∧
      Tracks b f hmn hmx e' (if ltK (proj a) (proj A) then put A (proj a) else A)
        (if ltK (proj C) (proj a) then put C (proj a) else C) := by
  obtain ⟨tmn, tmx, h1, h2⟩ := ht
  obtain ⟨v, gv, kv⟩ := hget p a hp
  obtain ⟨lo, glo, klo⟩ := hget _ _ tmn
  obtain ⟨hi, ghi, khi⟩ := hget _ _ tmx
  obtain ⟨q1, s1, d1, w1⟩ := hset _ _ v tmn kv
  obtain ⟨q2, s2, d2, w2⟩ := hset _ _ v tmx kv
  unfold Extremes.step
  simp only [gv, glo, ghi, Outcome.bind_ok, Extremes.upd, hlt, kv, klo, khi]
  rw [kv] at w1 w2
  by_cases c1 : ltK (proj a) (proj A) = true <;> by_cases c2 : ltK (proj C) (proj a) = true <;>
    simp only [c1, c2, if_true, if_false, s1, s2, Outcome.bind_ok, Outcome.pure_eq, Bool.false_eq_true]
  · exact ⟨_, rfl, w1, w2, d1.trans h1, d2.trans h2⟩
  · exact ⟨_, rfl, w1, tmx, d1.trans h1, h2⟩
  · exact ⟨_, rfl, tmn, w2, h1, d2.trans h2⟩
  · exact ⟨_, rfl, tmn, tmx, h1, h2⟩

/-- The new minimum of one number. -/
def low {κ : Type} (lt : κ → κ → Bool) (v m : κ) : κ := if lt v m then v else m
/-- The new maximum of one number. -/
def high {κ : Type} (lt : κ → κ → Bool) (v m : κ) : κ := if lt m v then v else m

def ilt (a b : Int) : Bool := decide (a < b)
def nlt (a b : Nat) : Bool := decide (a < b)

/-- The attributes of the minimum after one point. -/
def lowAttrs (f : PointFormat) (a A : Attrs) : Attrs where
  rawX := low Extremes.slt a.rawX A.rawX
  rawY := low Extremes.slt a.rawY A.rawY
  rawZ := low Extremes.slt a.rawZ A.rawZ
  intensity := low Extremes.ult a.intensity A.intensity
  returnNumber := low nlt a.returnNumber A.returnNumber
  numberOfReturns := low nlt a.numberOfReturns A.numberOfReturns
  scanDirection := low nlt a.scanDirection A.scanDirection
  edge := low nlt a.edge A.edge
  classification := if Extremes.ult a.classification.getClass A.classification.getClass then
    ⟨a.classification.getClass⟩ else A.classification
  scanAngle := low Extremes.slt a.scanAngle A.scanAngle
  userData := low Extremes.ult a.userData A.userData
  sourceId := low Extremes.ult a.sourceId A.sourceId
  time := if hasTime f then low Extremes.dlt a.time A.time else A.time
  color := if hasColor f then ⟨low Extremes.ult a.color.getRed A.color.getRed,
    low Extremes.ult a.color.getGreen A.color.getGreen, low Extremes.ult a.color.getBlue A.color.getBlue⟩ else A.color

/-- The attributes of the maximum after one point. -/
def highAttrs (f : PointFormat) (a A : Attrs) : Attrs where
  rawX := high Extremes.slt a.rawX A.rawX
  rawY := high Extremes.slt a.rawY A.rawY
  rawZ := high Extremes.slt a.rawZ A.rawZ
  intensity := high Extremes.ult a.intensity A.intensity
  returnNumber := high nlt a.returnNumber A.returnNumber
  numberOfReturns := high nlt a.numberOfReturns A.numberOfReturns
  scanDirection := high nlt a.scanDirection A.scanDirection
  edge := high nlt a.edge A.edge
  classification := if Extremes.ult A.classification.getClass a.classification.getClass then
    ⟨a.classification.getClass⟩ else A.classification
  scanAngle := high Extremes.slt a.scanAngle A.scanAngle
  userData := high Extremes.ult a.userData A.userData
  sourceId := high Extremes.ult a.sourceId A.sourceId
  time := if hasTime f then high Extremes.dlt a.time A.time else A.time
  color := if hasColor f then ⟨high Extremes.ult a.color.getRed A.color.getRed,
    high Extremes.ult a.color.getGreen A.color.getGreen, high Extremes.ult a.color.getBlue A.color.getBlue⟩ else A.color


section steps
variable {b : Build} {f : PointFormat} {p : Point} {a : Attrs} {e : Extremes} {A C : Attrs} {hmn hmx : PHeader}

theorem step_plain {α : Type} {get : Point → Outcome α} {set : Point → α → Outcome Point} {lt : α → α → Bool}
    (proj : Attrs → α) (mk : α → SetOp) (hsup : ∀ v, supported f (mk v) = true)
    (hget : ∀ q c, Parts b q c → get q = .ok (proj c)) (hset : ∀ q v, set q v = exec b q (mk v))
    (hp : Shows b f p a) (ht : Tracks b f hmn hmx e A C) :
    ∃ e', Extremes.step get set lt p e = .ok e' ∧
      Tracks b f hmn hmx e' (if lt (proj a) (proj A) then apply A (mk (proj a)) else A)
        (if lt (proj C) (proj a) then apply C (mk (proj a)) else C) := by
  refine step_spec id proj lt (fun c v => apply c (mk v)) (fun _ _ => rfl)
    (fun q c h => ⟨_, hget q c (parts h.2.2), rfl⟩) (fun q c v h _ => ?_) hp ht
  obtain ⟨q', h1, h2, h3⟩ := shows_set (mk v) h (hsup v)
  exact ⟨q', by rw [hset, h1], h2, h3⟩

theorem step_packed {get : Point → Outcome (BitVec 16)} {set : Point → BitVec 16 → Outcome Point}
    (proj : Attrs → Nat) (put : Attrs → Nat → Attrs) (mk : BitVec 16 → SetOp)
    (hsup : ∀ v, supported f (mk v) = true)
    (hget : ∀ q c, Parts b q c → ∃ v, get q = .ok v ∧ v.toNat = proj c) (hset : ∀ q v, set q v = exec b q (mk v))
    (hput : ∀ c v, v.toNat = proj a → apply c (mk v) = put c v.toNat)
    (hp : Shows b f p a) (ht : Tracks b f hmn hmx e A C) :
    ∃ e', Extremes.step get set Extremes.ult p e = .ok e' ∧
      Tracks b f hmn hmx e' (if nlt (proj a) (proj A) then put A (proj a) else A)
        (if nlt (proj C) (proj a) then put C (proj a) else C) := by
  refine step_spec BitVec.toNat proj nlt put (fun _ _ => rfl)
    (fun q c h => hget q c (parts h.2.2)) (fun q c v h hv => ?_) hp ht
  obtain ⟨q', h1, h2, h3⟩ := shows_set (mk v) h (hsup v)
  exact ⟨q', by rw [hset, h1], h2, by rw [← hput c v hv]; exact h3⟩

theorem upd_spec (c : Bool) (op : SetOp) {q : Point} {B : Attrs} (hsup : supported f op = true)
    (set : Point → Outcome Point) (hset : ∀ q, set q = exec b q op) (h : Shows b f q B) :
    ∃ q', Extremes.upd c set q = .ok q' ∧ q'.hdr = q.hdr ∧ Shows b f q' (if c then apply B op else B) := by
  cases c
  · exact ⟨q, rfl, rfl, h⟩
  · obtain ⟨q', h1, h2, h3⟩ := shows_set op h hsup
    exact ⟨q', by simp [Extremes.upd, hset, h1], h2, by simpa using h3⟩

theorem tracks_congr {A' C' : Attrs} (h : Tracks b f hmn hmx e A C) (hA : A = A') (hC : C = C') :
    Tracks b f hmn hmx e A' C' := by subst hA; subst hC; exact h

theorem stepClass_spec (hp : Shows b f p a) (ht : Tracks b f hmn hmx e A C) :
    ∃ e', Extremes.stepClass p e = .ok e' ∧
      Tracks b f hmn hmx e'
        { A with classification := if Extremes.ult a.classification.getClass A.classification.getClass then
            ⟨a.classification.getClass⟩ else A.classification }
        { C with classification := if Extremes.ult C.classification.getClass a.classification.getClass then
            ⟨a.classification.getClass⟩ else C.classification } := by
  obtain ⟨tmn, tmx, h1, h2⟩ := ht
  have g := (parts hp.2.2).c
  have g1 := (parts tmn.2.2).c
  have g2 := (parts tmx.2.2).c
  unfold Extremes.stepClass
  simp only [g, g1, g2, Outcome.bind_ok]
  generalize hx : a.classification.getClass = x
  generalize hy : A.classification.getClass = y
  generalize hw : C.classification.getClass = w
  obtain ⟨q1, u1, d1, w1⟩ := upd_spec (Extremes.ult (if Extremes.ult y x = true then y else x) y)
    (.classification ⟨if Extremes.ult y x = true then y else x⟩) (by rfl) (fun q => q.setClassification _) (fun q => rfl) tmn
  obtain ⟨q2, u2, d2, w2⟩ := upd_spec (Extremes.ult w (if Extremes.ult w x = true then x else w))
    (.classification ⟨if Extremes.ult w x = true then x else w⟩) (by rfl) (fun q => q.setClassification _) (fun q => rfl) tmx
  simp only [u1, u2, Outcome.bind_ok, Outcome.pure_eq]
  refine ⟨_, rfl, tracks_congr ⟨w1, w2, d1.trans h1, d2.trans h2⟩ ?_ ?_⟩
  · by_cases c : y.toNat < x.toNat
    · have c' : ¬ x.toNat < y.toNat := by omega
      simp [Extremes.ult, c, c']
    · simp [Extremes.ult, c, apply]; split <;> rfl
  · by_cases c : w.toNat < x.toNat
    · simp [Extremes.ult, c, apply]
    · simp [Extremes.ult, c]

theorem stepTime_spec (hp : Shows b f p a) (ht : Tracks b f hmn hmx e A C) :
    ∃ e', Extremes.stepTime b (hasTime f) p e = .ok e' ∧
      Tracks b f hmn hmx e'
        { A with time := if hasTime f then low Extremes.dlt a.time A.time else A.time }
        { C with time := if hasTime f then high Extremes.dlt a.time C.time else C.time } := by
  unfold Extremes.stepTime
  cases hf : hasTime f
  · exact ⟨e, rfl, ht⟩
  · obtain ⟨e', h1, h2⟩ := step_plain (get := Point.getTime b) (set := Point.setTime b) (lt := Extremes.dlt)
      (fun a => a.time) .time (fun _ => hf) (fun q c h => h.t) (fun _ _ => rfl) hp ht
    exact ⟨e', by simpa using h1, tracks_congr h2 (by simp only [low, apply]; split <;> rfl)
      (by simp only [high, apply]; split <;> rfl)⟩

theorem stepColor_spec (hp : Shows b f p a) (ht : Tracks b f hmn hmx e A C) :
    ∃ e', Extremes.stepColor b (hasColor f) p e = .ok e' ∧
      Tracks b f hmn hmx e'
        { A with color := if hasColor f then ⟨low Extremes.ult a.color.getRed A.color.getRed,
            low Extremes.ult a.color.getGreen A.color.getGreen, low Extremes.ult a.color.getBlue A.color.getBlue⟩
            else A.color }
        { C with color := if hasColor f then ⟨high Extremes.ult a.color.getRed C.color.getRed,
            high Extremes.ult a.color.getGreen C.color.getGreen, high Extremes.ult a.color.getBlue C.color.getBlue⟩
            else C.color } := by
  unfold Extremes.stepColor
  cases hf : hasColor f
  · exact ⟨e, rfl, ht⟩
  · obtain ⟨tmn, tmx, h1, h2⟩ := ht
    have g := (parts hp.2.2).col
    have g1 := (parts tmn.2.2).col
    have g2 := (parts tmx.2.2).col
    simp only [g, g1, g2, Outcome.bind_ok, if_true]
    obtain ⟨q1, u1, d1, w1⟩ := upd_spec (Extremes.ult a.color.getRed A.color.getRed ||
        Extremes.ult a.color.getGreen A.color.getGreen || Extremes.ult a.color.getBlue A.color.getBlue)
      (.color ⟨low Extremes.ult a.color.getRed A.color.getRed,
            low Extremes.ult a.color.getGreen A.color.getGreen, low Extremes.ult a.color.getBlue A.color.getBlue⟩)
      hf (fun q => q.setColor b _) (fun q => rfl) tmn
    obtain ⟨q2, u2, d2, w2⟩ := upd_spec (Extremes.ult C.color.getRed a.color.getRed ||
        Extremes.ult C.color.getGreen a.color.getGreen || Extremes.ult C.color.getBlue a.color.getBlue)
      (.color ⟨high Extremes.ult a.color.getRed C.color.getRed,
            high Extremes.ult a.color.getGreen C.color.getGreen, high Extremes.ult a.color.getBlue C.color.getBlue⟩)
      hf (fun q => q.setColor b _) (fun q => rfl) tmx
    simp only [low, high] at u1 u2 w1 w2
    simp only [u1, u2, Outcome.bind_ok, Outcome.pure_eq]
    refine ⟨_, rfl, tracks_congr ⟨w1, w2, d1.trans h1, d2.trans h2⟩ ?_ ?_⟩
    · simp only [low, apply]
      split
      · rfl
      · rename_i h
        simp only [Bool.or_eq_true, not_or] at h
        simp only [h, if_false, Bool.false_eq_true]
        rfl
    · simp only [high, apply]
      split
      · rfl
      · rename_i h
        simp only [Bool.or_eq_true, not_or] at h
        simp only [h, if_false, Bool.false_eq_true]
        rfl

theorem put_intensity {v} {c d : Prop} [Decidable c] [Decidable d]
    (h : Tracks b f hmn hmx e (if c then (apply A (.intensity v)) else A) (if d then (apply C (.intensity v)) else C)) :
    Tracks b f hmn hmx e { A with intensity := if c then v else A.intensity } { C with intensity := if d then v else C.intensity } :=
  tracks_congr h (by split <;> rfl) (by split <;> rfl)
theorem put_rn {v} {c d : Prop} [Decidable c] [Decidable d]
    (h : Tracks b f hmn hmx e (if c then ({ A with returnNumber := v }) else A) (if d then ({ C with returnNumber := v }) else C)) :
    Tracks b f hmn hmx e { A with returnNumber := if c then v else A.returnNumber } { C with returnNumber := if d then v else C.returnNumber } :=
  tracks_congr h (by split <;> rfl) (by split <;> rfl)
theorem put_nr {v} {c d : Prop} [Decidable c] [Decidable d]
    (h : Tracks b f hmn hmx e (if c then ({ A with numberOfReturns := v }) else A) (if d then ({ C with numberOfReturns := v }) else C)) :
    Tracks b f hmn hmx e { A with numberOfReturns := if c then v else A.numberOfReturns } { C with numberOfReturns := if d then v else C.numberOfReturns } :=
  tracks_congr h (by split <;> rfl) (by split <;> rfl)
theorem put_sd {v} {c d : Prop} [Decidable c] [Decidable d]
    (h : Tracks b f hmn hmx e (if c then ({ A with scanDirection := v }) else A) (if d then ({ C with scanDirection := v }) else C)) :
    Tracks b f hmn hmx e { A with scanDirection := if c then v else A.scanDirection } { C with scanDirection := if d then v else C.scanDirection } :=
  tracks_congr h (by split <;> rfl) (by split <;> rfl)
theorem put_edge {v} {c d : Prop} [Decidable c] [Decidable d]
    (h : Tracks b f hmn hmx e (if c then ({ A with edge := v }) else A) (if d then ({ C with edge := v }) else C)) :
    Tracks b f hmn hmx e { A with edge := if c then v else A.edge } { C with edge := if d then v else C.edge } :=
  tracks_congr h (by split <;> rfl) (by split <;> rfl)
theorem put_angle {v} {c d : Prop} [Decidable c] [Decidable d]
    (h : Tracks b f hmn hmx e (if c then (apply A (.scanAngle v)) else A) (if d then (apply C (.scanAngle v)) else C)) :
    Tracks b f hmn hmx e { A with scanAngle := if c then v else A.scanAngle } { C with scanAngle := if d then v else C.scanAngle } :=
  tracks_congr h (by split <;> rfl) (by split <;> rfl)
theorem put_user {v} {c d : Prop} [Decidable c] [Decidable d]
    (h : Tracks b f hmn hmx e (if c then (apply A (.userData v)) else A) (if d then (apply C (.userData v)) else C)) :
    Tracks b f hmn hmx e { A with userData := if c then v else A.userData } { C with userData := if d then v else C.userData } :=
  tracks_congr h (by split <;> rfl) (by split <;> rfl)
theorem put_source {v} {c d : Prop} [Decidable c] [Decidable d]
    (h : Tracks b f hmn hmx e (if c then (apply A (.sourceId v)) else A) (if d then (apply C (.sourceId v)) else C)) :
    Tracks b f hmn hmx e { A with sourceId := if c then v else A.sourceId } { C with sourceId := if d then v else C.sourceId } :=
  tracks_congr h (by split <;> rfl) (by split <;> rfl)

theorem stepAll_spec (hp : Shows b f p a) (ht : Tracks b f hmn hmx e A C) :
    ∃ e', Extremes.stepAll b (hasTime f) (hasColor f) p e = .ok e' ∧
      Tracks b f hmn hmx e' (lowAttrs f a A) (highAttrs f a C) := by
  have hk := packed_lt hp.1 hp.2.2
  obtain ⟨e1, r1, t1⟩ := step_plain (lt := Extremes.slt) (fun a => a.rawX) .rawX (fun _ => rfl) (fun q c h => h.x)
    (set := Point.setRawX b) (fun _ _ => rfl) hp ht
  replace t1 := tracks_congr (A' := { A with rawX := low Extremes.slt a.rawX A.rawX })
    (C' := { C with rawX := high Extremes.slt a.rawX C.rawX }) t1
    (by simp only [low, apply]; split <;> rfl) (by simp only [high, apply]; split <;> rfl)
  obtain ⟨e2, r2, t2⟩ := step_plain (lt := Extremes.slt) (fun a => a.rawY) .rawY (fun _ => rfl) (fun q c h => h.y)
    (set := Point.setRawY b) (fun _ _ => rfl) hp t1
  replace t2 := tracks_congr (A' := { A with
      rawX := low Extremes.slt a.rawX A.rawX
      rawY := low Extremes.slt a.rawY A.rawY })
    (C' := { C with
      rawX := high Extremes.slt a.rawX C.rawX
      rawY := high Extremes.slt a.rawY C.rawY }) t2
    (by simp only [low, apply]; split <;> rfl) (by simp only [high, apply]; split <;> rfl)
  obtain ⟨e3, r3, t3⟩ := step_plain (lt := Extremes.slt) (fun a => a.rawZ) .rawZ (fun _ => rfl) (fun q c h => h.z)
    (set := Point.setRawZ b) (fun _ _ => rfl) hp t2
  replace t3 := tracks_congr (A' := { A with
      rawX := low Extremes.slt a.rawX A.rawX
      rawY := low Extremes.slt a.rawY A.rawY
      rawZ := low Extremes.slt a.rawZ A.rawZ })
    (C' := { C with
      rawX := high Extremes.slt a.rawX C.rawX
      rawY := high Extremes.slt a.rawY C.rawY
      rawZ := high Extremes.slt a.rawZ C.rawZ }) t3
    (by simp only [low, apply]; split <;> rfl) (by simp only [high, apply]; split <;> rfl)
  obtain ⟨e4, r4, t4⟩ := step_plain (lt := Extremes.ult) (fun a => a.intensity) .intensity (fun _ => rfl)
    (fun q c h => h.i) (set := Point.setIntensity b) (fun _ _ => rfl) hp t3
  replace t4 := put_intensity t4
  obtain ⟨e5, r5, t5⟩ := stepTime_spec hp t4
  obtain ⟨e6, r6, t6⟩ := step_packed (set := Point.setReturnNumber) (fun a => a.returnNumber)
    (fun c v => { c with returnNumber := v }) .returnNumber (fun _ => rfl)
    (fun q c h => h.rn) (fun _ _ => rfl) (fun c v h => by simp only [apply]; rw [Nat.mod_eq_of_lt (by omega)]) hp t5
  replace t6 := put_rn t6
  obtain ⟨e7, r7, t7⟩ := step_packed (set := Point.setNumberOfReturns) (fun a => a.numberOfReturns)
    (fun c v => { c with numberOfReturns := v }) .numberOfReturns (fun _ => rfl)
    (fun q c h => h.nr) (fun _ _ => rfl) (fun c v h => by simp only [apply]; rw [Nat.mod_eq_of_lt (by omega)]) hp t6
  replace t7 := put_nr t7
  obtain ⟨e8, r8, t8⟩ := step_packed (set := Point.setScanDirection) (fun a => a.scanDirection)
    (fun c v => { c with scanDirection := v }) .scanDirection (fun _ => rfl)
    (fun q c h => h.sd) (fun _ _ => rfl) (fun c v h => by simp only [apply]; rw [Nat.mod_eq_of_lt (by omega)]) hp t7
  replace t8 := put_sd t8
  obtain ⟨e9, r9, t9⟩ := step_packed (set := Point.setFlightLineEdge) (fun a => a.edge)
    (fun c v => { c with edge := v }) .edge (fun _ => rfl)
    (fun q c h => h.fe) (fun _ _ => rfl) (fun c v h => by simp only [apply]; rw [Nat.mod_eq_of_lt (by omega)]) hp t8
  replace t9 := put_edge t9
  obtain ⟨e10, r10, t10⟩ := step_plain (lt := Extremes.slt) (fun a => a.scanAngle) .scanAngle (fun _ => rfl)
    (fun q c h => h.ar) (set := Point.setScanAngleRank) (fun _ _ => rfl) hp t9
  replace t10 := put_angle t10
  obtain ⟨e11, r11, t11⟩ := step_plain (lt := Extremes.ult) (fun a => a.userData) .userData (fun _ => rfl)
    (fun q c h => h.u) (set := Point.setUserData) (fun _ _ => rfl) hp t10
  replace t11 := put_user t11
  obtain ⟨e12, r12, t12⟩ := step_plain (lt := Extremes.ult) (fun a => a.sourceId) .sourceId (fun _ => rfl)
    (fun q c h => h.s) (set := Point.setPointSourceID b) (fun _ _ => rfl) hp t11
  replace t12 := put_source t12
  obtain ⟨e13, r13, t13⟩ := stepClass_spec hp t12
  obtain ⟨e14, r14, t14⟩ := stepColor_spec hp t13
  refine ⟨e14, ?_, tracks_congr t14 ?_ ?_⟩
  · simp only [Extremes.stepAll, Extremes.stepCoords, r1, r2, r3, r4, r5, r6, r7, r8, r9, r10, r11, r12, r13, r14,
      Outcome.bind_ok]
  · rfl
  · rfl

end steps

end Summary
end LibLAS

namespace LibLAS
open Spec Point
namespace Summary

/-- Formats without time or colour show 0 and black. -/
def Reg (f : PointFormat) (a : Attrs) : Prop :=
  (hasTime f = false → a.time = 0) ∧ (hasColor f = false → a.color = ⟨0, 0, 0⟩)

theorem Shows.reg {b : Build} {f : PointFormat} {p : Point} {a : Attrs} (h : Shows b f p a) : Reg f a := by
  obtain ⟨hw, hf, ho⟩ := h
  obtain ⟨h1, h2⟩ := unsupported_attribute b p hw
  rw [hf] at h1 h2
  exact ⟨fun c => (h1 c).2 a ho, fun c => (h2 c).2 a ho⟩

theorem low_slt {n : Nat} (x y : BitVec n) : (low Extremes.slt x y).toInt = min x.toInt y.toInt := by
  unfold low Extremes.slt; split <;> rename_i h <;> simp at h <;> omega
theorem high_slt {n : Nat} (x y : BitVec n) : (high Extremes.slt x y).toInt = max x.toInt y.toInt := by
  unfold high Extremes.slt; split <;> rename_i h <;> simp at h <;> omega
theorem low_ult {n : Nat} (x y : BitVec n) : ((low Extremes.ult x y).toNat : Int) = min (x.toNat : Int) y.toNat := by
  unfold low Extremes.ult; split <;> rename_i h <;> simp at h <;> omega
theorem high_ult {n : Nat} (x y : BitVec n) : ((high Extremes.ult x y).toNat : Int) = max (x.toNat : Int) y.toNat := by
  unfold high Extremes.ult; split <;> rename_i h <;> simp at h <;> omega
theorem low_nlt (x y : Nat) : ((low nlt x y : Nat) : Int) = min (x : Int) y := by
  unfold low nlt; split <;> rename_i h <;> simp at h <;> omega
theorem high_nlt (x y : Nat) : ((high nlt x y : Nat) : Int) = max (x : Int) y := by
  unfold high nlt; split <;> rename_i h <;> simp at h <;> omega

theorem getClass_toNat (c : Classification) : c.getClass.toNat = c.flags.toNat % 32 := by
  obtain ⟨f⟩ := c
  revert f; decide +kernel

theorem class_mk (c : Classification) : (Classification.mk c.getClass).flags.toNat % 32 = c.flags.toNat % 32 := by
  show c.getClass.toNat % 32 = _
  rw [getClass_toNat]; omega

theorem low_color {f : PointFormat} {a A : Attrs} (ha : Reg f a) (hA : Reg f A) :
    (lowAttrs f a A).color = ⟨low Extremes.ult a.color.getRed A.color.getRed,
    low Extremes.ult a.color.getGreen A.color.getGreen, low Extremes.ult a.color.getBlue A.color.getBlue⟩ := by
  simp only [lowAttrs]
  cases h : hasColor f
  · rw [ha.2 h, hA.2 h]; rfl
  · rfl

theorem high_color {f : PointFormat} {a A : Attrs} (ha : Reg f a) (hA : Reg f A) :
    (highAttrs f a A).color = ⟨high Extremes.ult a.color.getRed A.color.getRed,
    high Extremes.ult a.color.getGreen A.color.getGreen, high Extremes.ult a.color.getBlue A.color.getBlue⟩ := by
  simp only [highAttrs]
  cases h : hasColor f
  · rw [ha.2 h, hA.2 h]; rfl
  · rfl

theorem key_low {f : PointFormat} {a A : Attrs} (ha : Reg f a) (hA : Reg f A) :
    ∀ key ∈ numericAttrs, key (lowAttrs f a A) = min (key a) (key A) := by
  have hc : (((lowAttrs f a A).classification.flags.toNat % 32 : Nat) : Int) =
      min ((a.classification.flags.toNat % 32 : Nat) : Int) ((A.classification.flags.toNat % 32 : Nat) : Int) := by
    have e : (lowAttrs f a A).classification = if Extremes.ult a.classification.getClass A.classification.getClass then
        ⟨a.classification.getClass⟩ else A.classification := rfl
    rw [e]
    by_cases h : Extremes.ult a.classification.getClass A.classification.getClass = true
    · rw [if_pos h]
      simp only [Extremes.ult, decide_eq_true_eq, getClass_toNat] at h
      rw [class_mk]; omega
    · rw [if_neg h]
      simp only [Extremes.ult, decide_eq_true_eq, getClass_toNat] at h
      omega
  simp only [numericAttrs, List.forall_mem_cons, low_color ha hA]
  refine ⟨low_slt _ _, low_slt _ _, low_slt _ _, low_ult _ _, low_nlt _ _, low_nlt _ _, low_nlt _ _, low_nlt _ _,
    low_slt _ _, low_ult _ _, low_ult _ _, by push_cast at hc ⊢; exact hc, low_ult _ _, low_ult _ _, low_ult _ _, by simp⟩

theorem key_high {f : PointFormat} {a A : Attrs} (ha : Reg f a) (hA : Reg f A) :
    ∀ key ∈ numericAttrs, key (highAttrs f a A) = max (key a) (key A) := by
  have hc : (((highAttrs f a A).classification.flags.toNat % 32 : Nat) : Int) =
      max ((a.classification.flags.toNat % 32 : Nat) : Int) ((A.classification.flags.toNat % 32 : Nat) : Int) := by
    have e : (highAttrs f a A).classification = if Extremes.ult A.classification.getClass a.classification.getClass then
        ⟨a.classification.getClass⟩ else A.classification := rfl
    rw [e]
    by_cases h : Extremes.ult A.classification.getClass a.classification.getClass = true
    · rw [if_pos h]
      simp only [Extremes.ult, decide_eq_true_eq, getClass_toNat] at h
      rw [class_mk]; omega
    · rw [if_neg h]
      simp only [Extremes.ult, decide_eq_true_eq, getClass_toNat] at h
      omega
  simp only [numericAttrs, List.forall_mem_cons, high_color ha hA]
  refine ⟨high_slt _ _, high_slt _ _, high_slt _ _, high_ult _ _, high_nlt _ _, high_nlt _ _, high_nlt _ _,
    high_nlt _ _, high_slt _ _, high_ult _ _, high_ult _ _, by push_cast at hc ⊢; exact hc, high_ult _ _, high_ult _ _,
    high_ult _ _, by simp⟩

theorem time_low {f : PointFormat} {a A : Attrs} (ha : Reg f a) (hA : Reg f A) :
    timeOf (lowAttrs f a A) = if Fl.lt (timeOf a) (timeOf A) then timeOf a else timeOf A := by
  have e : (lowAttrs f a A).time = if hasTime f then low Extremes.dlt a.time A.time else A.time := rfl
  cases h : hasTime f
  · have e1 : timeOf (lowAttrs f a A) = timeOf A := by unfold timeOf; rw [e, h]; rfl
    have e2 : timeOf a = timeOf A := by unfold timeOf; rw [ha.1 h, hA.1 h]
    rw [e1, e2, ite_self]
  · by_cases c : Fl.lt (timeOf a) (timeOf A) = true
    · rw [if_pos c]; unfold timeOf at c ⊢; rw [e, h]; simp only [if_true, low]; rw [if_pos (show Extremes.dlt a.time A.time = true from c)]
    · rw [if_neg c]; unfold timeOf at c ⊢; rw [e, h]; simp only [if_true, low]; rw [if_neg (show ¬ Extremes.dlt a.time A.time = true from c)]

theorem time_high {f : PointFormat} {a A : Attrs} (ha : Reg f a) (hA : Reg f A) :
    timeOf (highAttrs f a A) = if Fl.lt (timeOf A) (timeOf a) then timeOf a else timeOf A := by
  have e : (highAttrs f a A).time = if hasTime f then high Extremes.dlt a.time A.time else A.time := rfl
  cases h : hasTime f
  · have e1 : timeOf (highAttrs f a A) = timeOf A := by unfold timeOf; rw [e, h]; rfl
    have e2 : timeOf a = timeOf A := by unfold timeOf; rw [ha.1 h, hA.1 h]
    rw [e1, e2, ite_self]
  · by_cases c : Fl.lt (timeOf A) (timeOf a) = true
    · rw [if_pos c]; unfold timeOf at c ⊢; rw [e, h]; simp only [if_true, high]; rw [if_pos (show Extremes.dlt A.time a.time = true from c)]
    · rw [if_neg c]; unfold timeOf at c ⊢; rw [e, h]; simp only [if_true, high]; rw [if_neg (show ¬ Extremes.dlt A.time a.time = true from c)]

theorem smallest_snoc {key : Attrs → Int} {as : List Attrs} {a : Attrs} {v w : Int} (h : isSmallest key as v)
    (hw : w = min (key a) v) : isSmallest key (as ++ [a]) w := by
  obtain ⟨⟨x, hx, hk⟩, hl⟩ := h
  refine ⟨?_, ?_⟩
  · by_cases c : key a < v
    · exact ⟨a, by simp, by omega⟩
    · exact ⟨x, by simp [hx], by omega⟩
  · intro y hy
    rcases List.mem_append.1 hy with hy | hy
    · have := hl y hy; omega
    · simp at hy; subst hy; omega

theorem largest_snoc {key : Attrs → Int} {as : List Attrs} {a : Attrs} {v w : Int} (h : isLargest key as v)
    (hw : w = max (key a) v) : isLargest key (as ++ [a]) w := by
  obtain ⟨⟨x, hx, hk⟩, hl⟩ := h
  refine ⟨?_, ?_⟩
  · by_cases c : v < key a
    · exact ⟨a, by simp, by omega⟩
    · exact ⟨x, by simp [hx], by omega⟩
  · intro y hy
    rcases List.mem_append.1 hy with hy | hy
    · have := hl y hy; omega
    · simp at hy; subst hy; omega

theorem numeric_snoc {f : PointFormat} {as : List Attrs} {a lo hi : Attrs} (ha : Reg f a) (hl : Reg f lo)
    (hh : Reg f hi) (h : numericExtremes as lo hi) :
    numericExtremes (as ++ [a]) (lowAttrs f a lo) (highAttrs f a hi) := by
  intro key hk
  exact ⟨smallest_snoc (h key hk).1 (key_low ha hl key hk), largest_snoc (h key hk).2 (key_high ha hh key hk)⟩

theorem numeric_single (a : Attrs) : numericExtremes [a] a a := by
  intro key _
  exact ⟨⟨⟨a, by simp, rfl⟩, by simp⟩, ⟨⟨a, by simp, rfl⟩, by simp⟩⟩

theorem time_snoc {f : PointFormat} {as : List Attrs} {a lo hi : Attrs} (ha : Reg f a) (hl : Reg f lo)
    (hh : Reg f hi) (hn : timeOf a ≠ .nan) (h : timeExtremes as lo hi) :
    timeExtremes (as ++ [a]) (lowAttrs f a lo) (highAttrs f a hi) := by
  obtain ⟨⟨x, hx, ex⟩, h2, ⟨y, hy, ey⟩, h4⟩ := h
  have nlo : timeOf lo ≠ .nan := (Fl.le_num (h2 x hx)).1
  have nhi : timeOf hi ≠ .nan := (Fl.le_num (h4 y hy)).2
  unfold timeExtremes
  rw [time_low ha hl, time_high ha hh]
  refine ⟨?_, ?_, ?_, ?_⟩
  · split
    · exact ⟨a, by simp, rfl⟩
    · exact ⟨x, by simp [hx], ex⟩
  · intro z hz
    rcases List.mem_append.1 hz with hz | hz
    · split
      · exact Fl.le_trans' (Fl.lt_le (by assumption)) (h2 z hz)
      · exact h2 z hz
    · simp at hz; subst hz
      split
      · exact Fl.le_refl' hn
      · exact Fl.le_of_not_lt hn nlo (by assumption)
  · split
    · exact ⟨a, by simp, rfl⟩
    · exact ⟨y, by simp [hy], ey⟩
  · intro z hz
    rcases List.mem_append.1 hz with hz | hz
    · split
      · exact Fl.le_trans' (h4 z hz) (Fl.lt_le (by assumption))
      · exact h4 z hz
    · simp at hz; subst hz
      split
      · exact Fl.le_refl' hn
      · exact Fl.le_of_not_lt nhi hn (by assumption)

theorem time_single {a : Attrs} (hn : timeOf a ≠ .nan) : timeExtremes [a] a a :=
  ⟨⟨a, by simp, rfl⟩, by simpa using Fl.le_refl' hn, ⟨a, by simp, rfl⟩, by simpa using Fl.le_refl' hn⟩

theorem fl_lt_irrefl (x : Fl) : Fl.lt x x = false := by
  rcases x with _ | (_ | _) | x <;> simp [Fl.lt]

theorem lowAttrs_self (f : PointFormat) (a : Attrs) : lowAttrs f a a = a := by
  have hu : ∀ {n} (x : BitVec n), low Extremes.ult x x = x := by intro n x; simp [low]
  have hs : ∀ {n} (x : BitVec n), low Extremes.slt x x = x := by intro n x; simp [low]
  have hn : ∀ (x : Nat), low nlt x x = x := by intro x; simp [low]
  obtain ⟨_, _, _, _, _, _, _, _, c, _, _, _, t, ⟨r, g, bl⟩⟩ := a
  have ht : (if hasTime f = true then low Extremes.dlt t t else t) = t := by simp [low]
  simp only [lowAttrs, hu, hs, hn, ht, Color.getRed, Color.getGreen, Color.getBlue, Extremes.ult, Nat.lt_irrefl,
    decide_false, Bool.false_eq_true, if_false, ite_self]

theorem highAttrs_self (f : PointFormat) (a : Attrs) : highAttrs f a a = a := by
  have hu : ∀ {n} (x : BitVec n), high Extremes.ult x x = x := by intro n x; simp [high]
  have hs : ∀ {n} (x : BitVec n), high Extremes.slt x x = x := by intro n x; simp [high]
  have hn : ∀ (x : Nat), high nlt x x = x := by intro x; simp [high]
  obtain ⟨_, _, _, _, _, _, _, _, c, _, _, _, t, ⟨r, g, bl⟩⟩ := a
  have ht : (if hasTime f = true then high Extremes.dlt t t else t) = t := by simp [high]
  simp only [highAttrs, hu, hs, hn, ht, Color.getRed, Color.getGreen, Color.getBlue, Extremes.ult, Nat.lt_irrefl,
    decide_false, Bool.false_eq_true, if_false, ite_self]

/-- A table of tallies. -/
def table (n : Nat) (g : Nat → BitVec 32) : List (BitVec 32) := (List.range n).map g

theorem bump_table {n i : Nat} {g g' : Nat → BitVec 32} (hi : i < n)
    (hg : ∀ j, g' j = if j = i then g j + 1 else g j) : bump (table n g) i = .ok (table n g') := by
  unfold bump table
  rw [if_pos (by simpa using hi)]
  congr 1
  apply List.ext_getElem?
  intro k
  rw [List.getElem?_modify]
  by_cases hk : k < n
  · by_cases h : i = k
    · subst h; simp [hi, hg]
    · have h' : ¬ k = i := fun e => h e.symm
      simp [hk, hg, h, h']
  · simp [hk]

theorem tally_snoc (as : List Attrs) (a : Attrs) (p : Attrs → Bool) :
    tally (as ++ [a]) p = if p a then tally as p + 1 else tally as p := by
  unfold tally
  by_cases h : p a = true
  · rw [List.countP_append, if_pos h]; simp [List.countP_cons, h, BitVec.ofNat_add]
  · rw [List.countP_append, if_neg h]; simp [List.countP_cons, h]

end Summary
end LibLAS
