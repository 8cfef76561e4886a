import Verif.Lemmas.IndexRead
/-
A query looks at one point after the other; what it does depends on nothing but whether the point is accepted.
-/
namespace LibLAS.Index
open Spec

/-- One coordinate of a point of cell `c` is accepted. -/
def axisOK (a : Axis) (no : Bool) (c : Int) (lo hi v : Fl) : Bool :=
  no || (a.inside c || ((decide (c = a.lowBorder) || decide (c = a.highBorder)) && between lo hi v))

/-- A point of cell `x`, `y`, `z` is accepted. -/
def accept (w : Window) (x y z : Int) (p : Pt) : Bool :=
  axisOK w.x w.q.noX x w.q.min.x w.q.max.x p.x && (axisOK w.y w.q.noY y w.q.min.y w.q.max.y p.y &&
    axisOK w.z w.q.noZ z w.q.min.z w.q.max.z p.z)

/-- The point has not been read, or it has and the reader is behind it. -/
def Ready (P : Pt) (id : Nat) (lastRead : Bool) (p : Option Pt) (r : RPos) : Prop :=
  (p = none ∧ (lastRead = true → r = id)) ∨ (p = some P ∧ r = id + 1)

theorem fetch_ok {pts : List Pt} {id r : Nat} {P : Pt} (lastId : Int) {lastRead : Bool} (h : pts[id]? = some P) (hr : lastRead = true → r = id) :
    fetch pts id lastId lastRead r = (some P, id + 1) := by
  have hlt := (List.getElem?_eq_some_iff.1 h).1
  unfold fetch
  by_cases hc : (id : Int) = lastId + 1 ∧ lastRead = true
  · rw [if_pos hc, hr hc.2]
    simp only [readNext, h]
  · rw [if_neg hc]
    simp only
    rw [if_pos (by omega)]
    simp only [readNext, Int.toNat_natCast, h]

theorem axisGood_ok {pts : List Pt} {id : Nat} {P : Pt} (a : Axis) (no : Bool) (c : Int) (lo hi : Fl) (coord : Pt → Fl) (lastId : Int) {lastRead : Bool}
    {p : Option Pt} {r : RPos} (h : pts[id]? = some P) (hr : Ready P id lastRead p r) :
    ∃ p' r', axisGood pts a no c lo hi coord id lastId lastRead p r = (axisOK a no c lo hi (coord P), p', r') ∧ Ready P id lastRead p' r' := by
  unfold axisGood axisOK
  by_cases h1 : no = true
  · rw [if_pos h1, h1]; exact ⟨p, r, rfl, hr⟩
  · rw [if_neg h1]
    simp only [Bool.not_eq_true] at h1
    rw [h1]
    by_cases h2 : a.inside c = true
    · rw [if_pos h2, h2]; exact ⟨p, r, rfl, hr⟩
    · rw [if_neg h2]
      simp only [Bool.not_eq_true] at h2
      rw [h2]
      by_cases h3 : c = a.lowBorder ∨ c = a.highBorder
      · rw [if_pos h3]
        have h4 : (decide (c = a.lowBorder) || decide (c = a.highBorder)) = true := by simpa using h3
        rw [h4]
        rcases hr with ⟨k1, k2⟩ | ⟨k1, k2⟩
        · subst k1
          simp only [fetch_ok lastId h k2]
          exact ⟨_, _, rfl, Or.inr ⟨rfl, rfl⟩⟩
        · subst k1
          exact ⟨_, _, rfl, Or.inr ⟨rfl, k2⟩⟩
      · rw [if_neg h3]
        have h4 : (decide (c = a.lowBorder) || decide (c = a.highBorder)) = false := by simpa using h3
        rw [h4]
        exact ⟨p, r, rfl, hr⟩

theorem filterOnePoint_ok {pts : List Pt} {id : Nat} {P : Pt} (w : Window) (x y z lastId : Int) {lastRead : Bool} {r : RPos}
    (h : pts[id]? = some P) (hr : lastRead = true → r = id) :
    ∃ lr r', filterOnePoint pts w x y z id lastId lastRead r = (accept w x y z P, lr, r') ∧ (lr = true → r' = id + 1) := by
  unfold filterOnePoint accept
  obtain ⟨p1, r1, e1, k1⟩ := axisGood_ok w.x w.q.noX x w.q.min.x w.q.max.x Pt.x lastId h (Or.inl ⟨rfl, hr⟩ : Ready P id lastRead none r)
  simp only [e1]
  have fin : ∀ {p r}, Ready P id lastRead p r → (p.isSome = true → r = id + 1) := by
    intro p r hp hs
    rcases hp with ⟨rfl, -⟩ | ⟨-, h⟩
    · simp at hs
    · exact h
  by_cases gx : axisOK w.x w.q.noX x w.q.min.x w.q.max.x P.x = true
  · obtain ⟨p2, r2, e2, k2⟩ := axisGood_ok w.y w.q.noY y w.q.min.y w.q.max.y Pt.y lastId h k1
    simp only [gx, if_true, e2, Bool.true_and]
    by_cases gy : axisOK w.y w.q.noY y w.q.min.y w.q.max.y P.y = true
    · obtain ⟨p3, r3, e3, k3⟩ := axisGood_ok w.z w.q.noZ z w.q.min.z w.q.max.z Pt.z lastId h k2
      simp only [gy, if_true, e3, Bool.true_and]
      exact ⟨_, _, rfl, fin k3⟩
    · simp only [Bool.not_eq_true] at gy
      simp only [gy, Bool.false_eq_true, if_false, Bool.false_and]
      exact ⟨_, _, rfl, fin k2⟩
  · simp only [Bool.not_eq_true] at gx
    simp only [gx, Bool.false_eq_true, if_false, Bool.false_and]
    exact ⟨_, _, rfl, fin k1⟩

/-- A scan without the reader. -/
def Scan.at (s : Scan) (rd : RPos) : Scan := { s with rd := rd }

/-- What a scan does with a list of points, each accepted or not. -/
def eat (ignore : Nat) : List (Option Nat) → Scan → Scan
  | [], s => s
  | a :: as, s =>
    let s := s.count 1
    if ignore < s.scanned then
      match a with
      | none => eat ignore as s
      | some id => if (s.take id).2 then (s.take id).1 else eat ignore as (s.take id).1
    else eat ignore as s

/-- The points of a run. -/
def runItems (pts : List Pt) (w : Window) (x y z : Int) (id n : Nat) : List (Option Nat) :=
  (List.range n).map fun k => if (pts[id + k]?.any (accept w x y z)) = true then some (id + k) else none

theorem runItems_succ (pts : List Pt) (w : Window) (x y z : Int) (id n : Nat) :
    runItems pts w x y z id (n + 1) = (if (pts[id]?.any (accept w x y z)) = true then some id else none) :: runItems pts w x y z (id + 1) n := by
  unfold runItems
  rw [List.range_succ_eq_map]
  simp only [List.map_cons, List.map_map, Nat.add_zero]
  congr 1
  apply List.map_congr_left
  intro k _
  simp only [Function.comp, Nat.succ_eq_add_one]
  rw [show id + (k + 1) = id + 1 + k by omega]

theorem count_at (s : Scan) (n : Nat) (r : RPos) : (s.at r).count n = (s.count n).at r := rfl
theorem full_at (s : Scan) (r : RPos) : (s.at r).full = s.full := rfl
theorem take_at (s : Scan) (id : Nat) (r : RPos) : (s.at r).take id = ((s.take id).1.at r, (s.take id).2) := by
  unfold Scan.take
  simp only [Scan.at]
  cases s.it with
  | none => rfl
  | some it =>
    simp only
    split <;> rfl

theorem take_scanned (s : Scan) (id : Nat) : (s.take id).1.scanned = s.scanned := by
  unfold Scan.take
  cases s.it with
  | none => rfl
  | some it =>
    simp only
    split <;> rfl

theorem at_at (s : Scan) (r q : RPos) : (s.at r).at q = s.at q := rfl

theorem eat_at (ignore : Nat) (l : List (Option Nat)) : ∀ (s : Scan) (r : RPos), eat ignore l (s.at r) = (eat ignore l s).at r := by
  induction l with
  | nil => intro s r; rfl
  | cons a l ih =>
    intro s r
    unfold eat
    simp only
    by_cases h : ignore < (s.count 1).scanned
    · have h' : ignore < ((s.at r).count 1).scanned := h
      rw [if_pos h, if_pos h', count_at]
      cases a with
      | none => exact ih _ _
      | some id =>
        simp only [take_at]
        split
        · rfl
        · exact ih _ _
    · have h' : ¬ ignore < ((s.at r).count 1).scanned := h
      rw [if_neg h, if_neg h', count_at]
      exact ih _ _

theorem i32_small {n : Nat} (h : n < 2 ^ 31) : i32 n = n := by
  unfold i32
  rw [BitVec.toInt_eq_toNat_of_lt] <;> simp only [BitVec.toNat_ofNat] <;> omega

theorem series_ok {pts : List Pt} (w : Window) (ignore x y z : Nat) (hp : pts.length ≤ 2 ^ 31) (n : Nat) :
    ∀ (id lastId : Nat) (lastRead : Bool) (s : Scan), id + n ≤ pts.length → (lastRead = true → s.rd = id ∧ ignore < s.scanned + 1) →
      ∃ r, Scan.series pts w ignore x y z n id lastId lastRead s = (eat ignore (runItems pts w (i32 x) (i32 y) (i32 z) id n) s).at r := by
  induction n with
  | zero => intro id lastId lastRead s _ _; exact ⟨s.rd, rfl⟩
  | succ n ih =>
    intro id lastId lastRead s hn hr
    rw [runItems_succ]
    unfold Scan.series eat
    simp only
    by_cases hi : ignore < (s.count 1).scanned
    · rw [if_pos hi, if_pos hi]
      obtain ⟨P, hP⟩ : ∃ P, pts[id]? = some P := ⟨pts[id], List.getElem?_eq_getElem (by omega)⟩
      obtain ⟨lr, r', e1, e2⟩ := filterOnePoint_ok w (i32 x) (i32 y) (i32 z) (i32 lastId) (r := (s.count 1).rd) hP fun h => (hr h).1
      rw [i32_small (n := id) (by omega), e1, hP]
      simp only [Option.any_some]
      by_cases hg : accept w (i32 x) (i32 y) (i32 z) P = true
      · simp only [if_pos hg]
        rw [show ({ s.count 1 with rd := r' } : Scan) = (s.count 1).at r' from rfl, take_at]
        split
        · exact ⟨r', rfl⟩
        · obtain ⟨q, hq⟩ := ih (id + 1) id lr (((s.count 1).take id).1.at r') (by omega) fun h => ⟨e2 h, by
            show ignore < ((s.count 1).take id).1.scanned + 1
            rw [take_scanned]; omega⟩
          refine ⟨q, ?_⟩
          simp only
          rw [hq, eat_at, at_at]
      · simp only [if_neg hg]
        obtain ⟨q, hq⟩ := ih (id + 1) id lr ((s.count 1).at r') (by omega) fun h => ⟨e2 h, by show ignore < (s.count 1).scanned + 1; omega⟩
        refine ⟨q, ?_⟩
        show Scan.series pts w ignore x y z n (id + 1) id lr ((s.count 1).at r') = _
        rw [hq, eat_at, at_at]
    · rw [if_neg hi, if_neg hi]
      refine ih (id + 1) id lastRead (s.count 1) (by omega) fun h => absurd (hr h).2 ?_
      have : (s.count 1).scanned = s.scanned + 1 := rfl
      omega

end LibLAS.Index
