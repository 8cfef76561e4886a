import Verif.Spec.PointLife
import Verif.Lemmas.NewFile
/- C100: the program with pointers does what the program with values does. -/
namespace LibLAS.PointLife

theorem use_some {α : Type} {l : List (Option α)} {i : Nat} {a : α} (h : l[i]? = some (some a)) : use l i = .ok a := by
  simp [use, h]

theorem use_cases {α : Type} (l : List (Option α)) (i : Nat) :
    use l i = .ub ∨ ∃ a, l[i]? = some (some a) ∧ use l i = .ok a := by
  unfold use
  rcases h : l[i]? with _ | (_ | a) <;> simp

/-- A setter that does not use the header does the same with every header. -/
theorem settle_any (b : Build) (d : List Byte) (g h : PHeader) (s : CApi.PointSet) (hs : usesHeader s = false) :
    settle b ⟨d, g⟩ s = settle b ⟨d, h⟩ s := by
  have key : ∀ (f : Point → Outcome Point),
      (∀ g h : PHeader, (∃ e, f ⟨d, g⟩ = .ok ⟨e, g⟩ ∧ f ⟨d, h⟩ = .ok ⟨e, h⟩) ∨ (f ⟨d, g⟩ = .ub ∧ f ⟨d, h⟩ = .ub)) →
      (∀ p, s.run b p = f p) → s.quiet = false → settle b ⟨d, g⟩ s = settle b ⟨d, h⟩ s := by
    intro f hf hr hq
    unfold settle CApi.pointSet
    simp only [hq, hr]
    rcases hf g h with ⟨e, h1, h2⟩ | ⟨h1, h2⟩
    · simp [h1, h2, CApi.settled, CApi.attempt]
    · simp [h1, h2, CApi.settled, CApi.attempt]
  have int : ∀ (pos n : Nat) (sg : Bool) (x : BitVec (8 * n)) (g h : PHeader),
      (∃ e, Point.setInt b ⟨d, g⟩ pos n sg x = .ok ⟨e, g⟩ ∧ Point.setInt b ⟨d, h⟩ pos n sg x = .ok ⟨e, h⟩) ∨
      (Point.setInt b ⟨d, g⟩ pos n sg x = .ub ∧ Point.setInt b ⟨d, h⟩ pos n sg x = .ub) := by
    intro pos n sg x g h
    unfold Point.setInt writeAt
    split
    · exact .inl ⟨_, rfl, rfl⟩
    · exact .inr ⟨rfl, rfl⟩
  have byt : ∀ (pos : Nat) (x : Byte) (g h : PHeader),
      (∃ e, Point.setByte ⟨d, g⟩ pos x = .ok ⟨e, g⟩ ∧ Point.setByte ⟨d, h⟩ pos x = .ok ⟨e, h⟩) ∨
      (Point.setByte ⟨d, g⟩ pos x = .ub ∧ Point.setByte ⟨d, h⟩ pos x = .ub) := by
    intro pos x g h
    unfold Point.setByte writeAt
    split
    · exact .inl ⟨_, rfl, rfl⟩
    · exact .inr ⟨rfl, rfl⟩
  have flg : ∀ (m : Byte) (sh : Nat) (x : BitVec 16) (g h : PHeader),
      (∃ e, Point.setFlagBits ⟨d, g⟩ m sh x = .ok ⟨e, g⟩ ∧ Point.setFlagBits ⟨d, h⟩ m sh x = .ok ⟨e, h⟩) ∨
      (Point.setFlagBits ⟨d, g⟩ m sh x = .ub ∧ Point.setFlagBits ⟨d, h⟩ m sh x = .ub) := by
    intro m sh x g h
    unfold Point.setFlagBits Point.getByte
    cases hd : d[14]? with
    | none => simp
    | some f => simpa using byt 14 _ g h
  cases s with
  | x | y | z | time | color => cases hs
  | rawX v => exact key (fun p => Point.setRawX b p v) (int 0 4 true v) (fun _ => rfl) rfl
  | rawY v => exact key (fun p => Point.setRawY b p v) (int 4 4 true v) (fun _ => rfl) rfl
  | rawZ v => exact key (fun p => Point.setRawZ b p v) (int 8 4 true v) (fun _ => rfl) rfl
  | intensity v => exact key (fun p => Point.setIntensity b p v) (int 12 2 false v) (fun _ => rfl) rfl
  | pointSourceId v => exact key (fun p => Point.setPointSourceID b p v) (int 18 2 false v) (fun _ => rfl) rfl
  | returnNumber v => exact key (fun p => Point.setReturnNumber p v) (flg _ _ v) (fun _ => rfl) rfl
  | numberOfReturns v => exact key (fun p => Point.setNumberOfReturns p v) (flg _ _ v) (fun _ => rfl) rfl
  | scanDirection v => exact key (fun p => Point.setScanDirection p v) (flg _ _ v) (fun _ => rfl) rfl
  | flightLineEdge v => exact key (fun p => Point.setFlightLineEdge p v) (flg _ _ v) (fun _ => rfl) rfl
  | scanFlags v => exact key (fun p => Point.setScanFlags p v) (byt _ _) (fun _ => rfl) rfl
  | classification v => exact key (fun p => Point.setClassification p ⟨v⟩) (byt _ _) (fun _ => rfl) rfl
  | scanAngleRank v => exact key (fun p => Point.setScanAngleRank p v) (byt _ _) (fun _ => rfl) rfl
  | userData v => exact key (fun p => Point.setUserData p v) (byt _ _) (fun _ => rfl) rfl

/-- One point on both sides. -/
def PtSim (hs : List (Option PHeader)) (o : Option Obj) (p : Option Point) (g : Option Nat) : Prop :=
  match o with
  | none => p = none ∧ g = none
  | some o => ∃ h, hs[o.home]? = some (some h) ∧ p = some ⟨o.data, h⟩ ∧ g = some o.home

structure Sim (w : World) (v : Values) (t : Record) : Prop where
  headers : v.headers = w.headers
  readers : v.readers = w.readers
  record : t.readers = w.readers
  count : t.headers = w.headers.length
  vlen : v.points.length = w.points.length
  tlen : t.given.length = w.points.length
  point : ∀ (i : Nat) o p g, w.points[i]? = some o → v.points[i]? = some p → t.given[i]? = some g → PtSim w.headers o p g

theorem Sim.cases {w : World} {v : Values} {t : Record} (s : Sim w v t) (i : Nat) :
    (use w.points i = .ub ∧ use v.points i = .ub) ∨
    ∃ o h, w.points[i]? = some (some o) ∧ use w.points i = .ok o ∧ w.headers[o.home]? = some (some h) ∧
      v.points[i]? = some (some ⟨o.data, h⟩) ∧ use v.points i = .ok ⟨o.data, h⟩ ∧ t.given[i]? = some (some o.home) := by
  by_cases hi : i < w.points.length
  · have h1 := List.getElem?_eq_getElem hi
    have h2 := List.getElem?_eq_getElem (l := v.points) (show i < v.points.length by rw [s.vlen]; exact hi)
    have h3 := List.getElem?_eq_getElem (l := t.given) (show i < t.given.length by rw [s.tlen]; exact hi)
    have hp := s.point i _ _ _ h1 h2 h3
    generalize w.points[i] = o at *
    generalize v.points[i]'(by rw [s.vlen]; exact hi) = p at *
    generalize t.given[i]'(by rw [s.tlen]; exact hi) = g at *
    cases o with
    | none =>
      obtain ⟨rfl, rfl⟩ := hp
      left
      simp [use, h1, h2]
    | some o =>
      obtain ⟨h, ha, rfl, rfl⟩ := hp
      right
      exact ⟨o, h, h1, use_some h1, ha, h2, use_some h2, h3⟩
  · left
    have h1 : w.points[i]? = none := List.getElem?_eq_none (by omega)
    have h2 : v.points[i]? = none := List.getElem?_eq_none (by rw [s.vlen]; omega)
    simp [use, h1, h2]

/-- What relates two outcomes. -/
def Out {α β : Type} (R : α → β → Prop) : Outcome α → Outcome β → Prop
  | .ok a, .ok c => R a c
  | .throw e, .throw e' => e = e'
  | .ub, .ub => True
  | _, _ => False

theorem PtSim.grow {hs : List (Option PHeader)} {x : Option PHeader} {o p g} (h : PtSim hs o p g) : PtSim (hs ++ [x]) o p g := by
  cases o with
  | none => exact h
  | some o =>
    obtain ⟨h, ha, hb, hc⟩ := h
    refine ⟨h, ?_, hb, hc⟩
    rw [List.getElem?_append_left (by have := List.getElem?_eq_some_iff.1 ha; exact this.1)]
    exact ha

theorem PtSim.other {hs : List (Option PHeader)} {x : Option PHeader} {j : Nat} {o p g} (h : PtSim hs o p g) (hg : g ≠ some j) :
    PtSim (hs.set j x) o p g := by
  cases o with
  | none => exact h
  | some o =>
    obtain ⟨h, ha, hb, hc⟩ := h
    refine ⟨h, ?_, hb, hc⟩
    rw [List.getElem?_set_ne (by intro he; apply hg; rw [hc, he])]
    exact ha

theorem Sim.header {w : World} {v : Values} {t : Record} (s : Sim w v t) (x : PHeader) :
    Sim { w with headers := w.headers ++ [some x] } { v with headers := v.headers ++ [some x] }
      { t with headers := t.headers + 1 } :=
  ⟨by simp [s.headers], s.readers, s.record, by simp [s.count], s.vlen, s.tlen,
    fun i o p g h1 h2 h3 => (s.point i o p g h1 h2 h3).grow⟩

theorem Sim.change {w : World} {v : Values} {t : Record} (s : Sim w v t) {j : Nat} (x : Option PHeader) (hu : t.unused j) :
    Sim { w with headers := w.headers.set j x } { v with headers := v.headers.set j x } t :=
  ⟨by simp [s.headers], s.readers, s.record, by simp [s.count], s.vlen, s.tlen,
    fun i o p g h1 h2 h3 => (s.point i o p g h1 h2 h3).other (fun he => hu i (he ▸ h3))⟩

theorem Sim.freed {w : World} {v : Values} {t : Record} (s : Sim w v t) (f : List Nat) : Sim w v { t with freed := f } :=
  ⟨s.headers, s.readers, s.record, s.count, s.vlen, s.tlen, s.point⟩

theorem getElem?_append_cases {α : Type} {l : List α} {a b : α} {i : Nat} (h : (l ++ [a])[i]? = some b) :
    (i < l.length ∧ l[i]? = some b) ∨ (i = l.length ∧ a = b) := by
  by_cases hi : i < l.length
  · left
    rw [List.getElem?_append_left hi] at h
    exact ⟨hi, h⟩
  · right
    rw [List.getElem?_append_right (by omega)] at h
    have : i - l.length = 0 := by
      by_contra hne
      rw [List.getElem?_eq_none (by simp; omega)] at h
      cases h
    rw [this] at h
    exact ⟨by omega, by simpa using h⟩

theorem Sim.newPoint {w : World} {v : Values} {t : Record} (s : Sim w v t) {o p g} (hp : PtSim w.headers o p g) :
    Sim { w with points := w.points ++ [o] } { v with points := v.points ++ [p] } { t with given := t.given ++ [g] } := by
  refine ⟨s.headers, s.readers, s.record, s.count, by simp [s.vlen], by simp [s.tlen], fun i a c e h1 h2 h3 => ?_⟩
  have hv := s.vlen
  have ht := s.tlen
  rcases getElem?_append_cases h1 with ⟨hi, h1⟩ | ⟨hi, h1⟩ <;> rcases getElem?_append_cases h2 with ⟨hi2, h2⟩ | ⟨hi2, h2⟩ <;>
    rcases getElem?_append_cases h3 with ⟨hi3, h3⟩ | ⟨hi3, h3⟩ <;> try omega
  · exact s.point i a c e h1 h2 h3
  · subst h1 h2 h3
    exact hp

theorem Sim.setPoint {w : World} {v : Values} {t : Record} (s : Sim w v t) {o p g} (i : Nat) (hp : PtSim w.headers o p g) :
    Sim { w with points := w.points.set i o } { v with points := v.points.set i p } { t with given := t.given.set i g } := by
  refine ⟨s.headers, s.readers, s.record, s.count, by simp [s.vlen], by simp [s.tlen], fun k a c e h1 h2 h3 => ?_⟩
  by_cases hk : i = k
  · subst hk
    have hl : i < w.points.length := by have := (List.getElem?_eq_some_iff.1 h1).1; simpa using this
    simp only [List.getElem?_set_self hl] at h1
    simp only [List.getElem?_set_self (show i < v.points.length by rw [s.vlen]; exact hl)] at h2
    simp only [List.getElem?_set_self (show i < t.given.length by rw [s.tlen]; exact hl)] at h3
    cases h1; cases h2; cases h3
    exact hp
  · simp only [List.getElem?_set_ne hk] at h1 h2 h3
    exact s.point k a c e h1 h2 h3

/-- The same with the header the point has already. -/
theorem Sim.setData {w : World} {v : Values} {t : Record} (s : Sim w v t) {i : Nat} {home : Nat} {h : PHeader} (d : List Byte)
    (hh : w.headers[home]? = some (some h)) (hg : t.given[i]? = some (some home)) :
    Sim { w with points := w.points.set i (some ⟨d, home⟩) } { v with points := v.points.set i (some ⟨d, h⟩) } t := by
  have := s.setPoint (o := some ⟨d, home⟩) (p := some ⟨d, h⟩) (g := some home) i ⟨h, hh, rfl, rfl⟩
  rwa [show t.given.set i (some home) = t.given by
    apply List.ext_getElem?
    intro k
    by_cases hk : i = k
    · subst hk
      rw [List.getElem?_set_self (List.getElem?_eq_some_iff.1 hg).1, hg]
    · rw [List.getElem?_set_ne hk]] at this

/-- One call. -/
theorem Sim.step {b : Build} {w : World} {v : Values} {t : Record} (s : Sim w v t) (op : Op) (ha : t.Allowed op) :
    Out (fun a c => Sim a.1 c.1 (t.next op) ∧ a.2 = c.2) (PointLife.step b w op) (expect b v op) := by
  cases op with
  | header h => exact ⟨s.header h, rfl⟩
  | alter j h =>
    simp only [PointLife.step, expect, s.headers]
    split
    · trivial
    · rcases use_cases w.headers j with hu | ⟨x, _, hu⟩
      · simp [hu, Out]
      · rw [hu]
        exact ⟨by simpa [s.headers, Record.next] using s.change (some h) ha, rfl⟩
  | dropHeader j =>
    simp only [PointLife.step, expect, s.headers]
    split
    · trivial
    · rcases use_cases w.headers j with hu | ⟨x, _, hu⟩
      · simp [hu, Out]
      · rw [hu]
        exact ⟨by simpa [s.headers, Record.next] using (s.change none ha).freed _, rfl⟩
  | point =>
    have hv : ∀ j, use v.headers j = use w.headers j := fun _ => by rw [s.headers]
    simp only [PointLife.step, expect, hv]
    rcases use_cases w.headers 0 with hu | ⟨h, hh, hu⟩
    · simp [hu, Out]
    · rw [hu]
      exact ⟨s.newPoint (o := some ⟨List.replicate h.recLen 0#8, 0⟩) (p := some (Point.new h)) ⟨h, hh, rfl, rfl⟩, rfl⟩
  | copy i =>
    simp only [PointLife.step, expect]
    rcases s.cases i with ⟨h1, h2⟩ | ⟨o, h, h0, h1, h2, h3, h4, h5⟩
    · simp [h1, h2, Out]
    · rw [h1, h4]
      refine ⟨?_, rfl⟩
      have := s.newPoint (o := some o) (p := some ⟨o.data, h⟩) (g := some o.home) ⟨h, h2, rfl, rfl⟩
      simpa [Record.next, h5] using this
  | give i j =>
    have hv : ∀ j, use v.headers j = use w.headers j := fun _ => by rw [s.headers]
    simp only [PointLife.step, expect, hv]
    rcases s.cases i with ⟨h1, h2⟩ | ⟨o, h, h0, h1, h2, h3, h4, h5⟩
    · simp [h1, h2, Out]
    · rw [h1, h4]
      simp only [Outcome.bind_ok]
      rcases use_cases w.headers j with hu | ⟨g, hg, hu⟩
      · simp [hu, Out]
      · rw [hu]
        simp only [Outcome.bind_ok, World.rehome]
        by_cases hz : Point.byteSum o.data = 0
        · rw [if_pos hz]
          simp only [Point.setHeader, hz, if_true, Outcome.bind_ok]
          exact ⟨s.setPoint (o := some ⟨_, j⟩) i ⟨g, hg, rfl, rfl⟩, rfl⟩
        · rw [if_neg hz]
          simp only [World.load, use_some h2, Outcome.bind_ok, Outcome.pure_eq]
          cases Point.setHeader b ⟨o.data, h⟩ g with
          | ok q => exact ⟨s.setPoint (o := some ⟨_, j⟩) i ⟨g, hg, rfl, rfl⟩, rfl⟩
          | throw e => exact rfl
          | ub => trivial
  | set i st =>
    simp only [PointLife.step, expect]
    rcases s.cases i with ⟨h1, h2⟩ | ⟨o, h, h0, h1, h2, h3, h4, h5⟩
    · simp [h1, h2, Out]
    · rw [h1, h4]
      simp only [Outcome.bind_ok]
      have hl : ∃ p, w.loadFor o st = .ok p ∧ settle b p st = settle b ⟨o.data, h⟩ st := by
        unfold World.loadFor
        cases hu : usesHeader st with
        | true => exact ⟨⟨o.data, h⟩, by simp [World.load, use_some h2], rfl⟩
        | false => exact ⟨unlooked o.data, by simp, settle_any b _ _ _ st hu⟩
      obtain ⟨p, hp, he⟩ := hl
      rw [hp]
      simp only [Outcome.bind_ok, he]
      cases settle b ⟨o.data, h⟩ st with
      | ok r => exact ⟨s.setData r.1 h2 h5, rfl⟩
      | throw e => exact rfl
      | ub => trivial
  | data i d =>
    simp only [PointLife.step, expect]
    rcases s.cases i with ⟨h1, h2⟩ | ⟨o, h, h0, h1, h2, h3, h4, h5⟩
    · simp [h1, h2, Out]
    · rw [h1, h4]
      simp only [Outcome.bind_ok, World.load, use_some h2, Outcome.pure_eq]
      cases assignData ⟨o.data, h⟩ d with
      | ok r => exact ⟨s.setData r.1 h2 h5, rfl⟩
      | throw e => exact rfl
      | ub => trivial
  | dropPoint i =>
    simp only [PointLife.step, expect]
    rcases s.cases i with ⟨h1, h2⟩ | ⟨o, h, h0, h1, h2, h3, h4, h5⟩
    · simp [h1, h2, Out]
    · rw [h1, h4]
      exact ⟨s.setPoint i ⟨rfl, rfl⟩, rfl⟩
  | openReader h =>
    refine ⟨?_, rfl⟩
    have h1 := (s.header h).newPoint (o := some ⟨List.replicate h.recLen 0#8, w.headers.length⟩) (p := some (Point.new h))
      (g := some w.headers.length) ⟨h, by simp, rfl, rfl⟩
    refine ⟨by simp [s.headers], ?_, ?_, by simp [Record.next, s.count], by simp [s.vlen], by simp [Record.next, s.tlen], ?_⟩
    · simp [s.readers, s.vlen, s.headers]
    · simp [Record.next, s.record, s.tlen, s.count]
    · have := h1.point
      simpa [Record.next, s.count] using this
  | read k d =>
    simp only [PointLife.step, expect, s.readers]
    rcases use_cases w.readers k with hu | ⟨r, hr, hu⟩
    · simp [hu, Out]
    · rw [hu]
      simp only [Outcome.bind_ok]
      rcases s.cases r.point with ⟨h1, h2⟩ | ⟨o, h, h0, h1, h2, h3, h4, h5⟩
      · simp [h1, h2, Out]
      · rw [h1, h4]
        exact ⟨s.readers ▸ s.setData d h2 h5, rfl⟩
  | close k =>
    simp only [PointLife.step, expect, s.readers, s.headers]
    rcases use_cases w.readers k with hu | ⟨r, hr, hu⟩
    · simp [hu, Out]
    · rw [hu]
      simp only [Outcome.bind_ok]
      rcases s.cases r.point with ⟨h1, h2⟩ | ⟨o, h, h0, h1, h2, h3, h4, h5⟩
      · simp [h1, h2, Out]
      · rw [h1, h4]
        simp only [Outcome.bind_ok]
        rcases use_cases w.headers r.header with hv | ⟨g, hg, hv⟩
        · simp [hv, Out]
        · rw [hv]
          refine ⟨?_, rfl⟩
          have hn : t.next (.close k) = 
        { t with given := t.given.set r.point none, readers := t.readers.set k none, freed := r.header :: t.freed } := by
            simp [Record.next, s.record, hr]
          rw [hn]
          have hall : ∀ i : Nat, i ≠ r.point → t.given[i]? ≠ some (some r.header) := ha r (s.record ▸ hr)
          have s1 := s.setPoint (o := none) (p := none) (g := none) r.point ⟨rfl, rfl⟩
          have hun : Record.unused { t with given := t.given.set r.point none } r.header := by
            intro i
            by_cases hi : r.point = i
            · subst hi
              intro hc
              have hl : r.point < t.given.length := by have := (List.getElem?_eq_some_iff.1 hc).1; simpa using this
              simp only [List.getElem?_set_self hl] at hc
              cases hc
            · simp only [List.getElem?_set_ne hi]
              exact hall i (fun hc => hi hc.symm)
          have s2 := s1.change none hun
          exact ⟨s2.headers.symm ▸ by simp [s.headers], by simp, by simp [s.record], s2.count, s2.vlen, s2.tlen, s2.point⟩

/-- A whole program. -/
theorem Sim.run {b : Build} : ∀ (ops : List Op) {w : World} {v : Values} {t : Record}, Sim w v t → Careful t ops →
    Out (fun a c => (∃ t', Sim a.1 c.1 t') ∧ a.2 = c.2) (PointLife.run b ops w) (expectRun b ops v)
  | [], w, v, t, s, _ => ⟨⟨t, s⟩, rfl⟩
  | op :: ops, w, v, t, s, hc => by
    have h := s.step (b := b) op hc.1
    simp only [PointLife.run, expectRun]
    cases hx : PointLife.step b w op with
    | ok a =>
      cases hy : expect b v op with
      | ok c =>
        rw [hx, hy] at h
        have hr := Sim.run (b := b) ops h.1 hc.2
        simp only [Outcome.bind_ok]
        cases hz : PointLife.run b ops a.1 with
        | ok e =>
          cases hw : expectRun b ops c.1 with
          | ok f =>
            rw [hz, hw] at hr
            exact ⟨hr.1, by simp [h.2, hr.2]⟩
          | throw e => rw [hz, hw] at hr; cases hr
          | ub => rw [hz, hw] at hr; cases hr
        | throw e =>
          cases hw : expectRun b ops c.1 with
          | ok f => rw [hz, hw] at hr; cases hr
          | throw e => rw [hz, hw] at hr; exact hr
          | ub => rw [hz, hw] at hr; cases hr
        | ub =>
          cases hw : expectRun b ops c.1 with
          | ok f => rw [hz, hw] at hr; cases hr
          | throw e => rw [hz, hw] at hr; cases hr
          | ub => trivial
      | throw e => rw [hx, hy] at h; cases h
      | ub => rw [hx, hy] at h; cases h
    | throw e =>
      cases hy : expect b v op with
      | ok c => rw [hx, hy] at h; cases h
      | throw e => rw [hx, hy] at h; exact h
      | ub => rw [hx, hy] at h; cases h
    | ub =>
      cases hy : expect b v op with
      | ok c => rw [hx, hy] at h; cases h
      | throw e => rw [hx, hy] at h; cases h
      | ub => trivial

theorem Sim.start (d : PHeader) : Sim (PointLife.start d) (startValues d) Record.start :=
  ⟨rfl, rfl, rfl, rfl, rfl, rfl, by intro i o p g h; simp [PointLife.start] at h⟩

theorem Sim.look {w : World} {v : Values} {t : Record} (s : Sim w v t) (i : Nat) : w.look i = v.look i := by
  unfold World.look Values.look
  rcases s.cases i with ⟨h1, h2⟩ | ⟨o, h, h0, h1, h2, h3, h4, h5⟩
  · simp [h1, h2]
  · simp [h1, h4, World.load, use_some h2]

/-- What the record says about any history, careful or not. -/
structure Traced (w : World) (t : Record) : Prop where
  readers : t.readers = w.readers
  count : t.headers = w.headers.length
  given : t.given = w.points.map (Option.map Obj.home)
  freed : ∀ j : Nat, w.headers[j]? = some none ↔ j ∈ t.freed
  home : ∀ (i : Nat) (o : Obj), w.points[i]? = some (some o) → o.home < w.headers.length

theorem Traced.start (d : PHeader) : Traced (PointLife.start d) Record.start :=
  ⟨rfl, rfl, rfl, by intro j; cases j <;> simp [PointLife.start, Record.start], by intro i o h; simp [PointLife.start] at h⟩

theorem map_set_same {l : List (Option Obj)} {i : Nat} {o : Obj} (h : l[i]? = some (some o)) (d : List Byte) :
    (l.set i (some ⟨d, o.home⟩)).map (Option.map Obj.home) = l.map (Option.map Obj.home) := by
  rw [List.map_set]
  apply List.ext_getElem?
  intro k
  by_cases hk : i = k
  · subst hk
    rw [List.getElem?_set_self (by simpa using (List.getElem?_eq_some_iff.1 h).1), List.getElem?_map, h]
    rfl
  · rw [List.getElem?_set_ne hk]

theorem freed_set {l : List (Option PHeader)} {f : List Nat} (h : ∀ j : Nat, l[j]? = some none ↔ j ∈ f) {j : Nat} {a : PHeader}
    (hj : l[j]? = some (some a)) (k : Nat) : (l.set j none)[k]? = some none ↔ k ∈ j :: f := by
  by_cases hk : j = k
  · subst hk
    rw [List.getElem?_set_self (List.getElem?_eq_some_iff.1 hj).1]
    simp
  · rw [List.getElem?_set_ne hk, h k]
    simp [Ne.symm hk]

theorem freed_append {l : List (Option PHeader)} {f : List Nat} (h : ∀ j : Nat, l[j]? = some none ↔ j ∈ f) (a : PHeader)
    (k : Nat) : (l ++ [some a])[k]? = some none ↔ k ∈ f := by
  by_cases hk : k < l.length
  · rw [List.getElem?_append_left hk, h k]
  · rw [← h k, List.getElem?_eq_none (show l.length ≤ k by omega), List.getElem?_append_right (by omega)]
    constructor
    · intro hc
      rcases hn : k - l.length with _ | n <;> rw [hn] at hc <;> simp at hc
    · intro hc; cases hc

theorem home_set {w : World} {i : Nat} {o : Option Obj}
    (h : ∀ (i : Nat) (o : Obj), w.points[i]? = some (some o) → o.home < w.headers.length)
    (ho : ∀ a, o = some a → a.home < w.headers.length) (k : Nat) (a : Obj) (ha : (w.points.set i o)[k]? = some (some a)) :
    a.home < w.headers.length := by
  by_cases hk : i = k
  · subst hk
    have hl : i < w.points.length := by have := (List.getElem?_eq_some_iff.1 ha).1; simpa using this
    rw [List.getElem?_set_self hl] at ha
    exact ho a (by simpa using ha)
  · rw [List.getElem?_set_ne hk] at ha
    exact h k a ha

theorem home_append {w : World} {o : Obj}
    (h : ∀ (i : Nat) (o : Obj), w.points[i]? = some (some o) → o.home < w.headers.length)
    (ho : o.home < w.headers.length) (k : Nat) (a : Obj) (ha : (w.points ++ [some o])[k]? = some (some a)) :
    a.home < w.headers.length := by
  rcases getElem?_append_cases ha with ⟨_, ha⟩ | ⟨_, ha⟩
  · exact h k a ha
  · cases ha; exact ho

theorem Traced.step {b : Build} {w w' : World} {t : Record} {c : CApi.Code} (s : Traced w t) {op : Op}
    (h : PointLife.step b w op = .ok (w', c)) : Traced w' (t.next op) := by
  cases op with
  | header x =>
    simp only [PointLife.step] at h
    cases h
    exact ⟨s.readers, by simp [Record.next, s.count], s.given, freed_append s.freed x,
      fun i o ho => by have := s.home i o ho; simp; omega⟩
  | alter j x =>
    simp only [PointLife.step] at h
    split at h
    · cases h
    · obtain ⟨a, ha, h⟩ := bind_eq_ok h
      cases h
      rcases use_cases w.headers j with hu | ⟨x', hx, hu⟩
      · rw [hu] at ha; cases ha
      refine ⟨s.readers, by simp [Record.next, s.count], s.given, fun k => ?_, fun i o ho => by simpa using s.home i o ho⟩
      by_cases hk : j = k
      · subst hk
        have := s.freed j
        rw [hx] at this
        rw [List.getElem?_set_self (List.getElem?_eq_some_iff.1 hx).1]
        simpa [Record.next] using this
      · rw [List.getElem?_set_ne hk]
        exact s.freed k
  | dropHeader j =>
    simp only [PointLife.step] at h
    split at h
    · cases h
    · obtain ⟨a, ha, h⟩ := bind_eq_ok h
      cases h
      rcases use_cases w.headers j with hu | ⟨x', hx, hu⟩
      · rw [hu] at ha; cases ha
      exact ⟨s.readers, by simp [Record.next, s.count], s.given, freed_set s.freed hx, fun i o ho => by simpa using s.home i o ho⟩
  | point =>
    simp only [PointLife.step] at h
    obtain ⟨a, ha, h⟩ := bind_eq_ok h
    cases h
    rcases use_cases w.headers 0 with hu | ⟨x', hx, hu⟩
    · rw [hu] at ha; cases ha
    exact ⟨s.readers, s.count, by simp [Record.next, s.given], s.freed,
      home_append s.home (List.getElem?_eq_some_iff.1 hx).1⟩
  | copy i =>
    simp only [PointLife.step] at h
    obtain ⟨a, ha, h⟩ := bind_eq_ok h
    cases h
    rcases use_cases w.points i with hu | ⟨x', hx, hu⟩
    · rw [hu] at ha; cases ha
    rw [hu] at ha; cases ha
    exact ⟨s.readers, s.count, by simp [Record.next, s.given, hx], s.freed, home_append s.home (s.home i _ hx)⟩
  | give i j =>
    simp only [PointLife.step] at h
    obtain ⟨o, ho, h⟩ := bind_eq_ok h
    obtain ⟨x, hx, h⟩ := bind_eq_ok h
    obtain ⟨d, hd, h⟩ := bind_eq_ok h
    cases h
    rcases use_cases w.headers j with hu | ⟨x', hx', hu⟩
    · rw [hu] at hx; cases hx
    exact ⟨s.readers, s.count, by simp [Record.next, s.given, List.map_set], s.freed,
      home_set s.home (by intro a ha; cases ha; exact (List.getElem?_eq_some_iff.1 hx').1)⟩
  | set i st =>
    simp only [PointLife.step] at h
    obtain ⟨o, ho, h⟩ := bind_eq_ok h
    obtain ⟨p, hp, h⟩ := bind_eq_ok h
    obtain ⟨r, hr, h⟩ := bind_eq_ok h
    cases h
    rcases use_cases w.points i with hu | ⟨x', hx, hu⟩
    · rw [hu] at ho; cases ho
    rw [hu] at ho; cases ho
    exact ⟨s.readers, s.count, by rw [map_set_same hx]; exact s.given, s.freed,
      home_set s.home (by intro a ha; cases ha; exact s.home i o hx)⟩
  | data i d =>
    simp only [PointLife.step] at h
    obtain ⟨o, ho, h⟩ := bind_eq_ok h
    obtain ⟨p, hp, h⟩ := bind_eq_ok h
    obtain ⟨r, hr, h⟩ := bind_eq_ok h
    cases h
    rcases use_cases w.points i with hu | ⟨x', hx, hu⟩
    · rw [hu] at ho; cases ho
    rw [hu] at ho; cases ho
    exact ⟨s.readers, s.count, by rw [map_set_same hx]; exact s.given, s.freed,
      home_set s.home (by intro a ha; cases ha; exact s.home i o hx)⟩
  | dropPoint i =>
    simp only [PointLife.step] at h
    obtain ⟨o, ho, h⟩ := bind_eq_ok h
    cases h
    exact ⟨s.readers, s.count, by simp [Record.next, s.given, List.map_set], s.freed, home_set s.home (by simp)⟩
  | openReader x =>
    simp only [PointLife.step] at h
    cases h
    refine ⟨by simp [Record.next, s.readers, s.given, s.count], by simp [Record.next, s.count],
      by simp [Record.next, s.given, s.count], freed_append s.freed x, fun i o ho => ?_⟩
    rcases getElem?_append_cases ho with ⟨_, ho⟩ | ⟨_, ho⟩
    · have := s.home i o ho; simp; omega
    · cases ho; simp
  | read k d =>
    simp only [PointLife.step] at h
    obtain ⟨r, hr, h⟩ := bind_eq_ok h
    obtain ⟨o, ho, h⟩ := bind_eq_ok h
    cases h
    rcases use_cases w.points r.point with hu | ⟨x', hx, hu⟩
    · rw [hu] at ho; cases ho
    rw [hu] at ho; cases ho
    exact ⟨s.readers, s.count, by rw [map_set_same hx]; exact s.given, s.freed,
      home_set s.home (by intro a ha; cases ha; exact s.home _ o hx)⟩
  | close k =>
    simp only [PointLife.step] at h
    obtain ⟨r, hr, h⟩ := bind_eq_ok h
    obtain ⟨o, ho, h⟩ := bind_eq_ok h
    obtain ⟨x, hx, h⟩ := bind_eq_ok h
    cases h
    rcases use_cases w.readers k with hu | ⟨r', hr', hu⟩
    · rw [hu] at hr; cases hr
    rw [hu] at hr; cases hr
    rcases use_cases w.headers r.header with hv | ⟨x', hx', hv⟩
    · rw [hv] at hx; cases hx
    have hn : t.next (.close k) = 
        { t with given := t.given.set r.point none, readers := t.readers.set k none, freed := r.header :: t.freed } := by
      simp [Record.next, s.readers, hr']
    rw [hn]
    refine ⟨by simp [s.readers], by simp [s.count], by simp [s.given, List.map_set], freed_set s.freed hx', ?_⟩
    intro i a ha
    simpa using home_set s.home (by simp) i a ha

theorem Traced.run {b : Build} : ∀ (ops : List Op) {w w' : World} {t : Record} {cs : List CApi.Code}, Traced w t →
    PointLife.run b ops w = .ok (w', cs) → Traced w' (ops.foldl Record.next t)
  | [], w, w', t, cs, s, h => by cases h; exact s
  | op :: ops, w, w', t, cs, s, h => by
    simp only [PointLife.run] at h
    obtain ⟨x, hx, h⟩ := bind_eq_ok h
    obtain ⟨y, hy, h⟩ := bind_eq_ok h
    cases h
    exact Traced.run ops (s.step hx) hy

end LibLAS.PointLife
