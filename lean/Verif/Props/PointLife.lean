import Verif.Lemmas.PointLife
import Verif.Props.RoundTrip
/-
C100: a point has its own header, whatever is done to the header handle it was given or the reader it came from. Proved for programs that
leave the headers of living points alone; for the others it is decided exactly when a point can still be used, and refuted.
-/
namespace LibLAS.PointLife

/-- Every program that changes or destroys headers, and closes readers, only when no living point (or copy) has their header gets the
codes and the points it would get if every point had its header as a value; it is undefined, or ends with an exception, exactly when
that one is. -/
theorem point_keeps_header_partial (b : Build) (dflt : PHeader) (ops : List Op) (hc : Careful Record.start ops) :
    (∃ w v cs, run b ops (start dflt) = .ok (w, cs) ∧ expectRun b ops (startValues dflt) = .ok (v, cs) ∧
      ∀ i, w.look i = v.look i) ∨
    (∃ e, run b ops (start dflt) = .throw e ∧ expectRun b ops (startValues dflt) = .throw e) ∨
    (run b ops (start dflt) = .ub ∧ expectRun b ops (startValues dflt) = .ub) := by
  have h := (Sim.start dflt).run (b := b) ops hc
  cases hx : run b ops (start dflt) with
  | ok a =>
    cases hy : expectRun b ops (startValues dflt) with
    | ok c =>
      rw [hx, hy] at h
      obtain ⟨⟨t, s⟩, he⟩ := h
      exact .inl ⟨a.1, c.1, a.2, rfl, by rw [he], s.look⟩
    | throw e => rw [hx, hy] at h; cases h
    | ub => rw [hx, hy] at h; cases h
  | throw e =>
    cases hy : expectRun b ops (startValues dflt) with
    | ok c => rw [hx, hy] at h; cases h
    | throw e' => rw [hx, hy] at h; cases h; exact .inr (.inl ⟨e, rfl, rfl⟩)
    | ub => rw [hx, hy] at h; cases h
  | ub =>
    cases hy : expectRun b ops (startValues dflt) with
    | ok c => rw [hx, hy] at h; cases h
    | throw e => rw [hx, hy] at h; cases h
    | ub => exact .inr (.inr ⟨rfl, rfl⟩)

/-- After any program: the point behind a handle can be used exactly if it exists and the header it was given last has not been
destroyed. What was expected needs the first only. -/
theorem usable_exactly (b : Build) (dflt : PHeader) (ops : List Op) {w : World} {cs : List CApi.Code}
    (h : run b ops (start dflt) = .ok (w, cs)) (i : Nat) :
    (∃ p, w.look i = .ok p) ↔ ∃ j, (recordAfter ops).given[i]? = some (some j) ∧ j ∉ (recordAfter ops).freed := by
  have s := (Traced.start dflt).run ops h
  change Traced w (recordAfter ops) at s
  unfold World.look
  rcases use_cases w.points i with hu | ⟨o, ho, hu⟩
  · rw [hu]
    constructor
    · rintro ⟨p, hp⟩; cases hp
    · rintro ⟨j, hj, _⟩
      rw [s.given, List.getElem?_map] at hj
      unfold use at hu
      rcases hw : w.points[i]? with _ | (_ | o) <;> rw [hw] at hj hu
      · cases hj
      · cases hj
      · cases hu
  · rw [hu]
    have hg : (recordAfter ops).given[i]? = some (some o.home) := by rw [s.given, List.getElem?_map, ho]; rfl
    simp only [Outcome.bind_ok, World.load]
    rcases use_cases w.headers o.home with hv | ⟨x, hx, hv⟩
    · rw [hv]
      constructor
      · rintro ⟨p, hp⟩; cases hp
      · rintro ⟨j, hj, hn⟩
        rw [hg] at hj
        cases hj
        exfalso
        apply hn
        rw [← s.freed]
        have hl := List.getElem?_eq_getElem (s.home i o ho)
        unfold use at hv
        rcases hw : w.headers[o.home]'(s.home i o ho) with _ | x
        · rw [hl, hw]
        · rw [hl, hw] at hv; cases hv
    · rw [hv]
      constructor
      · intro _
        refine ⟨o.home, hg, fun hc => ?_⟩
        rw [← s.freed, hx] at hc
        cases hc
      · intro _
        exact ⟨_, rfl⟩

/-- A change of a header takes the points that were given it along, and no others: after any program, each point has its record
unchanged, with the new header if that is the one it was given last. -/
theorem change_reaches_exactly (b : Build) (dflt : PHeader) (ops : List Op) {w w' : World} {cs : List CApi.Code} {c : CApi.Code}
    (h : run b ops (start dflt) = .ok (w, cs)) {j : Nat} {g : PHeader} (ha : step b w (.alter j g) = .ok (w', c)) {i : Nat} {p : Point}
    (hp : w.look i = .ok p) :
    w'.look i = .ok (if (recordAfter ops).given[i]? = some (some j) then ⟨p.data, g⟩ else p) := by
  have s := (Traced.start dflt).run ops h
  change Traced w (recordAfter ops) at s
  simp only [step] at ha
  split at ha
  · cases ha
  obtain ⟨x, hx, ha⟩ := bind_eq_ok ha
  cases ha
  rcases use_cases w.headers j with hv | ⟨x', hj, hv⟩
  · rw [hv] at hx; cases hx
  unfold World.look at hp ⊢
  obtain ⟨o, ho, hp⟩ := bind_eq_ok hp
  rcases use_cases w.points i with hu | ⟨o', ho', hu⟩
  · rw [hu] at ho; cases ho
  rw [hu] at ho; cases ho
  have hg : (recordAfter ops).given[i]? = some (some o.home) := by rw [s.given, List.getElem?_map, ho']; rfl
  unfold World.load at hp
  obtain ⟨y, hy, hp⟩ := bind_eq_ok hp
  cases hp
  simp only [hu, Outcome.bind_ok, World.load, hg, Option.some.injEq]
  by_cases he : o.home = j
  · rw [if_pos he, he, use_some (List.getElem?_set_self (List.getElem?_eq_some_iff.1 hj).1)]
    rfl
  · rw [if_neg he]
    have : use (w.headers.set j (some g)) o.home = use w.headers o.home := by
      unfold use
      rw [List.getElem?_set_ne (Ne.symm he)]
    rw [this, hy]
    rfl

private theorem zeros (n : Nat) : Point.byteSum (List.replicate n 0#8) = 0 := by simp [Point.byteSum]

/-- Refuted, for every header, every other header and every record: giving a point a header and changing that header afterwards changes
the header of the point. -/
theorem change_follows (b : Build) (dflt h g : PHeader) (d : List Byte) (hd : d.length = h.recLen) :
    ∃ w v cs, run b [.header h, .point, .give 0 1, .data 0 d, .alter 1 g] (start dflt) = .ok (w, cs) ∧
      expectRun b [.header h, .point, .give 0 1, .data 0 d, .alter 1 g] (startValues dflt) = .ok (v, cs) ∧
      w.look 0 = .ok ⟨d, g⟩ ∧ v.look 0 = .ok ⟨d, h⟩ := by
  refine ⟨⟨[some dflt, some g], [some ⟨d, 1⟩], []⟩, ⟨[some dflt, some g], [some ⟨d, h⟩], []⟩, [.none, .none, .none, .none, .none],
    ?_, ?_, rfl, rfl⟩
  · simp [run, step, start, use, World.rehome, zeros dflt.recLen, World.load, assignData, CApi.pointSetData, ← hd]
  · simp [expectRun, expect, startValues, use, Point.new, Point.setHeader, zeros dflt.recLen, assignData, CApi.pointSetData, ← hd]

/-- Refuted, for every file and record: a copy of a point that was read cannot be used after its reader has been destroyed. -/
theorem copy_dies_with_reader (b : Build) (dflt h : PHeader) (d : List Byte) :
    ∃ w v cs, run b [.openReader h, .read 0 d, .copy 0, .close 0] (start dflt) = .ok (w, cs) ∧
      expectRun b [.openReader h, .read 0 d, .copy 0, .close 0] (startValues dflt) = .ok (v, cs) ∧
      w.look 1 = .ub ∧ v.look 1 = .ok ⟨d, h⟩ :=
  ⟨⟨[some dflt, none], [none, some ⟨d, 1⟩], [none]⟩, ⟨[some dflt, none], [none, some ⟨d, h⟩], [none]⟩, [.none, .none, .none, .none],
    rfl, rfl, rfl, rfl⟩

/-- A copy does keep its record while the reader goes on: whatever is read next, the copy has the old record. -/
theorem copy_keeps_record (b : Build) (dflt h : PHeader) (d : List Byte) (more : List (List Byte)) :
    ∃ w cs, run b (.openReader h :: .read 0 d :: .copy 0 :: more.map (.read 0)) (start dflt) = .ok (w, cs) ∧
      w.look 0 = .ok ⟨more.getLastD d, h⟩ ∧ w.look 1 = .ok ⟨d, h⟩ := by
  have key : ∀ (more : List (List Byte)) (e : List Byte), ∃ cs, run b (more.map (.read 0))
      ⟨[some dflt, some h], [some ⟨e, 1⟩, some ⟨d, 1⟩], [some ⟨0, 1⟩]⟩ =
      .ok (⟨[some dflt, some h], [some ⟨more.getLastD e, 1⟩, some ⟨d, 1⟩], [some ⟨0, 1⟩]⟩, cs) := by
    intro more
    induction more with
    | nil => intro e; exact ⟨[], rfl⟩
    | cons m more ih =>
      intro e
      obtain ⟨cs, hcs⟩ := ih m
      refine ⟨.none :: cs, ?_⟩
      simp only [List.map_cons, run]
      rw [show step b ⟨[some dflt, some h], [some ⟨e, 1⟩, some ⟨d, 1⟩], [some ⟨0, 1⟩]⟩ (.read 0 m) =
        .ok (⟨[some dflt, some h], [some ⟨m, 1⟩, some ⟨d, 1⟩], [some ⟨0, 1⟩]⟩, .none) from rfl]
      simp only [Outcome.bind_ok, hcs, Outcome.pure_eq, List.getLastD_cons]
  obtain ⟨cs, hcs⟩ := key more d
  refine ⟨⟨[some dflt, some h], [some ⟨more.getLastD d, 1⟩, some ⟨d, 1⟩], [some ⟨0, 1⟩]⟩, .none :: .none :: .none :: cs, ?_, rfl, rfl⟩
  simp only [run]
  rw [show step b (start dflt) (.openReader h) = .ok (⟨[some dflt, some h], [some ⟨List.replicate h.recLen 0#8, 1⟩], [some ⟨0, 1⟩]⟩, .none) from rfl]
  simp only [Outcome.bind_ok]
  rw [show step b ⟨[some dflt, some h], [some ⟨List.replicate h.recLen 0#8, 1⟩], [some ⟨0, 1⟩]⟩ (.read 0 d) =
    .ok (⟨[some dflt, some h], [some ⟨d, 1⟩], [some ⟨0, 1⟩]⟩, .none) from rfl]
  simp only [Outcome.bind_ok]
  rw [show step b ⟨[some dflt, some h], [some ⟨d, 1⟩], [some ⟨0, 1⟩]⟩ (.copy 0) =
    .ok (⟨[some dflt, some h], [some ⟨d, 1⟩, some ⟨d, 1⟩], [some ⟨0, 1⟩]⟩, .none) from rfl]
  simp only [Outcome.bind_ok, hcs, Outcome.pure_eq]

/-- Refuted, for every two headers and every record that is not all zeros: once its header is destroyed a point cannot even be given
another one. -/
theorem rehome_too_late (b : Build) (dflt h g : PHeader) (d : List Byte) (hd : d.length = h.recLen) (hn : Point.byteSum d ≠ 0) :
    run b [.header h, .header g, .point, .give 0 1, .data 0 d, .dropHeader 1, .give 0 2] (start dflt) = .ub := by
  simp [run, step, start, use, World.rehome, zeros dflt.recLen, World.load, assignData, CApi.pointSetData, ← hd, hn]

/-- Refuted, for every two headers of different record lengths: after `LASHeader_SetDataFormatId` on the header of a point
`LASPoint_SetData` on the point is undefined. -/
theorem format_change_undefined (b : Build) (dflt h g : PHeader) (d : List Byte) (hl : g.recLen ≠ h.recLen) (hg : g.recLen ≠ 0) :
    run b [.header h, .point, .give 0 1, .alter 1 g, .data 0 d] (start dflt) = .ub := by
  simp [run, step, start, use, World.rehome, zeros dflt.recLen, World.load, assignData, CApi.pointSetData, Ne.symm hl, hg]

/-- What does not depend on the header can still be set: on a living point of at least 20 bytes every setter but those of scaled
coordinates, time and colour succeeds, whatever has become of its header. -/
theorem unscaled_always (b : Build) (w : World) {i : Nat} {o : Obj} (ho : w.points[i]? = some (some o)) (hl : 20 ≤ o.data.length)
    (s : CApi.PointSet) (hx : ∀ v, s ≠ .x v) (hy : ∀ v, s ≠ .y v) (hz : ∀ v, s ≠ .z v) (ht : ∀ v, s ≠ .time v) (hc : ∀ v, s ≠ .color v) :
    ∃ d, step b w (.set i s) = .ok ({ w with points := w.points.set i (some ⟨d, o.home⟩) }, .none) := by
  have hu : usesHeader s = false := by
    cases s with
    | x v => exact absurd rfl (hx v)
    | y v => exact absurd rfl (hy v)
    | z v => exact absurd rfl (hz v)
    | time v => exact absurd rfl (ht v)
    | color v => exact absurd rfl (hc v)
    | _ => rfl
  have hs : ∃ d, settle b (unlooked o.data) s = .ok (d, .none) := by
    have key : s.quiet = false → (∃ q, s.run b (unlooked o.data) = .ok q) → ∃ d, settle b (unlooked o.data) s = .ok (d, .none) := by
      rintro hq ⟨q, h⟩
      exact ⟨q.data, by simp [settle, CApi.pointSet, hq, h, CApi.settled, CApi.attempt]⟩
    have int : ∀ (pos n : Nat) (sg : Bool) (x : BitVec (8 * n)), pos + n ≤ 20 → ∃ q, Point.setInt b (unlooked o.data) pos n sg x = .ok q := by
      intro pos n sg x h
      unfold Point.setInt writeAt
      have hlen : (intToBits b.host sg n x).length = n := Point.intToBits_length _ _ _ _
      rw [if_pos (by rw [hlen]; show pos + n ≤ o.data.length; omega)]
      exact ⟨_, rfl⟩
    have byt : ∀ (pos : Nat) (x : Byte), pos < 20 → ∃ q, Point.setByte (unlooked o.data) pos x = .ok q := by
      intro pos x h
      unfold Point.setByte writeAt
      rw [if_pos (by show pos + 1 ≤ o.data.length; omega)]
      exact ⟨_, rfl⟩
    have flg : ∀ (m : Byte) (sh : Nat) (x : BitVec 16), ∃ q, Point.setFlagBits (unlooked o.data) m sh x = .ok q := by
      intro m sh x
      unfold Point.setFlagBits Point.getByte
      rw [show (unlooked o.data).data[14]? = some (o.data[14]'(by omega)) from
        List.getElem?_eq_getElem (show 14 < o.data.length by omega)]
      exact byt 14 _ (by omega)
    cases s with
    | x v => exact absurd rfl (hx v)
    | y v => exact absurd rfl (hy v)
    | z v => exact absurd rfl (hz v)
    | time v => exact absurd rfl (ht v)
    | color v => exact absurd rfl (hc v)
    | rawX v => exact key rfl (int 0 4 true v (by omega))
    | rawY v => exact key rfl (int 4 4 true v (by omega))
    | rawZ v => exact key rfl (int 8 4 true v (by omega))
    | intensity v => exact key rfl (int 12 2 false v (by omega))
    | pointSourceId v => exact key rfl (int 18 2 false v (by omega))
    | returnNumber v => exact key rfl (flg _ _ v)
    | numberOfReturns v => exact key rfl (flg _ _ v)
    | scanDirection v => exact key rfl (flg _ _ v)
    | flightLineEdge v => exact key rfl (flg _ _ v)
    | scanFlags v => exact key rfl (byt 14 v (by omega))
    | classification v => exact key rfl (byt 15 v (by omega))
    | scanAngleRank v => exact key rfl (byt 16 v (by omega))
    | userData v => exact key rfl (byt 17 v (by omega))
  obtain ⟨d, hs⟩ := hs
  refine ⟨d, ?_⟩
  simp only [step, use_some ho, Outcome.bind_ok, World.loadFor, hu, Bool.false_eq_true, if_false, hs, Outcome.pure_eq]

/-! A case that meets the hypotheses: two headers with other scales, a point given one and then the other, a copy, a reader that is closed
after its point and the copies of it are gone. -/

def cm : PHeader := ⟨.f0, 20, false, false, ⟨.fin (1 / 100), .fin (1 / 100), .fin (1 / 100)⟩, ⟨.fin 0, .fin 0, .fin 0⟩⟩
def metres : PHeader := ⟨.f1, 28, true, false, ⟨.fin 1, .fin 1, .fin 1⟩, ⟨.fin 0, .fin 0, .fin 0⟩⟩

def sampleProgram : List Op :=
  [.header cm, .header metres, .point, .give 0 1, .set 0 (.x (.fin 7)), .copy 0, .give 1 2, .dropPoint 0, .alter 1 metres, .dropHeader 1,
   .openReader cm, .read 0 (List.replicate 20 1#8), .copy 2, .give 3 2, .close 0, .set 3 (.time 5), .set 1 (.x (.fin 9))]

/-- A point has the header `j` among these: decided. -/
def usedIn (l : List (Option Nat)) (j : Nat) : Bool := l.any (· == some j)

theorem unused_of {t : Record} {j : Nat} (h : usedIn t.given j = false) : t.unused j := by
  intro i hc
  have hm : some j ∈ t.given := List.mem_of_getElem? hc
  simp only [usedIn, List.any_eq_false] at h
  exact h _ hm (by simp)

example : Careful Record.start sampleProgram := by
  refine ⟨trivial, trivial, trivial, trivial, trivial, trivial, trivial, trivial, unused_of (by decide), unused_of (by decide), trivial,
    trivial, trivial, trivial, ?_, trivial, trivial, trivial⟩
  intro r hr i hi hc
  have hr : r = ⟨2, 3⟩ := by
    have : some (some r) = some (some (⟨2, 3⟩ : Source)) := hr.symm.trans (by decide)
    simpa using this
  subst hr
  have h1 : i < 4 := (List.getElem?_eq_some_iff.1 hc).1
  have h2 : i = 0 ∨ i = 1 ∨ i = 2 ∨ i = 3 := by omega
  rcases h2 with rfl | rfl | rfl | rfl
  · revert hc; decide
  · revert hc; decide
  · exact hi rfl
  · revert hc; decide

/-- Read attributes through the handles. -/
def xOf (w : World) (i : Nat) : Outcome Fl := do
  let p ← w.look i
  Point.getX ⟨.little, false⟩ p

def timeOf (w : World) (i : Nat) : Outcome (BitVec 64) := do
  let p ← w.look i
  Point.getTime ⟨.little, false⟩ p

example : ∃ r, run ⟨.little, false⟩ sampleProgram (start metres) = .ok r ∧ xOf r.1 1 = .ok (.fin 9) ∧ timeOf r.1 3 = .ok 5 :=
  Outcome.exists_of_check (by decide +kernel)

/-- The header is destroyed, the record can still be changed. -/
example : ∃ r, run ⟨.little, false⟩ [.header cm, .point, .give 0 1, .dropHeader 1, .set 0 (.rawX 77)] (start metres) = .ok r ∧
    r.1.points = [some ⟨77#8 :: List.replicate 19 0#8, 1⟩] ∧ r.1.look 0 = .ub :=
  Outcome.exists_of_check (by decide +kernel)

end LibLAS.PointLife
