import Verif.Spec.SummaryLife
import Verif.Props.Summary
import Verif.Lemmas.NewFile
/-
Summaries as objects: what operations leave alone.
-/
namespace LibLAS.SummaryLife
open Point Extremes

/-- The setter keeps the header of the point. -/
def Keeps (f : Point → Outcome Point) : Prop := ∀ q q', f q = .ok q' → q'.hdr = q.hdr

theorem keeps_setInt (b : Build) (pos n : Nat) (sg : Bool) (v : BitVec (8 * n)) : Keeps fun q => setInt b q pos n sg v := by
  intro q q' h
  obtain ⟨d, _, h⟩ := bind_eq_ok h
  cases h; rfl

theorem keeps_setByte (pos : Nat) (v : Byte) : Keeps fun q => setByte q pos v := by
  intro q q' h
  obtain ⟨d, _, h⟩ := bind_eq_ok h
  cases h; rfl

theorem keeps_setFlagBits (m : Byte) (sh : Nat) (v : BitVec 16) : Keeps fun q => setFlagBits q m sh v := by
  intro q q' h
  obtain ⟨d, _, h⟩ := bind_eq_ok h
  exact keeps_setByte _ _ _ _ h

theorem keeps_setTime (b : Build) (t : BitVec 64) : Keeps fun q => setTime b q t := by
  intro q q' h
  change setTime b q t = _ at h
  unfold setTime at h
  split at h
  · cases h
  · exact keeps_setInt _ _ _ _ _ _ _ h

theorem keeps_setColor (b : Build) (c : Color) : Keeps fun q => setColor b q c := by
  intro q q' h
  change setColor b q c = _ at h
  unfold setColor at h
  split at h
  · cases h
  · split at h
    · cases h
    · obtain ⟨a, h1, h⟩ := bind_eq_ok h
      obtain ⟨c, h2, h3⟩ := bind_eq_ok h
      rw [keeps_setInt _ _ _ _ _ _ _ h3, keeps_setInt _ _ _ _ _ _ _ h2, keeps_setInt _ _ _ _ _ _ _ h1]

theorem keeps_upd {c : Bool} {f : Point → Outcome Point} (h : Keeps f) : Keeps (upd c f) := by
  intro q q' hq
  unfold upd at hq
  split at hq
  · exact h _ _ hq
  · cases hq; rfl

/-- Both points keep their headers. -/
def Same (e e' : Extremes) : Prop := e'.minimum.hdr = e.minimum.hdr ∧ e'.maximum.hdr = e.maximum.hdr

theorem Same.refl (e : Extremes) : Same e e := ⟨rfl, rfl⟩
theorem Same.trans {a b c : Extremes} (h : Same a b) (h' : Same b c) : Same a c := ⟨h'.1.trans h.1, h'.2.trans h.2⟩

theorem step_same {α : Type} {get : Point → Outcome α} {set : Point → α → Outcome Point} {lt : α → α → Bool} {p : Point}
    {e e' : Extremes} (hk : ∀ v, Keeps fun q => set q v) (h : Extremes.step get set lt p e = .ok e') : Same e e' := by
  obtain ⟨v, _, h⟩ := bind_eq_ok h
  obtain ⟨lo, _, h⟩ := bind_eq_ok h
  obtain ⟨mn, h1, h⟩ := bind_eq_ok h
  obtain ⟨hi, _, h⟩ := bind_eq_ok h
  obtain ⟨mx, h2, h⟩ := bind_eq_ok h
  cases h
  exact ⟨keeps_upd (hk v) _ _ h1, keeps_upd (hk v) _ _ h2⟩

theorem stepCoords_same {b : Build} {p : Point} {e e' : Extremes} (h : stepCoords b p e = .ok e') : Same e e' := by
  obtain ⟨a, h1, h⟩ := bind_eq_ok h
  obtain ⟨c, h2, h3⟩ := bind_eq_ok h
  exact ((step_same (fun v => keeps_setInt _ _ _ _ _) h1).trans (step_same (fun v => keeps_setInt _ _ _ _ _) h2)).trans
    (step_same (fun v => keeps_setInt _ _ _ _ _) h3)

theorem stepTime_same {b : Build} {t : Bool} {p : Point} {e e' : Extremes} (h : stepTime b t p e = .ok e') : Same e e' := by
  unfold stepTime at h
  split at h
  · exact step_same (fun v => keeps_setTime _ _) h
  · cases h; exact .refl _

theorem stepClass_same {p : Point} {e e' : Extremes} (h : stepClass p e = .ok e') : Same e e' := by
  obtain ⟨v, _, h⟩ := bind_eq_ok h
  obtain ⟨lo, _, h⟩ := bind_eq_ok h
  obtain ⟨hi, _, h⟩ := bind_eq_ok h
  obtain ⟨mn, h1, h⟩ := bind_eq_ok h
  obtain ⟨mx, h2, h⟩ := bind_eq_ok h
  cases h
  exact ⟨keeps_upd (keeps_setByte _ _) _ _ h1, keeps_upd (keeps_setByte _ _) _ _ h2⟩

theorem stepColor_same {b : Build} {t : Bool} {p : Point} {e e' : Extremes} (h : stepColor b t p e = .ok e') : Same e e' := by
  unfold stepColor at h
  split at h
  · obtain ⟨v, _, h⟩ := bind_eq_ok h
    obtain ⟨lo, _, h⟩ := bind_eq_ok h
    obtain ⟨hi, _, h⟩ := bind_eq_ok h
    obtain ⟨mn, h1, h⟩ := bind_eq_ok h
    obtain ⟨mx, h2, h⟩ := bind_eq_ok h
    cases h
    exact ⟨keeps_upd (keeps_setColor _ _) _ _ h1, keeps_upd (keeps_setColor _ _) _ _ h2⟩
  · cases h; exact .refl _

theorem stepAll_same {b : Build} {t c : Bool} {p : Point} {e e' : Extremes} (h : stepAll b t c p e = .ok e') : Same e e' := by
  obtain ⟨_, h1, h⟩ := bind_eq_ok h
  obtain ⟨_, h2, h⟩ := bind_eq_ok h
  obtain ⟨_, h3, h⟩ := bind_eq_ok h
  obtain ⟨_, h4, h⟩ := bind_eq_ok h
  obtain ⟨_, h5, h⟩ := bind_eq_ok h
  obtain ⟨_, h6, h⟩ := bind_eq_ok h
  obtain ⟨_, h7, h⟩ := bind_eq_ok h
  obtain ⟨_, h8, h⟩ := bind_eq_ok h
  obtain ⟨_, h9, h⟩ := bind_eq_ok h
  obtain ⟨_, h10, h⟩ := bind_eq_ok h
  obtain ⟨_, h11, h12⟩ := bind_eq_ok h
  have k1 := stepCoords_same h1
  have k2 := step_same (fun v => keeps_setInt _ _ _ _ _) h2
  have k3 := stepTime_same h3
  have k4 := step_same (fun v => keeps_setFlagBits _ _ _) h4
  have k5 := step_same (fun v => keeps_setFlagBits _ _ _) h5
  have k6 := step_same (fun v => keeps_setFlagBits _ _ _) h6
  have k7 := step_same (fun v => keeps_setFlagBits _ _ _) h7
  have k8 := step_same (fun v => keeps_setByte _ _) h8
  have k9 := step_same (fun v => keeps_setByte _ _) h9
  have k10 := step_same (fun v => keeps_setInt _ _ _ _ _) h10
  exact ((((((((((k1.trans k2).trans k3).trans k4).trans k5).trans k6).trans k7).trans k8).trans k9).trans k10).trans
    (stepClass_same h11)).trans (stepColor_same h12)

/-- Both points have the header `h`. -/
def On (h : PHeader) (e : Extremes) : Prop := e.minimum.hdr = h ∧ e.maximum.hdr = h

theorem On.rehome {h : PHeader} {e : Extremes} (he : On h e) : rehome h e = e := by
  obtain ⟨⟨d, h1⟩, ⟨d', h2⟩⟩ := e
  obtain ⟨rfl, hm⟩ := he
  cases hm
  rfl

theorem on_rehome (h : PHeader) (e : Extremes) : On h (rehome h e) := ⟨rfl, rfl⟩
theorem on_blanks (h : PHeader) : On h (blanks h) := ⟨rfl, rfl⟩

theorem On.same {h : PHeader} {e e' : Extremes} (he : On h e) (hs : Same e e') : On h e' := ⟨hs.1.trans he.1, hs.2.trans he.2⟩

/-- The first point fixes the header of the extremes. -/
theorem add_first {b : Build} {s s' : Summary} {p : Point} (hn : s.ext = none) (h : s.addPoint b p = .ok s') :
    s'.header = s.header ∧ ∃ e, s'.ext = some e ∧ On ((s.header.map (adopt p)).getD p.hdr) e := by
  obtain ⟨⟨e, ht, hc⟩, hp, h⟩ := bind_eq_ok h
  obtain ⟨e1, h1, h⟩ := bind_eq_ok h
  obtain ⟨_, _, h⟩ := bind_eq_ok h
  obtain ⟨_, _, h⟩ := bind_eq_ok h
  obtain ⟨_, _, h⟩ := bind_eq_ok h
  obtain ⟨_, _, h⟩ := bind_eq_ok h
  obtain ⟨_, _, h⟩ := bind_eq_ok h
  obtain ⟨_, _, h⟩ := bind_eq_ok h
  cases h
  refine ⟨rfl, e1, rfl, ?_⟩
  refine On.same ?_ (stepAll_same h1)
  unfold Summary.prepare at hp
  rw [hn] at hp
  obtain ⟨e0, h0, hp⟩ := bind_eq_ok hp
  cases hp
  cases hh : s.header with
  | none =>
    rw [hh] at h0
    cases h0
    exact ⟨rfl, rfl⟩
  | some g => exact ⟨rfl, rfl⟩

/-- Later points leave it. -/
theorem add_later {b : Build} {s s' : Summary} {p : Point} {e : Extremes} {h0 : PHeader} (hn : s.ext = some e) (ho : On h0 e)
    (h : s.addPoint b p = .ok s') : s'.header = s.header ∧ ∃ e, s'.ext = some e ∧ On h0 e := by
  obtain ⟨⟨e', ht, hc⟩, hp, h⟩ := bind_eq_ok h
  obtain ⟨e1, h1, h⟩ := bind_eq_ok h
  obtain ⟨_, _, h⟩ := bind_eq_ok h
  obtain ⟨_, _, h⟩ := bind_eq_ok h
  obtain ⟨_, _, h⟩ := bind_eq_ok h
  obtain ⟨_, _, h⟩ := bind_eq_ok h
  obtain ⟨_, _, h⟩ := bind_eq_ok h
  obtain ⟨_, _, h⟩ := bind_eq_ok h
  cases h
  refine ⟨rfl, e1, rfl, ?_⟩
  unfold Summary.prepare at hp
  rw [hn] at hp
  cases hp
  exact ho.same (stepAll_same h1)

/-- Once there are points, the header given no longer matters. -/
theorem add_header {b : Build} {s s' : Summary} {p : Point} {e : Extremes} {x : Option PHeader} (hn : s.ext = some e)
    (h : Summary.addPoint b { s with header := x } p = .ok s') :
    ∃ t, s.addPoint b p = .ok t ∧ s' = { t with header := x } := by
  obtain ⟨⟨e', ht, hc⟩, hp, h⟩ := bind_eq_ok h
  obtain ⟨e1, h1, h⟩ := bind_eq_ok h
  obtain ⟨c, h2, h⟩ := bind_eq_ok h
  obtain ⟨cs, h3, h⟩ := bind_eq_ok h
  obtain ⟨r, h4, h⟩ := bind_eq_ok h
  obtain ⟨br, h5, h⟩ := bind_eq_ok h
  obtain ⟨n, h6, h⟩ := bind_eq_ok h
  obtain ⟨op, h7, h⟩ := bind_eq_ok h
  cases h
  unfold Summary.prepare at hp
  rw [show ({ s with header := x } : Summary).ext = s.ext from rfl, hn] at hp
  cases hp
  have hp' : Summary.prepare b s p = .ok (e, s.haveTime, s.haveColor) := by unfold Summary.prepare; rw [hn]
  refine ⟨⟨cs, Summary.addFlag s.synthetic c.isSynthetic, Summary.addFlag s.withheld c.isWithheld,
    Summary.addFlag s.keypoint c.isKeyPoint, s.count + 1, br, op, some e1, s.header, s.haveColor, s.haveTime⟩, ?_, rfl⟩
  unfold Summary.addPoint
  simp only [hp', Outcome.bind_ok, h1, h2, h4, h6]
  simp only [show Summary.classes { s with header := x } = s.classes from rfl,
    show Summary.pointsByReturn { s with header := x } = s.pointsByReturn from rfl,
    show Summary.returnsOfPulse { s with header := x } = s.returnsOfPulse from rfl] at h3 h5 h7
  simp only [h3, h5, h7, Outcome.bind_ok, Outcome.pure_eq]

theorem addAll_append (b : Build) : ∀ (ps qs : List Point) (s : Summary),
    Summary.addAll b (ps ++ qs) s = (Summary.addAll b ps s >>= Summary.addAll b qs)
  | [], qs, s => rfl
  | p :: ps, qs, s => by
    simp only [List.cons_append, Summary.addAll]
    cases Summary.addPoint b s p with
    | ok t => simp only [Outcome.bind_ok, addAll_append b ps qs t]
    | throw e => rfl
    | ub => rfl

theorem run_append (b : Build) : ∀ (xs ys : List Op) (w : World), run b (xs ++ ys) w = (run b xs w >>= run b ys)
  | [], ys, w => rfl
  | x :: xs, ys, w => by
    simp only [List.cons_append, run]
    cases step b w x with
    | ok t => simp only [Outcome.bind_ok, run_append b xs ys t]
    | throw e => rfl
    | ub => rfl

theorem get_ok {w : World} {i : Nat} {o : Obj} (h : w.get i = .ok o) : w.objs[i]? = some (some o) := by
  unfold World.get at h
  split at h
  · rename_i e; cases h; exact e
  · cases h

theorem get_of {w : World} {i : Nat} {o : Obj} (h : w.objs[i]? = some (some o)) : w.get i = .ok o := by
  unfold World.get; rw [h]

theorem put_same {w : World} {i : Nat} {o : Option Obj} (h : i < w.objs.length) : (w.put i o).objs[i]? = some o := by
  simp [World.put, h]

theorem put_other {w : World} {i j : Nat} {o : Option Obj} (h : j ≠ i) : (w.put j o).objs[i]? = w.objs[i]? := by
  simp [World.put, List.getElem?_set_ne h]

theorem lt_of_get {w : World} {i : Nat} {x : Option Obj} (h : w.objs[i]? = some x) : i < w.objs.length := by
  by_contra hc
  rw [List.getElem?_eq_none (by omega)] at h
  cases h

/-- An operation that is not about summary `i` leaves it. -/
theorem step_other {b : Build} {w w' : World} {op : Op} {i : Nat} {x : Option Obj} (hx : w.objs[i]? = some x)
    (hr : op.remakes i = false) (ha : ∀ k p, op ≠ .add i k p) (h : step b w op = .ok w') : w'.objs[i]? = some x := by
  have hlt := lt_of_get hx
  cases op with
  | source g => cases h; exact hx
  | close k => cases h; exact hx
  | new =>
    cases h
    show (w.objs ++ _)[i]? = _
    rw [List.getElem?_append_left hlt]; exact hx
  | setHeader j g =>
    obtain ⟨o, _, h⟩ := bind_eq_ok h
    cases h
    rw [put_other (by simpa [Op.remakes] using hr)]; exact hx
  | add j k p =>
    simp only [step] at h
    split at h
    · obtain ⟨o, _, h⟩ := bind_eq_ok h
      obtain ⟨s, _, h⟩ := bind_eq_ok h
      obtain ⟨s', _, h⟩ := bind_eq_ok h
      cases h
      rw [put_other (fun e => ha k p (by rw [e]))]; exact hx
    · cases h
  | copy j =>
    obtain ⟨o, _, h⟩ := bind_eq_ok h
    obtain ⟨c, _, h⟩ := bind_eq_ok h
    cases h
    show (w.objs ++ _)[i]? = _
    rw [List.getElem?_append_left hlt]; exact hx
  | assign j k =>
    obtain ⟨_, _, h⟩ := bind_eq_ok h
    obtain ⟨o, _, h⟩ := bind_eq_ok h
    split at h
    · cases h; exact hx
    · obtain ⟨c, _, h⟩ := bind_eq_ok h
      cases h
      rw [put_other (by simpa [Op.remakes] using hr)]; exact hx
  | destroy j =>
    obtain ⟨_, _, h⟩ := bind_eq_ok h
    cases h
    rw [put_other (by simpa [Op.remakes] using hr)]; exact hx

/-- The parts of an `add` that went well. -/
theorem step_add {b : Build} {w w' : World} {i k : Nat} {p : Point} (h : step b w (.add i k p) = .ok w') :
    w.sources[k]? = some (some p.hdr) ∧ ∃ o s s', w.objs[i]? = some (some o) ∧ w.load o = .ok s ∧ s.addPoint b p = .ok s' ∧
      w' = w.put i (some (o.added i k p s')) := by
  simp only [step] at h
  split at h
  · rename_i hs
    obtain ⟨o, h1, h⟩ := bind_eq_ok h
    obtain ⟨s, h2, h⟩ := bind_eq_ok h
    obtain ⟨s', h3, h⟩ := bind_eq_ok h
    cases h
    exact ⟨hs, o, s, s', get_ok h1, h2, h3, rfl⟩
  · cases h

/-- A destroyed summary stays destroyed. -/
theorem step_dead {b : Build} {w w' : World} {op : Op} {i : Nat} (hx : w.objs[i]? = some none) (h : step b w op = .ok w') :
    w'.objs[i]? = some none := by
  have hd : w.get i = .ub := by unfold World.get; rw [hx]
  by_cases hr : op.remakes i = true
  · exfalso
    cases op <;> simp only [Op.remakes, beq_iff_eq, Bool.false_eq_true] at hr
    · subst hr; simp only [step, hd] at h; cases h
    · subst hr; simp only [step, hd] at h; cases h
    · subst hr; simp only [step, hd] at h; cases h
  · refine step_other hx (by simpa using hr) ?_ h
    rintro k p rfl
    obtain ⟨_, o, _, _, h1, _⟩ := step_add h
    rw [hx] at h1; cases h1

theorem run_dead {b : Build} {i : Nat} : ∀ (ops : List Op) {w w' : World}, w.objs[i]? = some none → run b ops w = .ok w' →
    w'.objs[i]? = some none
  | [], w, w', hx, h => by cases h; exact hx
  | op :: ops, w, w', hx, h => by
    obtain ⟨w1, h1, h2⟩ := bind_eq_ok h
    exact run_dead ops (step_dead hx h1) h2

/-- A reader that is not closed stays open. -/
theorem step_source {b : Build} {w w' : World} {op : Op} {k : Nat} {g : PHeader} (hx : w.sources[k]? = some (some g))
    (hc : op ≠ .close k) (h : step b w op = .ok w') : w'.sources[k]? = some (some g) := by
  have hlt : k < w.sources.length := by
    by_contra hn
    rw [List.getElem?_eq_none (by omega)] at hx
    cases hx
  cases op with
  | source g => cases h; show (w.sources ++ _)[k]? = _; rw [List.getElem?_append_left hlt]; exact hx
  | close j =>
    cases h
    show (w.sources.set j none)[k]? = _
    rw [List.getElem?_set_ne (fun e => hc (by rw [e]))]; exact hx
  | new => cases h; exact hx
  | setHeader j g => obtain ⟨o, _, h⟩ := bind_eq_ok h; cases h; exact hx
  | add j k p => obtain ⟨_, _, _, _, _, _, _, rfl⟩ := step_add h; exact hx
  | copy j =>
    obtain ⟨o, _, h⟩ := bind_eq_ok h
    obtain ⟨c, _, h⟩ := bind_eq_ok h
    cases h; exact hx
  | assign j k =>
    obtain ⟨_, _, h⟩ := bind_eq_ok h
    obtain ⟨o, _, h⟩ := bind_eq_ok h
    split at h
    · cases h; exact hx
    · obtain ⟨c, _, h⟩ := bind_eq_ok h
      cases h; exact hx
  | destroy j => obtain ⟨_, _, h⟩ := bind_eq_ok h; cases h; exact hx

/-- A closed reader stays closed. -/
theorem step_closed {b : Build} {w w' : World} {op : Op} {k : Nat} (hx : w.sources[k]? = some none)
    (h : step b w op = .ok w') : w'.sources[k]? = some none := by
  have hlt : k < w.sources.length := by
    by_contra hn
    rw [List.getElem?_eq_none (by omega)] at hx
    cases hx
  cases op with
  | source g => cases h; show (w.sources ++ _)[k]? = _; rw [List.getElem?_append_left hlt]; exact hx
  | close j =>
    cases h
    show (w.sources.set j none)[k]? = _
    by_cases e : j = k
    · subst e; simp [hlt]
    · rw [List.getElem?_set_ne e]; exact hx
  | new => cases h; exact hx
  | setHeader j g => obtain ⟨o, _, h⟩ := bind_eq_ok h; cases h; exact hx
  | add j k p => obtain ⟨_, _, _, _, _, _, _, rfl⟩ := step_add h; exact hx
  | copy j =>
    obtain ⟨o, _, h⟩ := bind_eq_ok h
    obtain ⟨c, _, h⟩ := bind_eq_ok h
    cases h; exact hx
  | assign j k =>
    obtain ⟨_, _, h⟩ := bind_eq_ok h
    obtain ⟨o, _, h⟩ := bind_eq_ok h
    split at h
    · cases h; exact hx
    · obtain ⟨c, _, h⟩ := bind_eq_ok h
      cases h; exact hx
  | destroy j => obtain ⟨_, _, h⟩ := bind_eq_ok h; cases h; exact hx

theorem run_closed {b : Build} {k : Nat} : ∀ (ops : List Op) {w w' : World}, w.sources[k]? = some none → run b ops w = .ok w' →
    w'.sources[k]? = some none
  | [], w, w', hx, h => by cases h; exact hx
  | op :: ops, w, w', hx, h => by
    obtain ⟨w1, h1, h2⟩ := bind_eq_ok h
    exact run_closed ops (step_closed hx h1) h2

end LibLAS.SummaryLife
