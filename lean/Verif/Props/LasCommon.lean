import Verif.Lemmas.LasCommon
import Verif.Lemmas.Dump
import Verif.Props.IndexLife
import Verif.Props.CSession
import Verif.Props.WriteRead
import Verif.Props.KernelTransforms
/-
C104: `SummarizePoints` and `repair_header` of the C tools.
-/
namespace LibLAS.LasCommon
open Spec Point Summary CApi

theorem next_hdr {what : Exc → List Byte} {st : Errors} {r r' : Reader} {q : Option (List Byte)} {st' : Errors}
    (h : getNextPoint what st (some r) = .ok (q, some r', st')) : r'.hdr = r.hdr := by
  have e : r' = r.readNext.1 := by
    simp only [getNextPoint] at h
    rcases hx : r.readNext with ⟨r1, o⟩
    rw [hx] at h
    cases o with
    | ok v => cases v <;> simp at h <;> exact h.2.1.symm
    | throw e => simp at h; exact h.2.1.symm
    | ub => simp at h
  rw [e]
  exact (Index.run_nexts 1 r).1

/-- The state before the point `a`. -/
private def Ready (b : Build) (f : PointFormat) (H : PHeader) (done : List Attrs) (a : Attrs) (s : CSummary) : Prop :=
  cCountersRight done s ∧ ∃ A C, Tracks b f H H s.ext A C ∧ ((Boxed H done A C ∧ AttributeExtremes done A C) ∨ done = [] ∧ A = a ∧ C = a)

private theorem add_ready {b : Build} {f : PointFormat} {H : PHeader} (hg : GoodScaling H) {p : Point} {a : Attrs}
    {done : List Attrs} {s : CSummary} (hp : Shows b f p a) (hh : p.hdr = H) (h : Ready b f H done a s) :
    ∃ s', addPoint b p s = .ok s' ∧ Inv b f H (done ++ [a]) s' := by
  obtain ⟨hc, A, C, ht, hb⟩ := h
  obtain ⟨s', A', C', h1, h2, h3, k1, k2, k3, k4, k5, k6, k7⟩ := add_core hg hp hh ht hc
  refine ⟨s', h1, h2, A', C', h3, ?_⟩
  rcases hb with ⟨hb, hx⟩ | ⟨rfl, rfl, rfl⟩
  · exact ⟨boxed_snoc hg hb k1 k2 k3 k4 k5 k6, attributes_snoc k7 hx⟩
  · simp only [dmin_self, dmax_self] at k1 k2 k3 k4 k5 k6
    exact ⟨boxed_one hg k1 k2 k3 k4 k5 k6, attributes_one k7⟩

/-- The loop on the record `p` and those after it: the summary of all of them. -/
private theorem loop_done {b : Build} {what : Exc → List Byte} {f : PointFormat} {H : PHeader} (hg : GoodScaling H)
    (hf : H.fmt = f) : ∀ (recs : List (List Byte)) (p : List Byte) (a : Attrs) (as done : List Attrs) (r : Reader) (s : CSummary) (k : Nat),
    r.hdr.toP = H → (∀ q ∈ p :: recs, (⟨q, H⟩ : Point).WF) → (p :: recs).map (fun q => observe b ⟨q, H⟩) = (a :: as).map .ok →
    recs.length + 1 ≤ k → Ready b f H done a s →
    ReadsAll what [] r recs → ∃ s', loop b what k [] r p s = .ok (some s') ∧ Inv b f H (done ++ a :: as) s' := by
  intro recs
  induction recs with
  | nil =>
    intro p a as done r s k hr hw ho hk hrd
    obtain ⟨k, rfl⟩ : ∃ j, k = j + 1 := ⟨k - 1, by simp at hk; omega⟩
    simp only [List.map_cons, List.map_nil, List.cons.injEq] at ho
    obtain ⟨ho, hn⟩ := ho
    obtain rfl : as = [] := by simpa using hn.symm
    obtain ⟨s', h1, h2⟩ := add_ready hg ⟨hw p (by simp), hf, ho⟩ rfl hrd
    rintro ⟨r', h⟩
    exact ⟨s', by simp only [loop, hr, h1, Outcome.bind_ok, h, lastErrorNum]; rfl, h2⟩
  | cons q recs ih =>
    intro p a as done r s k hr hw ho hk hrd
    obtain ⟨k, rfl⟩ : ∃ j, k = j + 1 := ⟨k - 1, by simp at hk; omega⟩
    simp only [List.map_cons, List.cons.injEq] at ho
    obtain ⟨ho, hn⟩ := ho
    cases as with
    | nil => simp at hn
    | cons a2 as =>
      obtain ⟨s', h1, h2⟩ := add_ready hg ⟨hw p (by simp), hf, ho⟩ rfl hrd
      have hrd' : Ready b f H (done ++ [a]) a2 s' := by
        obtain ⟨c, A, C, t, bx⟩ := h2
        exact ⟨c, A, C, t, .inl bx⟩
      have step : ∀ r', getNextPoint what [] (some r) = .ok (some q, some r', []) →
          loop b what (k + 1) [] r p s = loop b what k [] r' q s' := by
        intro r' h
        simp only [loop, hr, h1, Outcome.bind_ok, h, lastErrorNum]
        rfl
      rintro ⟨r', h, hrest⟩
      obtain ⟨s'', e1, e2⟩ := ih q a2 as (done ++ [a]) r' s' k (by rw [next_hdr h, hr]) (fun x hx => hw x (by simp at hx ⊢; tauto))
        hn (by simp at hk ⊢; omega) hrd' hrest
      exact ⟨s'', by rw [step r' h]; exact e1, by simpa using e2⟩

private theorem start_ready {b : Build} {f : PointFormat} {H : PHeader} {p : List Byte} {a : Attrs} (hw : (⟨p, H⟩ : Point).WF)
    (hf : H.fmt = f) (ho : observe b ⟨p, H⟩ = .ok a) : Ready b f H [] a (start ⟨p, H⟩) :=
  ⟨⟨rfl, rfl, rfl, rfl, rfl, rfl, rfl⟩, a, a, ⟨⟨hw, hf, ho⟩, ⟨hw, hf, ho⟩, rfl, rfl⟩, .inr ⟨rfl, rfl, rfl⟩⟩

private theorem toP_next {what : Exc → List Byte} {st : Errors} {r r' : Reader} {q : Option (List Byte)} {st' : Errors}
    (h : getNextPoint what st (some r) = .ok (q, some r', st')) : r'.hdr.toP = r.hdr.toP := by rw [next_hdr h]

/-- Least and greatest, from attributes to points. -/
private theorem isLeast_of {b : Build} {get : Point → Outcome Fl} {g : Attrs → Fl} {H : PHeader}
    (hget : ∀ q a, q.hdr = H → q.WF → observe b q = .ok a → get q = .ok (g a)) :
    ∀ (ps : List Point) (as : List Attrs) (v : Fl), (∀ q ∈ ps, q.WF ∧ q.hdr = H) → ps.map (observe b) = as.map .ok →
      (least g as v → IsLeast get ps v) ∧ (greatest g as v → IsGreatest get ps v) := by
  intro ps as v hw ho
  have back : ∀ q ∈ ps, ∃ a ∈ as, get q = .ok (g a) := by
    intro q hq
    have : observe b q ∈ as.map (Outcome.ok) := by rw [← ho]; exact List.mem_map_of_mem hq
    obtain ⟨a, ha, e⟩ := List.mem_map.1 this
    exact ⟨a, ha, hget q a (hw q hq).2 (hw q hq).1 e.symm⟩
  have forth : ∀ a ∈ as, ∃ q ∈ ps, get q = .ok (g a) := by
    intro a ha
    have : Outcome.ok a ∈ ps.map (observe b) := by rw [ho]; exact List.mem_map_of_mem ha
    obtain ⟨q, hq, e⟩ := List.mem_map.1 this
    exact ⟨q, hq, hget q a (hw q hq).2 (hw q hq).1 e⟩
  constructor
  · rintro ⟨⟨a, ha, rfl⟩, hl⟩
    refine ⟨forth a ha, fun q hq => ?_⟩
    obtain ⟨c, hc, e⟩ := back q hq
    exact ⟨_, e, hl c hc⟩
  · rintro ⟨⟨a, ha, rfl⟩, hl⟩
    refine ⟨forth a ha, fun q hq => ?_⟩
    obtain ⟨c, hc, e⟩ := back q hq
    exact ⟨_, e, hl c hc⟩

/-- C104, statistics: on a reader that gives the records `recs` (at least one) and then its end, with no error on the stack
beforehand, `SummarizePoints` counts every point, by return, by number of returns, by class and by flag, its two points are
at the corners of the box around all points, and they show the smallest and the largest of every other attribute. -/
theorem summarize_points_partial (b : Build) (what : Exc → List Byte) (r : Reader) (recs : List (List Byte)) (as : List Attrs)
    (k : Nat) (hr : ReadsAll what [] r recs) (hne : recs ≠ []) (hk : recs.length ≤ k) (hw : ∀ q ∈ recordsAsPoints r recs, q.WF)
    (hg : GoodScaling r.hdr.toP) (ho : (recordsAsPoints r recs).map (observe b) = as.map .ok) :
    ∃ s lo hi least most, summarizePoints b what k [] r = .ok (some s) ∧ cCountersRight as s ∧ At b s.ext.minimum lo ∧
      At b s.ext.maximum hi ∧ IsBox b (recordsAsPoints r recs) lo hi ∧ s.ext.minimum.hdr = r.hdr.toP ∧ s.ext.maximum.hdr = r.hdr.toP ∧
      observe b s.ext.minimum = .ok least ∧ observe b s.ext.maximum = .ok most ∧ AttributeExtremes as least most := by
  cases recs with
  | nil => exact absurd rfl hne
  | cons p recs =>
    obtain ⟨r', h1, h2⟩ := hr
    have hH := toP_next h1
    cases as with
    | nil => simp [recordsAsPoints] at ho
    | cons a as =>
      have ho' : (p :: recs).map (fun q => observe b ⟨q, r.hdr.toP⟩) = (a :: as).map .ok := by
        simpa [recordsAsPoints, Function.comp_def] using ho
      have hw' : ∀ q ∈ p :: recs, (⟨q, r.hdr.toP⟩ : Point).WF := fun q hq => hw _ (List.mem_map_of_mem hq)
      have hop : observe b ⟨p, r.hdr.toP⟩ = .ok a := by
        rw [List.map_cons, List.map_cons, List.cons.injEq] at ho'; exact ho'.1
      obtain ⟨s, e, hc, A, C, ht, hb⟩ := loop_done (f := r.hdr.toP.fmt) hg rfl recs p a as [] r' (start ⟨p, r.hdr.toP⟩) k hH hw' ho'
        (by simpa using hk) (start_ready (hw' p (by simp)) rfl hop) h2
      have hps : ∀ q ∈ recordsAsPoints r (p :: recs), q.WF ∧ q.hdr = r.hdr.toP := by
        intro q hq
        refine ⟨hw q hq, ?_⟩
        obtain ⟨x, _, rfl⟩ := List.mem_map.1 hq
        rfl
      have gx : ∀ q a, q.hdr = r.hdr.toP → q.WF → observe b q = .ok a → q.getX b = .ok (xOf r.hdr.toP a) := fun q a h1 h2 h3 =>
        (axisX hg).get q a ⟨h2, by rw [h1], h3⟩ h1
      have gy : ∀ q a, q.hdr = r.hdr.toP → q.WF → observe b q = .ok a → q.getY b = .ok (yOf r.hdr.toP a) := fun q a h1 h2 h3 =>
        (axisY hg).get q a ⟨h2, by rw [h1], h3⟩ h1
      have gz : ∀ q a, q.hdr = r.hdr.toP → q.WF → observe b q = .ok a → q.getZ b = .ok (zOf r.hdr.toP a) := fun q a h1 h2 h3 =>
        (axisZ hg).get q a ⟨h2, by rw [h1], h3⟩ h1
      refine ⟨s, ⟨xOf r.hdr.toP A, yOf r.hdr.toP A, zOf r.hdr.toP A⟩, ⟨xOf r.hdr.toP C, yOf r.hdr.toP C, zOf r.hdr.toP C⟩, A, C, ?_, hc,
        ⟨gx _ _ ht.hmn ht.mn.1 ht.mn.2.2, gy _ _ ht.hmn ht.mn.1 ht.mn.2.2, gz _ _ ht.hmn ht.mn.1 ht.mn.2.2⟩,
        ⟨gx _ _ ht.hmx ht.mx.1 ht.mx.2.2, gy _ _ ht.hmx ht.mx.1 ht.mx.2.2, gz _ _ ht.hmx ht.mx.1 ht.mx.2.2⟩,
        ⟨(isLeast_of gx _ _ _ hps ho).1 hb.1.x.1, (isLeast_of gy _ _ _ hps ho).1 hb.1.y.1, (isLeast_of gz _ _ _ hps ho).1 hb.1.z.1,
        (isLeast_of gx _ _ _ hps ho).2 hb.1.x.2, (isLeast_of gy _ _ _ hps ho).2 hb.1.y.2, (isLeast_of gz _ _ _ hps ho).2 hb.1.z.2⟩,
        ht.hmn, ht.hmx, ht.mn.2.2, ht.mx.2.2, hb.2⟩
      simp only [summarizePoints, h1, hH]
      exact e

/-- C104: no points end the program. -/
theorem no_points_exit (b : Build) (what : Exc → List Byte) (st : Errors) (r : Reader) (k : Nat) (hr : ReadsAll what st r []) :
    summarizePoints b what k st r = .ok none := by
  obtain ⟨r', h⟩ := hr
  simp only [summarizePoints, h]

/-- C104 refuted for a stack that is not empty: an error left by any earlier call ends the program after the first point, although
every read succeeds. -/
theorem stale_error_exits (b : Build) (what : Exc → List Byte) (st : Errors) (r : Reader) (p : List Byte) (recs : List (List Byte))
    (k : Nat) (hst : lastErrorNum st ≠ 0) (hr : ReadsAll what st r (p :: recs)) (hk : 0 < k) (hw : (⟨p, r.hdr.toP⟩ : Point).WF)
    (hg : GoodScaling r.hdr.toP) : summarizePoints b what k st r = .ok none := by
  obtain ⟨r', h1, h2⟩ := hr
  have hH := toP_next h1
  obtain ⟨k, rfl⟩ : ∃ j, k = j + 1 := ⟨k - 1, by omega⟩
  have ho := observe_eq (b := b) hw
  obtain ⟨s', e, -⟩ := add_ready hg ⟨hw, rfl, ho⟩ rfl (start_ready hw rfl ho)
  simp only [summarizePoints, h1, hH, loop, e, Outcome.bind_ok]
  cases recs with
  | nil => obtain ⟨r2, h⟩ := h2; simp only [h, ne_eq, hst, not_false_eq_true, if_true, Outcome.pure_eq]
  | cons q recs => obtain ⟨r2, h, -⟩ := h2; simp only [h, ne_eq, hst, not_false_eq_true, if_true, Outcome.pure_eq]

/-! Repairing a header -/

private theorem not_differs {a : Fl} {q : ℚ} (h : differs a (.fin q) = false) : a = .fin q := by
  simp only [differs, Bool.not_eq_false'] at h
  cases a with
  | fin x =>
    simp only [Fl.le, Bool.and_eq_true, decide_eq_true_eq] at h
    rw [le_antisymm h.1 h.2]
  | inf n => cases n <;> simp [Fl.le] at h
  | nan => simp [Fl.le] at h

private theorem scaled_bits {v : BitVec 32} {s o : Fl} (hg : GoodAxis s o) :
    ∃ q, scaled v s o = .fin q ∧ Fl.ofBits (Fl.toBits (.fin q)) = .fin q := by
  obtain ⟨q, hq⟩ := (scaled_back (v := v) hg).1
  refine ⟨q, hq, ?_⟩
  obtain ⟨sq, oq, rfl, rfl, -⟩ := hg
  have hp : Dump.Proper (scaled v (.fin sq) (.fin oq)) := by
    unfold scaled
    generalize Fl.mul (Fl.ofInt32 v) (.fin sq) = y
    cases y with
    | fin y => exact Dump.proper_ofRat _
    | inf n => trivial
    | nan => trivial
  have := Dump.bits_proper hp
  rwa [hq] at this

/-- A coordinate of a point of a well-scaled header: a number, and one that survives in a header. -/
private theorem at_bits {b : Build} {p : Point} {v : Vec3 Fl} (hg : GoodScaling p.hdr) (h : At b p v) :
    ∃ x y z, v = ⟨.fin x, .fin y, .fin z⟩ ∧ Fl.ofBits (Fl.toBits (.fin x)) = .fin x ∧ Fl.ofBits (Fl.toBits (.fin y)) = .fin y ∧
      Fl.ofBits (Fl.toBits (.fin z)) = .fin z := by
  obtain ⟨hx, hy, hz⟩ := h
  obtain ⟨rx, -, hx⟩ := bind_ok_inv hx
  obtain ⟨ry, -, hy⟩ := bind_ok_inv hy
  obtain ⟨rz, -, hz⟩ := bind_ok_inv hz
  obtain ⟨x, ex, bx⟩ := scaled_bits (v := rx) hg.1
  obtain ⟨y, ey, b2⟩ := scaled_bits (v := ry) hg.2.1
  obtain ⟨z, ez, bz⟩ := scaled_bits (v := rz) hg.2.2
  simp only [Outcome.pure_eq, Outcome.ok.injEq, ex, ey, ez] at hx hy hz
  refine ⟨x, y, z, ?_, bx, b2, bz⟩
  cases v
  simp_all

private theorem corner_at {b : Build} {p : Point} {v : Vec3 Fl} (h : At b p v) : corner b p = .ok v := by
  simp only [corner, h.1, h.2.1, h.2.2, Outcome.bind_ok, Outcome.pure_eq]

private theorem repairBox_spec {b : Build} {s : CSummary} {h : Header} {lo hi : Vec3 Fl}
    (g1 : GoodScaling s.ext.minimum.hdr) (g2 : GoodScaling s.ext.maximum.hdr) (h1 : At b s.ext.minimum lo) (h2 : At b s.ext.maximum hi) :
    ∃ h', repairBox b s h = .ok h' ∧ HasBox h' lo hi ∧ h'.byReturn = h.byReturn ∧ OnlyBoxAndCounts h h' := by
  obtain ⟨x, y, z, rfl, bx, b2, bz⟩ := at_bits g1 h1
  obtain ⟨x', y', z', rfl, cx, cy, cz⟩ := at_bits g2 h2
  simp only [repairBox, corner_at h1, corner_at h2, Outcome.bind_ok, Outcome.pure_eq]
  refine ⟨_, rfl, ?_⟩
  split
  · exact ⟨⟨bx, b2, bz, cx, cy, cz⟩, rfl, rfl⟩
  · rename_i hn
    simp only [Bool.not_eq_true, Bool.or_eq_false_iff, cornerDiffers] at hn
    obtain ⟨⟨⟨n1, n2⟩, n3⟩, ⟨n4, n5⟩, n6⟩ := hn
    exact ⟨⟨not_differs n1, not_differs n2, not_differs n3, not_differs n4, not_differs n5, not_differs n6⟩, rfl, rfl⟩

/-- The counts by return of the header agree with those of the summary modulo 256. -/
def AgreeMod256 (h : Header) (s : CSummary) : Prop :=
  ∀ i < 5, (h.byReturn.getD i 0).toNat = (s.byReturn.getD i 0).toNat % 256

private theorem uchar (c d : BitVec 32) : c ≠ asUchar d ↔ ¬ c.toNat = d.toNat % 256 := by
  have : (asUchar d).toNat = d.toNat % 256 := by
    simp [asUchar]; omega
  rw [← this, ne_eq, BitVec.toNat_eq]

private theorem counts_spec {h : Header} {s : CSummary} (h5 : 5 ≤ h.byReturn.length) :
    ∃ d, countsDiffer h s [0, 1, 2, 3, 4] = .ok d ∧ (d = false ↔ AgreeMod256 h s) := by
  obtain ⟨a, b, c, d, e, l, hl⟩ : ∃ a b c d e l, h.byReturn = a :: b :: c :: d :: e :: l := by
    match hh : h.byReturn, h5 with
    | a :: b :: c :: d :: e :: l, _ => exact ⟨a, b, c, d, e, l, rfl⟩
  have key : AgreeMod256 h s ↔ (a.toNat = (s.byReturn.getD 0 0).toNat % 256 ∧ b.toNat = (s.byReturn.getD 1 0).toNat % 256 ∧
      c.toNat = (s.byReturn.getD 2 0).toNat % 256 ∧ d.toNat = (s.byReturn.getD 3 0).toNat % 256 ∧
      e.toNat = (s.byReturn.getD 4 0).toNat % 256) := by
    unfold AgreeMod256
    rw [hl]
    constructor
    · intro h
      exact ⟨h 0 (by omega), h 1 (by omega), h 2 (by omega), h 3 (by omega), h 4 (by omega)⟩
    · rintro ⟨h0, h1, h2, h3, h4⟩ i hi
      rcases i with _ | _ | _ | _ | _ | i
      · exact h0
      · exact h1
      · exact h2
      · exact h3
      · exact h4
      · omega
  rw [key]
  simp only [countsDiffer, headerByReturn, hl, uchar]
  norm_num
  by_cases c0 : a.toNat = (s.byReturn.getD 0 0).toNat % 256
  · by_cases c1 : b.toNat = (s.byReturn.getD 1 0).toNat % 256
    · by_cases c2 : c.toNat = (s.byReturn.getD 2 0).toNat % 256
      · by_cases c3 : d.toNat = (s.byReturn.getD 3 0).toNat % 256
        · by_cases c4 : e.toNat = (s.byReturn.getD 4 0).toNat % 256
          · simp_all
          · simp_all
        · simp_all
      · simp_all
    · simp_all
  · simp_all

private theorem setCounts_spec {h : Header} {s : CSummary} (h5 : 5 ≤ h.byReturn.length) :
    setCounts h s [0, 1, 2, 3, 4] = { h with byReturn := ((List.range 5).map fun i => s.byReturn.getD i 0) ++ h.byReturn.drop 5 } := by
  obtain ⟨a, b, c, d, e, l, hl⟩ : ∃ a b c d e l, h.byReturn = a :: b :: c :: d :: e :: l := by
    match hh : h.byReturn, h5 with
    | a :: b :: c :: d :: e :: l, _ => exact ⟨a, b, c, d, e, l, rfl⟩
  simp [setCounts, Header.setByReturn, hl, List.range_succ]

/-- C104, repair: for every header with (at least) five counts by return and every summary of points of a well-scaled header,
`repair_header` leaves the box of the two points in the header; it changes nothing but box and counts; the counts become
those of the summary, unless the header agrees with them modulo 256: then they stay. -/
theorem repair_header_partial (b : Build) (s : CSummary) (h : Header) (lo hi : Vec3 Fl) (h5 : 5 ≤ h.byReturn.length)
    (g1 : GoodScaling s.ext.minimum.hdr) (g2 : GoodScaling s.ext.maximum.hdr) (h1 : At b s.ext.minimum lo)
    (h2 : At b s.ext.maximum hi) :
    ∃ h', repairHeader b s h = .ok h' ∧ HasBox h' lo hi ∧ OnlyBoxAndCounts h h' ∧
      (¬ AgreeMod256 h s → h'.byReturn.take 5 = (List.range 5).map fun i => s.byReturn.getD i 0) ∧
      (AgreeMod256 h s → h'.byReturn = h.byReturn) := by
  obtain ⟨h', e1, hb, hr, ho⟩ := repairBox_spec (h := h) g1 g2 h1 h2
  have hag : AgreeMod256 h' s ↔ AgreeMod256 h s := by unfold AgreeMod256; rw [hr]
  obtain ⟨d, e2, hd⟩ := counts_spec (h := h') (s := s) (by rw [hr]; exact h5)
  rw [hag] at hd
  simp only [repairHeader, e1, e2, Outcome.bind_ok, Outcome.pure_eq]
  refine ⟨_, rfl, ?_⟩
  cases d with
  | true =>
    have hn : ¬ AgreeMod256 h s := fun hh => by simpa using hd.2 hh
    simp only [if_true, setCounts_spec (show 5 ≤ h'.byReturn.length by rw [hr]; exact h5)]
    exact ⟨hb, ho, fun _ => by simp [List.range_succ], fun hh => absurd hh hn⟩
  | false =>
    have hy := hd.1 rfl
    simp only [Bool.false_eq_true, if_false]
    exact ⟨hb, ho, fun hh => absurd hy hh, fun _ => hr⟩

private theorem take_agree {h : Header} {s : CSummary} (h5 : 5 ≤ h.byReturn.length) (ha : AgreeMod256 h s)
    (hs : ∀ i < 5, (s.byReturn.getD i 0).toNat < 256) : h.byReturn.take 5 = (List.range 5).map fun i => s.byReturn.getD i 0 := by
  apply List.ext_getElem
  · simp; omega
  · intro i h1 h2
    have hi : i < 5 := by simpa using h2
    have hl : i < h.byReturn.length := by omega
    have e := ha i hi
    rw [Nat.mod_eq_of_lt (hs i hi)] at e
    have e := BitVec.eq_of_toNat_eq e
    simp only [List.getElem_take, List.getElem_map, List.getElem_range]
    rw [← e, List.getD_eq_getElem?_getD, List.getElem?_eq_getElem hl]
    rfl

/-- C104, statistics and repair together: a header repaired from the statistics of a reader shows the box around the points read,
and, when fewer than 256 points are counted under each return, the numbers of points by return. -/
theorem repaired_partial (b : Build) (what : Exc → List Byte) (r : Reader) (recs : List (List Byte)) (as : List Attrs)
    (k : Nat) (hr : ReadsAll what [] r recs) (hne : recs ≠ []) (hk : recs.length ≤ k) (hw : ∀ q ∈ recordsAsPoints r recs, q.WF)
    (hg : GoodScaling r.hdr.toP) (ho : (recordsAsPoints r recs).map (observe b) = as.map .ok) (h : Header)
    (h5 : 5 ≤ h.byReturn.length) :
    ∃ s h' lo hi, summarizePoints b what k [] r = .ok (some s) ∧ repairHeader b s h = .ok h' ∧ OnlyBoxAndCounts h h' ∧
      HasBox h' lo hi ∧ IsBox b (recordsAsPoints r recs) lo hi ∧
      ((∀ i < 5, as.countP (fun a => countedAs a (i + 1)) < 256) →
        h'.byReturn.take 5 = (List.range 5).map fun i => tally as (fun a => countedAs a (i + 1))) := by
  obtain ⟨s, lo, hi, _, _, e1, hc, a1, a2, hb, m1, m2, -⟩ := summarize_points_partial b what r recs as k hr hne hk hw hg ho
  obtain ⟨h', e2, hx, honly, c1, c2⟩ := repair_header_partial b s h lo hi h5 (by rw [m1]; exact hg) (by rw [m2]; exact hg) a1 a2
  refine ⟨s, h', lo, hi, e1, e2, honly, hx, hb, fun hsmall => ?_⟩
  have hget : ∀ i < 5, s.byReturn.getD i 0 = tally as (fun a => countedAs a (i + 1)) := by
    intro i hi
    rw [hc.2.1]
    rw [List.getD_eq_getElem?_getD, List.getElem?_map, List.getElem?_range (by omega)]
    rfl
  have hmap : ((List.range 5).map fun i => s.byReturn.getD i 0) = (List.range 5).map fun i => tally as (fun a => countedAs a (i + 1)) :=
    List.map_congr_left fun i hi => hget i (by simpa using hi)
  by_cases ha : AgreeMod256 h s
  · rw [c2 ha, ← hmap]
    refine take_agree h5 ha fun i hi => ?_
    rw [hget i hi]
    have := hsmall i hi
    simp only [tally, BitVec.toNat_ofNat]
    omega
  · rw [c1 ha, hmap]

/-- A file written with these points of 28 bytes, its reader, and what is known of its header. -/
private theorem sample_reader (what : Exc → List Byte) (st : Errors) (today : BitVec 16 × BitVec 16) (pts : List (List Byte))
    (h28 : ∀ p ∈ pts, p.length = 28) (hn : pts.length < 2 ^ 32) :
    ∃ w w' r, Writer.make plainEnv (OStream.onFile []) sampleHeader = .ok w ∧ w.writePoints pts = .ok w' ∧
      Reader.make plainEnv today (IStream.onFile w'.close.buf) = .ok r ∧ ReadsAll what st r pts ∧ GoodScaling r.hdr.toP ∧
      (∀ q ∈ recordsAsPoints r pts, q.WF) ∧ r.hdr.toP.fmt = .f1 ∧ r.hdr.byReturn.take 5 = [0, 0, 0, 0, 0] ∧
      5 ≤ r.hdr.byReturn.length := by
  obtain ⟨w, h1, h2, h3, h4, h5⟩ : ∃ w, Writer.make plainEnv (OStream.onFile []) sampleHeader = .ok w ∧
      (sampleHeader.headerSize.toNat + recordBytes w.hdr.vlrs + 4 < 2 ^ 31 ∧ w.hdr.vlrs.find? VLR.isSchema = none ∧
      sampleHeader.dataRecordLength = 28 ∧ sampleHeader.schema.fmt = .f1) := Outcome.exists_of_check (by decide +kernel)
  have hlen : ∀ p ∈ pts, sampleHeader.dataRecordLength ≤ p.length := by
    intro p hp; rw [h28 p hp, h4]
  obtain ⟨w', r, e1, e2, -, e4⟩ := written_is_read plainEnv today sampleHeader_storable h1 h2 (noSchema_none h3) (by rw [h4]; decide)
    pts hlen hn
  obtain ⟨-, -, -, -, -, -, -, -, -, k1, -, k2, -, k3, k4, k5, -⟩ := header_round_trip_partial plainEnv today sampleHeader_storable h1 h2
    (noSchema_none h3) (by rw [h4]; decide) pts hlen hn e1 e2
  have hmap : pts.map (fun p => p.take sampleHeader.dataRecordLength) = pts := by
    rw [h4]
    conv_rhs => rw [← List.map_id pts]
    exact List.map_congr_left fun p hp => List.take_of_length_le (by rw [h28 p hp])
  rw [hmap] at e4
  have hz : sampleHeader.byReturn.take 5 = [0, 0, 0, 0, 0] := by decide +kernel
  have hfmt : r.hdr.toP.fmt = .f1 := by show r.hdr.schema.fmt = _; rw [k1, h5]
  refine ⟨w, w', r, h1, e1, e2, reads_of_delivers what st pts r e4, ?_, ?_, hfmt, k3.trans hz, ?_⟩
  · have hs : Kernel.goodAxis (Fl.ofBits sampleHeader.scale.x) (Fl.ofBits sampleHeader.offset.x) = true ∧
        Kernel.goodAxis (Fl.ofBits sampleHeader.scale.y) (Fl.ofBits sampleHeader.offset.y) = true ∧
        Kernel.goodAxis (Fl.ofBits sampleHeader.scale.z) (Fl.ofBits sampleHeader.offset.z) = true := by decide +kernel
    rw [← k4, ← k5] at hs
    exact ⟨Kernel.goodAxis_spec hs.1, Kernel.goodAxis_spec hs.2.1, Kernel.goodAxis_spec hs.2.2⟩
  · intro q hq
    obtain ⟨p, hp, rfl⟩ := List.mem_map.1 hq
    refine ⟨by show r.hdr.toP.fmt.std = true; rw [hfmt]; rfl, ?_⟩
    show formatSize r.hdr.toP.fmt ≤ p.length
    rw [hfmt, h28 p hp]
    decide
  · have := congrArg List.length (k3.trans hz)
    simp at this
    omega

/-- 256 copies of a record of 28 bytes, return number 1. -/
def many : List (List Byte) := List.replicate 256 (List.replicate 28 9#8)

/-- C104 as stated is false of the counts: a file of 256 points, all first returns, whose header says none; the statistics are
right (256), and the repaired header still says none. -/
theorem counts_stay_wrong (what : Exc → List Byte) (today : BitVec 16 × BitVec 16) :
    ∃ w w' r s h', Writer.make plainEnv (OStream.onFile []) sampleHeader = .ok w ∧ w.writePoints many = .ok w' ∧
      Reader.make plainEnv today (IStream.onFile w'.close.buf) = .ok r ∧ ReadsAll what [] r many ∧
      summarizePoints ⟨.little, false⟩ what 256 [] r = .ok (some s) ∧ s.byReturn.getD 0 0 = 256 ∧
      repairHeader ⟨.little, false⟩ s r.hdr = .ok h' ∧ h'.byReturn.take 5 = [0, 0, 0, 0, 0] := by
  have hlen : many.length = 256 := List.length_replicate
  obtain ⟨w, w', r, h1, e1, e2, hrd, hgood, hwf, hfmt, hz, hl5⟩ := sample_reader what [] today many
    (fun p hp => by rw [List.eq_of_mem_replicate hp]; exact List.length_replicate) (by rw [hlen]; norm_num)
  have ho : (recordsAsPoints r many).map (observe ⟨.little, false⟩) =
      (List.replicate 256 (view ⟨.little, false⟩ .f1 (List.replicate 28 9#8))).map .ok := by
    have hw1 := hwf ⟨List.replicate 28 9#8, r.hdr.toP⟩ (List.mem_map_of_mem (f := fun p => (⟨p, r.hdr.toP⟩ : Point))
      (show List.replicate 28 9#8 ∈ many from List.mem_replicate.2 ⟨by omega, rfl⟩))
    have hob := observe_eq (b := ⟨.little, false⟩) hw1
    simp only [hfmt] at hob
    have e : recordsAsPoints r many = List.replicate 256 ⟨List.replicate 28 9#8, r.hdr.toP⟩ := by
      unfold recordsAsPoints many
      rw [List.map_replicate]
    rw [e, List.map_replicate, List.map_replicate, hob]
  obtain ⟨s, lo, hi, _, _, s1, hc, a1, a2, -, m1, m2, -⟩ := summarize_points_partial ⟨.little, false⟩ what r many _ 256 hrd
    (fun h => by rw [h] at hlen; cases hlen) hlen.le hwf hgood ho
  obtain ⟨h', r1, -, -, -, r2⟩ := repair_header_partial ⟨.little, false⟩ s r.hdr lo hi hl5 (by rw [m1]; exact hgood)
    (by rw [m2]; exact hgood) a1 a2
  have hv : (view ⟨.little, false⟩ .f1 (List.replicate 28 9#8)).returnNumber = 1 := by decide +kernel
  have hcount : ∀ i < 5, s.byReturn.getD i 0 = if i = 0 then 256 else 0 := by
    intro i hi
    rw [hc.2.1, List.getD_eq_getElem?_getD, List.getElem?_map, List.getElem?_range (by omega)]
    show tally _ _ = _
    unfold tally
    rw [List.countP_replicate]
    simp only [countedAs, hv]
    rcases i with _ | i
    · rfl
    · simp
  have hzero : ∀ i < 5, r.hdr.byReturn.getD i 0 = 0 := by
    intro i hi
    have : r.hdr.byReturn.getD i 0 = (r.hdr.byReturn.take 5).getD i 0 := by
      simp [List.getD_eq_getElem?_getD, List.getElem?_take, hi]
    rw [this, hz]
    rcases i with _ | _ | _ | _ | _ | i
    · rfl
    · rfl
    · rfl
    · rfl
    · rfl
    · omega
  have hag : AgreeMod256 r.hdr s := by
    intro i hi
    rw [hzero i hi, hcount i hi]
    split <;> rfl
  refine ⟨w, w', r, s, h', h1, e1, e2, hrd, s1, by rw [hcount 0 (by omega)]; rfl, r1, ?_⟩
  rw [r2 hag, hz]

/-- The hypotheses of the theorems above are met: a file of five points. -/
example (what : Exc → List Byte) : ∃ r, ReadsAll what [] r fivePoints ∧ GoodScaling r.hdr.toP ∧
    (∀ q ∈ recordsAsPoints r fivePoints, q.WF) ∧ 5 ≤ r.hdr.byReturn.length := by
  obtain ⟨_, _, r, -, -, -, h1, h2, h3, -, -, h4⟩ := sample_reader what [] (1, 2000) fivePoints (by decide) (by decide)
  exact ⟨r, h1, h2, h3, h4⟩

/-- The hypotheses of `stale_error_exits` are met after any failure reported before. -/
example (what : Exc → List Byte) (e : Err) (he : e.code = 3) : ∃ r p recs, lastErrorNum [e] ≠ 0 ∧ ReadsAll what [e] r (p :: recs) ∧
    (⟨p, r.hdr.toP⟩ : Point).WF ∧ GoodScaling r.hdr.toP := by
  obtain ⟨_, _, r, -, -, -, h1, h2, h3, -⟩ := sample_reader what [e] (1, 2000) fivePoints (by decide) (by decide)
  exact ⟨r, List.replicate 28 1#8, fivePoints.tail, by simp [lastErrorNum, he], h1,
    h3 _ (List.mem_map_of_mem (f := fun p => (⟨p, r.hdr.toP⟩ : Point)) (show List.replicate 28 1#8 ∈ fivePoints by decide)), h2⟩

/-- The hypothesis of `no_points_exit` is met: a file without points. -/
example (what : Exc → List Byte) : ∃ r, ReadsAll what [] r [] := by
  obtain ⟨_, _, r, -, -, -, h, -⟩ := sample_reader what [] (1, 2000) [] (by decide) (by decide)
  exact ⟨r, h⟩

/-- C104 as stated is false of files that end early: of a file of five points cut off inside the second one, two points are
counted, and the program does not notice. -/
theorem cut_off_not_noticed : ∃ r s, Reader.make plainEnv (1, 2000) (IStream.onFile ((sampleFile fivePoints).take 330)) = .ok r ∧
    r.hdr.pointCount = 5 ∧ summarizePoints ⟨.little, false⟩ (fun _ => []) 5 [] r = .ok (some s) ∧ s.count = 2 := by
  obtain ⟨r, h1, h2, h3⟩ : ∃ r, Reader.make plainEnv (1, 2000) (IStream.onFile ((sampleFile fivePoints).take 330)) = .ok r ∧
      (r.hdr.pointCount = 5 ∧ ((summarizePoints ⟨.little, false⟩ (fun _ => []) 5 [] r).check
        fun s : Option CSummary => decide (s.map CSummary.count = some 2)) = true) := Outcome.exists_of_check (by decide +kernel)
  obtain ⟨s, e, hs⟩ := Outcome.exists_of_check (P := fun s : Option CSummary => s.map CSummary.count = some 2) h3
  cases s with
  | none => cases hs
  | some s => exact ⟨r, s, h1, h2, e, by simpa using hs⟩

/-- With a scale of zero even the first point is lost: storing the coordinate just read divides by zero, and the conversion of
the result to an integer is undefined. -/
theorem zero_scale_undefined (b : Build) (p : Point) (hw : p.WF) (hs : p.hdr.scale.x = .fin 0) (ho : p.hdr.offset.x = .fin 0) :
    addPoint b p (start p) = .ub := by
  have hx := (parts (observe_eq (b := b) hw)).x
  have hget : p.getX b = .ok (.fin 0) := by
    simp only [getX, hx, Outcome.bind_ok, Outcome.pure_eq, hs, ho, scaled, Fl.ofInt32, Fl.mul, mul_zero]
    decide +kernel
  have hd : descaled (.fin 0) (.fin 0) (.fin 0) = .ub := by decide +kernel
  have hset : ∀ q : Point, q.hdr = p.hdr → setX b q (.fin 0) = .ub := by
    intro q hq
    simp only [setX, hq, hs, ho, hd]
    rfl
  simp only [addPoint, widenBox, widen, start, hget, Outcome.bind_ok, dmin_self, hset p rfl]
  rfl

end LibLAS.LasCommon
