import Verif.Props.Las2lasCases
import Verif.Props.MakeNew
import Verif.Props.Summary
import Verif.Lemmas.MinOffset
/-
C69: las2las with `--min-offset`.
-/
namespace LibLAS
open Spec Point

/-- Readers that report the same for every number of reads deliver the same points. -/
theorem delivers_of_reports : ∀ {ps : List (List Byte)} {r r' : Reader},
    (∀ n, reports r (List.replicate n .next) = reports r' (List.replicate n .next)) → delivers r ps → delivers r' ps
  | [], r, r', h, hd => by
    have := h 1
    simp only [List.replicate_succ, List.replicate_zero, reports, report, List.cons.injEq, Prod.mk.injEq] at this
    show r'.readNext.2 = _
    rw [← this.1.1]; exact hd
  | p :: ps, r, r', h, ⟨h1, h2, h3⟩ => by
    have := h 1
    simp only [List.replicate_succ, List.replicate_zero, reports, report, List.cons.injEq, Prod.mk.injEq] at this
    have e1 : r'.readNext.2 = .ok true := by rw [← this.1.1]; exact h1
    have e2 := this.1.2
    rw [if_pos h1, if_pos e1] at e2
    refine ⟨e1, ?_, delivers_of_reports (fun n => ?_) h3⟩
    · injection e2 with e2; rw [← e2]; exact h2
    · have := h (n + 1)
      simp only [List.replicate_succ, reports, List.cons.injEq] at this
      exact this.2

namespace Las2las

/-- `SummarizeReader` after the first point: all the others are added in order. -/
theorem summarizeLoop_ok {b : Build} {src : PHeader} (ps : List (List Byte)) : ∀ (k : Nat) (r : Reader) (s s' : Summary),
    r.hdr.toP = src → delivers r ps → ps.length < k →
    Summary.addAll b (⟨r.point, src⟩ :: ps.map fun p => ⟨p, src⟩) s = .ok s' →
    Kernel.summarizeLoop b k r s = .ok (readRun r (List.replicate (ps.length + 1) .next), s') := by
  induction ps with
  | nil =>
    intro k r s s' hh hd hk ha
    obtain ⟨k, rfl⟩ : ∃ j, k = j + 1 := ⟨k - 1, by simp at hk; omega⟩
    simp only [List.map_nil, Summary.addAll] at ha
    obtain ⟨s1, e1, e2⟩ := bind_eq_ok ha
    injection e2 with e2
    subst e2
    have hd : r.readNext = (r.readNext.1, .ok false) := by
      have : r.readNext.2 = .ok false := hd
      rw [← this]
    rw [Kernel.summarizeLoop, hh, e1, Outcome.bind_ok, hd]
    rfl
  | cons p ps ih =>
    intro k r s s' hh hd hk ha
    obtain ⟨h1, h2, h3⟩ := hd
    obtain ⟨k, rfl⟩ : ∃ j, k = j + 1 := ⟨k - 1, by simp at hk; omega⟩
    rw [Summary.addAll] at ha
    obtain ⟨s1, e1, e2⟩ := bind_eq_ok ha
    have hf := (Reader.readNext_forward r).1
    have hd : r.readNext = (r.readNext.1, .ok true) := by rw [← h1]
    rw [Kernel.summarizeLoop, hh, e1, Outcome.bind_ok, hd]
    have := ih k r.readNext.1 s1 s' (by rw [hf.hdr]; exact hh) h3 (by simpa using hk) (by rw [h2]; exact e2)
    simp only
    rw [this]; rfl

/-- `SummarizeReader` on a reader that delivers points once it is reset. -/
theorem summarizeReader_ok {env : Env} {b : Build} {src : PHeader} {p : List Byte} {ps : List (List Byte)} {r r₁ : Reader}
    {s : Summary} (hr : r.reset env b = .ok r₁) (hh : r₁.hdr.toP = src) (hd : delivers r₁ (p :: ps))
    (ha : Summary.addAll b ((p :: ps).map fun p => ⟨p, src⟩) Summary.new = .ok s) :
    Kernel.summarizeReader env b r = .ok (readRun r₁ (List.replicate ((p :: ps).length + 1) .next), s) := by
  have hlen := delivers_length hd
  obtain ⟨h1, h2, h3⟩ := hd
  unfold Kernel.summarizeReader
  rw [hr]
  show (match r₁.readNext with | (r', .ok true) => _ | (_, .ok false) => _ | (_, .throw e) => _ | (_, .ub) => _) = _
  have : r₁.readNext = (r₁.readNext.1, .ok true) := by rw [← h1]
  rw [this]
  have hf := (Reader.readNext_forward r₁).1
  show Kernel.summarizeLoop b (r₁.size + 1) r₁.readNext.1 Summary.new = _
  rw [summarizeLoop_ok (src := src) ps (r₁.size + 1) r₁.readNext.1 Summary.new s (by rw [hf.hdr]; exact hh) h3
    (by simp at hlen; omega) (by rw [h2]; exact ha)]
  rfl

theorem callRun_nexts (env : Env) (b : Build) : ∀ (n : Nat) (r : Reader),
    callRun env b r (List.replicate n (.op .next) ++ [.reset]) = (readRun r (List.replicate n .next)).reset env b
  | 0, r => by
    show (match r.reset env b with | .ok r => Outcome.ok r | .throw e => .throw e | .ub => .ub) = r.reset env b
    cases r.reset env b <;> rfl
  | n + 1, r => callRun_nexts env b n _

/-- Reading and resetting leave filters and transforms. -/
theorem callRun_settings {env : Env} {b : Build} : ∀ (cs : List Call) (r r' : Reader),
    (∀ c ∈ cs, c = .op .next ∨ c = .reset) → callRun env b r cs = .ok r' → r'.filter = r.filter ∧ r'.xform = r.xform
  | [], r, r', _, h => by injection h with h; subst h; exact ⟨rfl, rfl⟩
  | c :: cs, r, r', hc, h => by
    rcases hc c (by simp) with rfl | rfl
    · have := callRun_settings cs _ r' (fun c h => hc c (by simp [h])) h
      have hf := (Reader.readNext_forward r).1
      exact ⟨this.1.trans hf.filter, this.2.trans hf.xform⟩
    · rw [callRun] at h
      cases hr : r.reset env b with
      | ok r1 =>
        rw [hr] at h
        have := callRun_settings cs _ r' (fun c h => hc c (by simp [h])) h
        have hf := reset_settings hr
        exact ⟨this.1.trans hf.1, this.2.trans hf.2⟩
      | throw e => rw [hr] at h; cases h
      | ub => rw [hr] at h; cases h

section
variable {env : Env} {today : BitVec 16 × BitVec 16} {o : Opts} {input : List Byte} {r₀ : Reader}
  {ps : List (List Byte)} {h : Header} {w : Writer}

/-- The file holds all the point records its header announces. -/
def Complete (input : List Byte) (r₀ : Reader) : Prop :=
  r₀.hdr.dataOffset.toNat + r₀.hdr.pointCount.toNat * r₀.hdr.dataRecordLength ≤ input.length

theorem Input.positive (hi : Input env today o input r₀ ps) : 0 < r₀.hdr.dataRecordLength := by
  have h1 := hi.record
  have : 0 < formatSize r₀.hdr.schema.fmt := by cases r₀.hdr.schema.fmt <;> simp [formatSize]
  omega

/-- After any reads and resets, a reset reader delivers the points again. -/
theorem again (b : Build) (hi : Input env today o input r₀ ps) (hin : Complete input r₀) (cs : List Call)
    (hcs : ∀ c ∈ cs, c = .op .next ∨ c = .reset) :
    ∃ r, callRun env b ((r₀.setFilters o.filters).setTransforms o.transforms) (cs ++ [.reset]) = .ok r ∧ delivers r ps ∧
      r.hdr.toP = r₀.hdr.toP := by
  have hben : ∀ c ∈ [.op (.filters o.filters), .op (.transforms o.transforms)] ++ cs, c.Benign := by
    intro c hc
    rcases List.mem_append.1 hc with hc | hc
    · simp only [List.mem_cons, List.not_mem_nil, or_false] at hc
      rcases hc with rfl | rfl
      · trivial
      · exact hi.lengths
    · rcases hcs c hc with rfl | rfl <;> trivial
  have hben' : ∀ c ∈ [.op (.filters o.filters), .op (.transforms o.transforms)] ++ cs ++ [.reset], c.Benign := by
    intro c hc
    rcases List.mem_append.1 hc with hc | hc
    · exact hben c hc
    · rw [List.mem_singleton.1 hc]; trivial
  obtain ⟨r, e1, e2⟩ := reset_points_partial b hi.long hi.opens hi.schema hi.positive (ordinary_finite hi.ordinary) hin _ hben
  obtain ⟨r', e3, -, -, -, e4⟩ := reset_header_partial b hi.long hi.opens hi.schema hi.positive (ordinary_finite hi.ordinary) _ hben'
  rw [e1] at e3; injection e3 with e3; subst e3
  have e5 : callRun env b ((r₀.setFilters o.filters).setTransforms o.transforms) (cs ++ [.reset]) = .ok r := by
    rw [List.append_assoc] at e1; exact e1
  refine ⟨r, e5, delivers_of_reports (fun n => ?_) hi.points, e4⟩
  obtain ⟨s1, s2⟩ := callRun_settings _ _ _ (fun c hc => by
    rcases List.mem_append.1 hc with hc | hc
    · exact hcs c hc
    · exact Or.inr (List.mem_singleton.1 hc)) e5
  rw [e2 _ (fun o ho => by rw [List.eq_of_mem_replicate ho]; trivial), s1, s2]
  rfl

/-- The header for the output is one a file can be made from, whatever its offset. -/
structure OutputHeader (env : Env) (h : Header) : Prop where
  writable : Writable env h
  small : h.headerSize.toNat + recordBytes (outputRecords env h) + 4 < 2 ^ 31
  dataOffset : h.dataOffset.toNat < 2 ^ 31
  padding : h.padding.toNat < 2 ^ 31
  filler : fillerBytes h (h.headerSize.toNat + recordBytes (outputRecords env h)) ≤ 2
  schema : NoSchema env (outputRecords env h)
  coherent : h.toP.Coherent
  sane : h.schema.byteSize < 2 ^ 16

theorem OutputHeader.target (ho : OutputHeader env h) (v : Vec3 (BitVec 64)) : ∃ w, Target env { h with offset := v } w := by
  have hw : Writable env { h with offset := v } := by
    obtain ⟨s, a, b, c⟩ := ho.writable
    exact ⟨⟨s.1, s.2, s.3, s.4, s.5, s.6, s.7, s.8, s.9⟩, a, b, c⟩
  obtain ⟨w, e1, e2⟩ := (new_writer_exactly env hw ho.small ho.dataOffset (fun _ => ho.padding)).1 ho.filler
  have e2 : w.hdr.vlrs = outputRecords env h := e2
  refine ⟨w, hw.storable, e1, by rw [e2]; exact ho.small, by rw [e2]; exact ho.schema, ?_, ho.sane⟩
  show 0 < h.dataRecordLength
  have h1 : formatSize h.schema.fmt ≤ h.dataRecordLength := ho.coherent.2.1
  have : 0 < formatSize h.schema.fmt := by cases h.schema.fmt <;> simp [formatSize]
  omega

/-- The record `q` in a file with header `dst` stands for the point that the record `p` stood for in a file with header
`src`: the same coordinates up to half a unit, time and colour as far as the format has them, everything else exactly. -/
def Moved (b : Build) (src dst : PHeader) (p q : List Byte) : Prop :=
  ∃ a a', observe b ⟨p, src⟩ = .ok a ∧ observe b ⟨q, dst⟩ = .ok a' ∧ q.length = dst.recLen ∧
    a' = { a with
      rawX := a'.rawX
      rawY := a'.rawY
      rawZ := a'.rawZ
      time := if hasTime dst.fmt then a.time else 0
      color := if hasColor dst.fmt then a.color else ⟨0, 0, 0⟩ } ∧
    SamePlace a.rawX a'.rawX src.scale.x src.offset.x dst.scale.x dst.offset.x ∧
    SamePlace a.rawY a'.rawY src.scale.y src.offset.y dst.scale.y dst.offset.y ∧
    SamePlace a.rawZ a'.rawZ src.scale.z src.offset.z dst.scale.z dst.offset.z

/-- `v` is, to 15 digits, the lowest coordinate on each axis. -/
def Lowest (src : PHeader) (as : List Attrs) (v : Vec3 (BitVec 64)) : Prop :=
  (∃ m, isLowest (as.map fun a => coordinate src.scale.x src.offset.x a.rawX) m ∧ Agree15 (Fl.ofBits v.x) m) ∧
  (∃ m, isLowest (as.map fun a => coordinate src.scale.y src.offset.y a.rawY) m ∧ Agree15 (Fl.ofBits v.y) m) ∧
  (∃ m, isLowest (as.map fun a => coordinate src.scale.z src.offset.z a.rawZ) m ∧ Agree15 (Fl.ofBits v.z) m)

/-- The points, once the lowest is the offset, fit the scale of the output header. -/
def Fitting (src : PHeader) (as : List Attrs) (h : Header) : Prop :=
  Spannable (as.map fun a => coordinate src.scale.x src.offset.x a.rawX) (Fl.ofBits h.scale.x) ∧
  Spannable (as.map fun a => coordinate src.scale.y src.offset.y a.rawY) (Fl.ofBits h.scale.y) ∧
  Spannable (as.map fun a => coordinate src.scale.z src.offset.z a.rawZ) (Fl.ofBits h.scale.z)

private theorem sum_ne_zero {p : List Byte} (h : ∃ x ∈ p, x ≠ 0#8) : byteSum p ≠ 0 := by
  obtain ⟨x, hx, h0⟩ := h
  intro hz
  exact h0 (BitVec.eq_of_toNat_eq (bytes_zero_of_sum p hz x hx))

private theorem place {s o s' o' x : Fl} {raw v : BitVec 32} (hx : x = coordinate s o raw) (hn : Nearest v x s' o')
    (hs : ∃ u : ℚ, s' = .fin u ∧ 0 < u) : SamePlace raw v s o s' o' := by
  obtain ⟨u, rfl, hu⟩ := hs
  subst hx
  exact Or.inl (shows_of_nearest hn rfl hu)

private theorem getters_eq {b : Build} {p : Point} {a : Attrs} (hp : p.WF) (ha : observe b p = .ok a) :
    getX b p = .ok (coordinate p.hdr.scale.x p.hdr.offset.x a.rawX) ∧
      getY b p = .ok (coordinate p.hdr.scale.y p.hdr.offset.y a.rawY) ∧
      getZ b p = .ok (coordinate p.hdr.scale.z p.hdr.offset.z a.rawZ) := by
  have P := Summary.parts ha
  simp only [getX, getY, getZ, P.x, P.y, P.z, Outcome.bind_ok]
  exact ⟨rfl, rfl, rfl⟩

/-- One point re-homed to the new header. -/
theorem moved {b : Build} {src dst : PHeader} {p : List Byte} {a : Attrs} (hp : (⟨p, src⟩ : Point).WF) (hh : dst.Coherent)
    (hz : ∃ x ∈ p, x ≠ 0#8) (hl : dst.recLen ≠ p.length ∨ dst.fmt = src.fmt) (ha : observe b ⟨p, src⟩ = .ok a)
    (hs : OrdinaryScaling src)
    (px : ∃ u : ℚ, dst.scale.x = .fin u ∧ 0 < u) (py : ∃ u : ℚ, dst.scale.y = .fin u ∧ 0 < u)
    (pz : ∃ u : ℚ, dst.scale.z = .fin u ∧ 0 < u)
    (gx : GoodAxis dst.scale.x dst.offset.x ∧ InRange (coordinate src.scale.x src.offset.x a.rawX) dst.scale.x dst.offset.x)
    (gy : GoodAxis dst.scale.y dst.offset.y ∧ InRange (coordinate src.scale.y src.offset.y a.rawY) dst.scale.y dst.offset.y)
    (gz : GoodAxis dst.scale.z dst.offset.z ∧ InRange (coordinate src.scale.z src.offset.z a.rawZ) dst.scale.z dst.offset.z) :
    ∃ q, setHeader b ⟨p, src⟩ dst = .ok q ∧ Moved b src dst p q.data := by
  obtain ⟨hx, hy, hz'⟩ := getters_eq hp ha
  obtain ⟨q, a1, vx, vy, vz, e1, e2, e3, e4, e5, e6⟩ := set_header_partial b ⟨p, src⟩ dst hp hh (sum_ne_zero hz) hl
    ⟨gx.1, gy.1, gz.1⟩ _ _ _ hx hy hz' gx.2 gy.2 gz.2
  rw [ha] at e1; injection e1 with e1; subst e1
  refine ⟨q, e2, a, _, ha, by rw [← e3]; exact e5, e4, rfl, ?_⟩
  rcases e6 with ⟨nx, ny, nz⟩ | ⟨hsc, rfl, rfl, rfl⟩
  · exact ⟨place rfl nx px, place rfl ny py, place rfl nz pz⟩
  · obtain ⟨⟨_, _, sx, ox, -⟩, ⟨_, _, sy, oy, -⟩, ⟨_, _, sz, oz, -⟩⟩ := hs
    obtain ⟨⟨_, _, tx, qx, -⟩, -⟩ := gx
    obtain ⟨⟨_, _, ty, qy, -⟩, -⟩ := gy
    obtain ⟨⟨_, _, tz, qz, -⟩, -⟩ := gz
    simp only [sameScaling, Bool.and_eq_true] at hsc
    obtain ⟨⟨⟨⟨⟨c1, c2⟩, c3⟩, c4⟩, c5⟩, c6⟩ := hsc
    exact ⟨Or.inr ⟨rfl, close_of_compare c1 ⟨_, tx⟩ ⟨_, sx⟩, close_of_compare c4 ⟨_, qx⟩ ⟨_, ox⟩⟩,
      Or.inr ⟨rfl, close_of_compare c2 ⟨_, ty⟩ ⟨_, sy⟩, close_of_compare c5 ⟨_, qy⟩ ⟨_, oy⟩⟩,
      Or.inr ⟨rfl, close_of_compare c3 ⟨_, tz⟩ ⟨_, sz⟩, close_of_compare c6 ⟨_, qz⟩ ⟨_, oz⟩⟩⟩

/-- What `--min-offset` asks of a run: a complete input; an output header a file can be made from whatever its offset;
at least one point, none all zero bytes (`zero_record_lost`), no change of format at the same record length; coordinates that
fit the scale of the output once the lowest is the offset. `as` are the attributes of the points. -/
structure MinOffset (env : Env) (today : BitVec 16 × BitVec 16) (b : Build) (o : Opts) (input : List Byte) (r₀ : Reader)
    (ps : List (List Byte)) (h : Header) (as : List Attrs) : Prop extends Input env today o input r₀ ps where
  asked : o.minOffset = true
  complete : Complete input r₀
  output : OutputHeader env h
  some : ps ≠ []
  nonzero : ∀ p ∈ ps, ∃ x ∈ p, x ≠ 0#8
  formats : h.dataRecordLength ≠ r₀.hdr.dataRecordLength ∨ h.schema.fmt = r₀.hdr.schema.fmt
  attrs : ps.map (fun p => observe b ⟨p, r₀.hdr.toP⟩) = as.map .ok
  fitting : Fitting r₀.hdr.toP as h

/-- The statistics: the offset is the lowest coordinate, through text. -/
private theorem lowest_found {b : Build} (hi : Input env today o input r₀ ps) {as : List Attrs} (hne : ps ≠ [])
    (ha : ps.map (fun p => observe b ⟨p, r₀.hdr.toP⟩) = as.map .ok) :
    ∃ s e v, Summary.addAll b (ps.map fun p => ⟨p, r₀.hdr.toP⟩) Summary.new = .ok s ∧ s.ext = .some e ∧
      Kernel.textCoords b e.minimum = .ok v ∧ Lowest r₀.hdr.toP as (Kernel.bits v) := by
  obtain ⟨f, hB, hJ⟩ := open_reread hi.long hi.opens hi.schema hi.positive
  cases ps with
  | nil => exact absurd rfl hne
  | cons p ps =>
    obtain ⟨s, e, lo, hi', e1, -, e2, e3, -, e4, -, e5, -⟩ := Summary.summary_exact_partial b r₀.hdr.toP.fmt none
      ⟨p, r₀.hdr.toP⟩ (ps.map fun p => ⟨p, r₀.hdr.toP⟩) as (by
        intro q hq
        rw [← List.map_cons (f := fun p => (⟨p, r₀.hdr.toP⟩ : Point))] at hq
        obtain ⟨p', hp', rfl⟩ := List.mem_map.1 hq
        exact ⟨(hi.lengths_eq p' hp').2, rfl⟩) (by rw [← ha]; simp) (by
        refine ⟨hJ.named.1.trans ?_, hJ.named.2.trans ?_⟩ <;> rw [← hJ.fmt] <;> rfl) (fun _ h => by cases h)
    obtain ⟨v, t1, ⟨t2, t3⟩, ⟨t4, t5⟩, ⟨t6, t7⟩⟩ := textCoords_ok e3 e4 hi.ordinary
    refine ⟨s, e, v, e1, e2, t1, ⟨_, lowest_of hi.ordinary.1 (key := Attrs.rawX) ?_, by rw [t2]; exact t3⟩,
      ⟨_, lowest_of hi.ordinary.2.1 (key := Attrs.rawY) ?_, by rw [t4]; exact t5⟩,
      ⟨_, lowest_of hi.ordinary.2.2 (key := Attrs.rawZ) ?_, by rw [t6]; exact t7⟩⟩
    · exact (e5 (fun a => a.rawX.toInt) (by simp [numericAttrs])).1
    · exact (e5 (fun a => a.rawY.toInt) (by simp [numericAttrs])).1
    · exact (e5 (fun a => a.rawZ.toInt) (by simp [numericAttrs])).1

private theorem positive_scale {xs : List Fl} {s : Fl} (h : Spannable xs s) : ∃ u : ℚ, s = .fin u ∧ 0 < u := by
  obtain ⟨u, e, h1, -⟩ := h
  exact ⟨u, e, lt_of_lt_of_le (by positivity) h1⟩

/-- Everything up to the loop. -/
private theorem prepared' {b : Build} {as : List Attrs} (hm : MinOffset env today b o input r₀ ps h as) :
    ∃ v w g r₁, Lowest r₀.hdr.toP as v ∧ (∀ p ∈ ps, Moved b r₀.hdr.toP { h with offset := v }.toP p (g p)) ∧
      Target env { h with offset := v } w ∧ Prepared env b o { h with offset := v } g w r₀.hdr.toP r₁ ps ∧
      ∀ (edit : Header → Outcome Header) (h' : Header), edit r₀.hdr = .ok h' → h = { h' with compressed := false } →
        ¬ (0 < o.splitPts.toNat ∧ 0 < o.splitMb.toNat) →
        main env today b o edit input = rest env today b o { h with offset := v } w r₁ := by
  have hi := hm.toInput
  obtain ⟨s, e, v, a1, a2, a3, a4⟩ := lowest_found hi hm.some hm.attrs
  obtain ⟨w, hw⟩ := hm.output.target (Kernel.bits v)
  obtain ⟨r1, b1, b2, b3⟩ := again b hi hm.complete [] (by simp)
  have b1 : ((r₀.setFilters o.filters).setTransforms o.transforms).reset env b = .ok r1 := callRun_nexts env b 0 _ ▸ b1
  obtain ⟨r2, c1, c2, c3⟩ := again b hi hm.complete (.reset :: List.replicate (ps.length + 1) (.op .next)) (by
    intro c hc
    rcases List.mem_cons.1 hc with rfl | hc
    · exact Or.inr rfl
    · exact Or.inl (List.eq_of_mem_replicate hc))
  obtain ⟨r3, d1, d2, d3⟩ := again b hi hm.complete (.reset :: List.replicate (ps.length + 1) (.op .next) ++
      .reset :: List.replicate (ps.length + 1) (.op .next)) (by
    intro c hc
    rcases List.mem_append.1 hc with hc | hc <;> rcases List.mem_cons.1 hc with rfl | hc
    · exact Or.inr rfl
    · exact Or.inl (List.eq_of_mem_replicate hc)
    · exact Or.inr rfl
    · exact Or.inl (List.eq_of_mem_replicate hc))
  have c0 := c1
  have c1 : (readRun r1 (List.replicate (ps.length + 1) .next)).reset env b = .ok r2 := by
    rw [← callRun_nexts, ← c1]
    show _ = callRun env b _ (.reset :: (List.replicate (ps.length + 1) (.op .next) ++ [.reset]))
    rw [callRun, b1]
  have d1 : (readRun r2 (List.replicate (ps.length + 1) .next)).reset env b = .ok r3 := by
    rw [← callRun_nexts, ← d1]
    have : ∀ (l m : List Call), (.reset :: l ++ .reset :: m) ++ [.reset] = (.reset :: l ++ [.reset]) ++ (m ++ [Call.reset]) := by
      intro l m; simp
    rw [this, callRun_append env b (Call.reset :: List.replicate (ps.length + 1) (Call.op .next) ++ [Call.reset]), c0]
    rfl
  have hlen := hi.lengths_eq
  -- each point
  have hp : ∀ p ∈ ps, ∃ q, setHeader b ⟨p, r₀.hdr.toP⟩ { h with offset := Kernel.bits v }.toP = .ok q ∧
      Moved b r₀.hdr.toP { h with offset := Kernel.bits v }.toP p q.data := by
    intro p hp
    obtain ⟨i, hip, rfl⟩ := List.getElem_of_mem hp
    have hl : ps.length = as.length := by simpa using congrArg List.length hm.attrs
    have ha : observe b ⟨ps[i], r₀.hdr.toP⟩ = .ok as[i] := by
      have := congrArg (fun l => l[i]?) hm.attrs
      simpa [hip, hl ▸ hip] using this
    have hmem : as[i] ∈ as := List.getElem_mem _
    obtain ⟨⟨mx, lx1, lx2⟩, ⟨my, ly1, ly2⟩, ⟨mz, lz1, lz2⟩⟩ := a4
    obtain ⟨fx, fy, fz⟩ := hm.fitting
    exact moved (hlen _ hp).2 hm.output.coherent (hm.nonzero _ hp) (by rw [(hlen _ hp).1]; exact hm.formats) ha hi.ordinary
      (positive_scale fx) (positive_scale fy) (positive_scale fz)
      (span_axis fx lx1 lx2 (List.mem_map.2 ⟨_, hmem, rfl⟩)) (span_axis fy ly1 ly2 (List.mem_map.2 ⟨_, hmem, rfl⟩))
      (span_axis fz lz1 lz2 (List.mem_map.2 ⟨_, hmem, rfl⟩))
  let g : List Byte → List Byte := fun p => match setHeader b ⟨p, r₀.hdr.toP⟩ { h with offset := Kernel.bits v }.toP with
    | .ok q => q.data
    | _ => []
  have hg : ∀ p ∈ ps, recordFor b o r₀.hdr.toP { h with offset := Kernel.bits v } p = .ok (g p) ∧
      Moved b r₀.hdr.toP { h with offset := Kernel.bits v }.toP p (g p) := by
    intro p hq
    obtain ⟨q, q1, q2⟩ := hp p hq
    have : g p = q.data := by show (match setHeader b _ _ with | .ok q => q.data | _ => []) = _; rw [q1]
    rw [this]
    refine ⟨?_, q2⟩
    unfold recordFor
    rw [if_pos hm.asked, q1]; rfl
  have hle := delivers_length c2
  refine ⟨Kernel.bits v, w, g, r2, a4, fun p hq => (hg p hq).2, hw,
    ⟨c2, c3, hi.ordinary, by omega, hi.short.2.1, fun p hq => ⟨(hlen p hq).2, ?_⟩, fun p hq => (hg p hq).1, r3, d1⟩, ?_⟩
  · obtain ⟨_, _, _, _, l, -⟩ := (hg p hq).2
    rw [hw.writing.2.1, l]; exact le_refl _
  · intro edit h' he hh hone
    have hsum : Kernel.summarizeReader env b ((r₀.setFilters o.filters).setTransforms o.transforms) =
        .ok (readRun r1 (List.replicate (ps.length + 1) .next), s) := by
      cases ps with
      | nil => exact absurd rfl hm.some
      | cons p ps => exact summarizeReader_ok b1 b3 b2 a1
    have hch : chooseOffset env b o ((r₀.setFilters o.filters).setTransforms o.transforms) h =
        .ok (r2, { h with offset := Kernel.bits v }) := by
      unfold chooseOffset
      rw [if_pos hm.asked, hsum, Outcome.bind_ok]
      simp only [a2, a3, c1, Outcome.bind_ok, Outcome.pure_eq]
    unfold main process
    rw [if_neg hone]
    simp only [Kernel.fetchHeader, hi.opens, Outcome.bind_ok, Outcome.pure_eq, he]
    rw [← hh, hch]
    simp only [Outcome.bind_ok, hw.make]
    rfl

/-- C69: `--min-offset` without split options. The output is one file; its offset is, to 15 digits, the lowest coordinate of
the points on each axis; it holds the points in order, each record standing for the point it was made from (`Moved`): no
coordinate is off by more than half a unit of the output's scale. The header describes the points as in C62. -/
theorem min_offset_partial {b : Build} {edit : Header → Outcome Header} {h' : Header} {as : List Attrs}
    (hm : MinOffset env today b o input r₀ ps h as) (he : edit r₀.hdr = .ok h') (hh : h = { h' with compressed := false })
    (hmb : o.splitMb = 0) (hpts : o.splitPts = 0) :
    ∃ v f r qs, main env today b o edit input = .ok [f] ∧ Lowest r₀.hdr.toP as v ∧
      FileWith env today { h with offset := v } (outputRecords env h) f qs r ∧ Describes r₀.hdr.toP as r.hdr ∧
      List.Forall₂ (Moved b r₀.hdr.toP { h with offset := v }.toP) ps qs := by
  obtain ⟨v, w, g, r₁, h1, h2, h3, h4, h5⟩ := prepared' hm
  obtain ⟨f, r, e1, e2, e3, -⟩ := rest_one (today := today) h4 h3 hmb hpts
  refine ⟨v, f, r, ps.map g, by rw [h5 edit h' he hh (by rw [hpts]; simp), e1], h1, e2, e3 hm.some as hm.attrs, ?_⟩
  rw [List.forall₂_map_right_iff]
  exact List.forall₂_same.2 h2

/-- C69 with `--split-pts`: the same offset in all files, the pieces are those of C63, with the points moved. -/
theorem min_offset_points_partial {b : Build} {edit : Header → Outcome Header} {h' : Header} {as : List Attrs}
    (hm : MinOffset env today b o input r₀ ps h as) (he : edit r₀.hdr = .ok h') (hh : h = { h' with compressed := false })
    (hmb : o.splitMb = 0) (hpts : o.splitPts ≠ 0) :
    ∃ v g files, main env today b o edit input = .ok files ∧ Lowest r₀.hdr.toP as v ∧
      PiecesAs g env today b r₀.hdr.toP { h with offset := v } files (splitEvery o.splitPts.toNat ps) ∧
      ∀ p ∈ ps, Moved b r₀.hdr.toP { h with offset := v }.toP p (g p) := by
  obtain ⟨v, w, g, r₁, h1, h2, h3, h4, h5⟩ := prepared' hm
  obtain ⟨files, e1, e2⟩ := rest_points (today := today) h4 h3 hmb hpts
  exact ⟨v, g, files, by rw [h5 edit h' he hh (by rw [hmb]; simp), e1], h1, e2, h2⟩

/-- C69 with `--split-mb`. -/
theorem min_offset_bytes_partial {b : Build} {edit : Header → Outcome Header} {h' : Header} {as : List Attrs}
    (hm : MinOffset env today b o input r₀ ps h as) (he : edit r₀.hdr = .ok h') (hh : h = { h' with compressed := false })
    (hmb : o.splitMb ≠ 0) (hpts : o.splitPts = 0) :
    ∃ v g files, main env today b o edit input = .ok files ∧ Lowest r₀.hdr.toP as v ∧
      PiecesAs g env today b r₀.hdr.toP { h with offset := v } files
        (splitEvery (pointsPerFile h.dataRecordLength o.splitMb.toNat) ps) ∧
      ∀ p ∈ ps, Moved b r₀.hdr.toP { h with offset := v }.toP p (g p) := by
  obtain ⟨v, w, g, r₁, h1, h2, h3, h4, h5⟩ := prepared' hm
  obtain ⟨files, e1, e2⟩ := rest_bytes (today := today) h4 h3 hmb hpts
  exact ⟨v, g, files, by rw [h5 edit h' he hh (by rw [hpts]; simp), e1], h1, e2, h2⟩

/-- C69: when no point passes the filters, `--min-offset` fails instead of writing an empty file. -/
theorem min_offset_empty {b : Build} {edit : Header → Outcome Header} {h' : Header} (hi : Input env today o input r₀ [])
    (hin : Complete input r₀) (hmin : o.minOffset = true) (he : edit r₀.hdr = .ok h') (hone : ¬ (0 < o.splitPts.toNat ∧ 0 < o.splitMb.toNat)) :
    main env today b o edit input = .throw .runtimeError := by
  obtain ⟨r1, b1, b2, b3⟩ := again b hi hin [] (by simp)
  have b1 : ((r₀.setFilters o.filters).setTransforms o.transforms).reset env b = .ok r1 := callRun_nexts env b 0 _ ▸ b1
  have hd : r1.readNext = (r1.readNext.1, .ok false) := by
    have : r1.readNext.2 = .ok false := b2
    rw [← this]
  have hsum : Kernel.summarizeReader env b ((r₀.setFilters o.filters).setTransforms o.transforms) = .throw .runtimeError := by
    unfold Kernel.summarizeReader
    rw [b1, Outcome.bind_ok, hd]
  unfold main process
  rw [if_neg hone]
  simp only [Kernel.fetchHeader, hi.opens, Outcome.bind_ok, Outcome.pure_eq, he]
  unfold chooseOffset
  rw [if_pos hmin, hsum]
  rfl

end
/-! ## A case, and what does not hold -/

/-- Deciding `Spannable`, for examples. -/
def spannable (xs : List Fl) : Fl → Bool
  | .fin u => decide (1 / 2 ^ 1000 ≤ u ∧ u ≤ 2 ^ 900) && xs.all fun x => match x with
    | .fin q => decide (|q| ≤ 2 ^ 49 * u) && xs.all fun y => match y with
      | .fin r => decide (|q - r| ≤ (2 ^ 31 - 4) * u)
      | _ => false
    | _ => false
  | _ => false

theorem spannable_spec {xs : List Fl} {s : Fl} (h : spannable xs s = true) : Spannable xs s := by
  unfold spannable at h
  split at h
  · rename_i u
    simp only [Bool.and_eq_true, decide_eq_true_eq, List.all_eq_true] at h
    refine ⟨u, rfl, h.1.1, h.1.2, fun x hx => ?_⟩
    have h1 := h.2 x hx
    split at h1
    · rename_i q
      simp only [Bool.and_eq_true, decide_eq_true_eq, List.all_eq_true] at h1
      refine ⟨q, rfl, h1.1, fun y hy => ?_⟩
      have h2 := h1.2 y hy
      split at h2
      · rename_i r; exact ⟨r, rfl, by simpa using h2⟩
      · cases h2
    · cases h1
  · cases h

/-- The hypotheses of the theorems are met: five points in a file with scale 0.01 and a variable record. -/
example : ∃ r as, MinOffset plainEnv (1, 2000) ⟨.little, false⟩ ⟨[], [], 0, 0, true⟩ (centimetres casePoints) r casePoints
    { r.hdr with compressed := false } as := by
  obtain ⟨r, e, h⟩ : ∃ r, Reader.make plainEnv (1, 2000) (IStream.onFile (centimetres casePoints)) = .ok r ∧
      ((delivers ((r.setFilters []).setTransforms []) casePoints ∧
        r.hdr.dataOffset.toNat + r.hdr.pointCount.toNat * r.hdr.dataRecordLength ≤ (centimetres casePoints).length ∧ 227 ≤ (centimetres casePoints).length ∧
        r.hdr.vlrs.find? VLR.isSchema = none ∧
        (ordinaryAxis r.hdr.toP.scale.x r.hdr.toP.offset.x = true ∧ ordinaryAxis r.hdr.toP.scale.y r.hdr.toP.offset.y = true ∧
          ordinaryAxis r.hdr.toP.scale.z r.hdr.toP.offset.z = true) ∧
        formatSize r.hdr.schema.fmt ≤ r.hdr.dataRecordLength) ∧
      ((r.hdr.signature = lit "LASF" ∧ r.hdr.guid.length = 16 ∧ r.hdr.systemId.length = 32 ∧ r.hdr.softwareId.length = 32 ∧
        r.hdr.verMajor = 1 ∧ r.hdr.verMinor.toNat ≤ 3 ∧ 227 ≤ r.hdr.headerSize.toNat ∧
        r.hdr.schema.fmt ∈ [PointFormat.f0, .f1, .f2, .f3]) ∧
        (∀ v ∈ r.hdr.vlrs ++ r.hdr.srs, v.userId.length = 16 ∧ v.description.length = 32 ∧ v.recordSize.toNat = v.data.length) ∧
        5 ≤ r.hdr.byReturn.length ∧ r.hdr.schema.isCustom = false ∧ r.hdr.vlrs ≠ []) ∧
      (r.hdr.headerSize.toNat + recordBytes (outputRecords plainEnv r.hdr) + 4 < 2 ^ 31 ∧ r.hdr.dataOffset.toNat < 2 ^ 31 ∧
        r.hdr.padding.toNat < 2 ^ 31 ∧
        fillerBytes r.hdr (r.hdr.headerSize.toNat + recordBytes (outputRecords plainEnv r.hdr)) ≤ 2 ∧
        (outputRecords plainEnv r.hdr).find? VLR.isSchema = none ∧ r.hdr.schema.byteSize < 2 ^ 16) ∧
      (r.hdr.toP.fmt.std = true ∧ formatSize r.hdr.toP.fmt ≤ r.hdr.toP.recLen ∧ r.hdr.toP.hasTimeDim = hasTime r.hdr.toP.fmt ∧
        r.hdr.toP.hasRedDim = hasColor r.hdr.toP.fmt) ∧
      (casePoints.all fun p => p.any (· != 0#8)) = true ∧
      (casePoints.all fun p => (observe ⟨.little, false⟩ ⟨p, r.hdr.toP⟩).check fun a =>
        decide (a = view ⟨.little, false⟩ r.hdr.toP.fmt p)) = true ∧
      (spannable ((casePoints.map (view ⟨.little, false⟩ r.hdr.toP.fmt)).map fun a => coordinate r.hdr.toP.scale.x r.hdr.toP.offset.x a.rawX) (Fl.ofBits r.hdr.scale.x) = true ∧
       spannable ((casePoints.map (view ⟨.little, false⟩ r.hdr.toP.fmt)).map fun a => coordinate r.hdr.toP.scale.y r.hdr.toP.offset.y a.rawY) (Fl.ofBits r.hdr.scale.y) = true ∧
       spannable ((casePoints.map (view ⟨.little, false⟩ r.hdr.toP.fmt)).map fun a => coordinate r.hdr.toP.scale.z r.hdr.toP.offset.z a.rawZ) (Fl.ofBits r.hdr.scale.z) = true)) :=
    Outcome.exists_of_check (by decide +kernel)
  obtain ⟨⟨d1, d2, d3, d4, d5, d6⟩, ⟨⟨g1, g2, g3, g4, g5, g6, g7, g8⟩, g9, g10, g11, g12⟩, ⟨k1, k2, k3, k4, k5, k6⟩, c, z, ob, f1, f2, f3⟩ := h
  refine ⟨r, casePoints.map (view ⟨.little, false⟩ r.hdr.toP.fmt), ⟨⟨e, d1, d3, noSchema_none d4,
    ⟨ordinaryAxis_spec d5.1, ordinaryAxis_spec d5.2.1, ordinaryAxis_spec d5.2.2⟩, d6, by simp⟩, rfl, d2,
    ⟨⟨⟨g1, g2, g3, g4, g5, g6, g7, g8, g9⟩, rfl, g10, fun h => by rw [g11] at h; cases h⟩, k1, k2, k3, k4, noSchema_none k5, c, k6⟩,
    by decide, fun p hp => by simpa using List.all_eq_true.1 z p hp, Or.inr rfl, ?_, ⟨spannable_spec f1, spannable_spec f2, spannable_spec f3⟩⟩⟩
  rw [List.map_map]
  refine List.map_congr_left fun p hp => ?_
  have := List.all_eq_true.1 ob p hp
  obtain ⟨a, e1, e2⟩ := Outcome.exists_of_check this
  rw [e1, e2]; rfl

/-- The coordinates on the first axis of the points of a file. -/
def allX (f : List Byte) : Outcome (List Fl) := do
  let r ← Reader.make plainEnv (1, 2000) (IStream.onFile f)
  let rec go : Nat → Reader → Outcome (List Fl)
    | 0, _ => .ok []
    | k + 1, r => match r.readNext with
      | (r, .ok true) => do
        let x ← Point.getX ⟨.little, false⟩ ⟨r.point, r.hdr.toP⟩
        let xs ← go k r
        pure (x :: xs)
      | _ => .ok []
  go 10 r

/-- C69 refuted for records of zero bytes: a point at the origin of a file without offset is taken to the new offset. Of two
points with `x = -5` and `x = 0`, both have `x = -5` in the output. -/
theorem zero_record_lost : ∃ p, (do
      let fs ← main plainEnv (1, 2000) ⟨.little, false⟩ ⟨[], [], 0, 0, true⟩ .ok
        (sampleFile [pt (-5) 0 0 1, List.replicate 28 0#8])
      let xs ← allX (sampleFile [pt (-5) 0 0 1, List.replicate 28 0#8])
      let ys ← allX (fs.headD [])
      pure (xs, ys)) = Outcome.ok p ∧ p = ([.fin (-5), .fin 0], [.fin (-5), .fin (-5)]) :=
  Outcome.exists_of_check (by decide +kernel)

/-- What `--min-offset` does to the points of the case: raw coordinates are counted from the lowest. -/
example : ∃ p, (do
      let fs ← main plainEnv (1, 2000) ⟨.little, false⟩ ⟨[], [], 0, 0, true⟩ .ok (sampleFile casePoints)
      let ys ← allX (fs.headD [])
      let g ← Kernel.fetchHeader plainEnv (1, 2000) (fs.headD [])
      pure (ys, Fl.ofBits g.offset.x, Fl.ofBits g.offset.y, Fl.ofBits g.offset.z)) = Outcome.ok p ∧
    p = ([.fin 35, .fin 1, .fin 100, .fin 4, .fin 60], .fin 1, .fin (-20), .fin (-3)) :=
  Outcome.exists_of_check (by decide +kernel)

end Las2las
end LibLAS
