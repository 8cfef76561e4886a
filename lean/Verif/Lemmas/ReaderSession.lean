import Verif.Spec.ReaderSession
import Verif.Props.Reset
/-
Readers with a given header.
-/
namespace LibLAS
open Spec HeaderReader Point

private theorem writeAt_same {d d' bs : List Byte} {pos : Nat} (h : writeAt d pos bs = .ok d') : d'.length = d.length := by
  unfold writeAt at h
  split at h
  · cases h; simp; omega
  · cases h

private theorem setInt_length {b : Build} {p q : Point} {pos n : Nat} {sg : Bool} {v : BitVec (8 * n)}
    (h : setInt b p pos n sg v = .ok q) : q.data.length = p.data.length := by
  obtain ⟨d, h1, h⟩ := bind_eq_ok h
  cases h
  exact writeAt_same h1

/-- A header with records of the length the point has keeps that length. -/
theorem setHeader_length {b : Build} {p q : Point} {h : PHeader} (hl : h.recLen = p.data.length)
    (e : p.setHeader b h = .ok q) : q.data.length = p.data.length := by
  unfold Point.setHeader at e
  split at e
  · cases e
    simp [hl]
  · dsimp only at e
    rw [if_neg (by simp [hl])] at e
    obtain ⟨q0, e0, e⟩ := bind_eq_ok e
    cases e0
    split at e
    · obtain ⟨x, -, e⟩ := bind_eq_ok e
      obtain ⟨y, -, e⟩ := bind_eq_ok e
      obtain ⟨z, -, e⟩ := bind_eq_ok e
      obtain ⟨q1, e1, e⟩ := bind_eq_ok e
      obtain ⟨q2, e2, e⟩ := bind_eq_ok e
      obtain ⟨_, -, e1⟩ := bind_eq_ok e1
      obtain ⟨_, -, e2⟩ := bind_eq_ok e2
      obtain ⟨_, -, e⟩ := bind_eq_ok e
      rw [setInt_length e, setInt_length e2, setInt_length e1]
    · cases e; rfl

theorem blank_iff (r : Reader) : Blank r ↔ byteSum r.point = 0 := by
  unfold Blank byteSum
  constructor
  · intro h
    have : r.point.map BitVec.toNat = r.point.map fun _ => 0 := List.map_congr_left fun x hx => by rw [h x hx]; rfl
    rw [this]
    simp
  · intro h x hx
    exact BitVec.eq_of_toNat_eq (bytes_zero_of_sum _ h x hx)

theorem Spec.SamePointPlace.agree {g h : Header} (hs : SamePointPlace g h) : HAgree g h := ⟨hs.count, hs.offset, hs.length⟩

theorem HAgree.symm' {g h : Header} (hs : HAgree g h) : HAgree h g := ⟨hs.count.symm, hs.offset.symm, hs.length.symm⟩

theorem HAgree.trans' {g h i : Header} (hs : HAgree g h) (ht : HAgree h i) : HAgree g i :=
  ⟨ht.count.trans hs.count, ht.offset.trans hs.offset, ht.length.trans hs.length⟩

/-- The state of a reader after any history: with the header of the file it would be as after resets and reads only. -/
structure OpenReader.Kept (env : Env) (b : List Byte) (f : PointFormat) (l : List VLR) (g : Header) (o : OpenReader) (k : Nat) : Prop where
  reread : Reread env b f l k { o.r with hdr := o.own }
  agree : HAgree o.own o.r.hdr
  place : HAgree g o.own
  same : o.given = false → o.r.hdr = o.own

theorem OpenReader.Kept.step {env : Env} {b : List Byte} {f : PointFormat} {l : List VLR} {g : Header} {o : OpenReader} {k : Nat}
    (h : o.Kept env b f l g k) {c : ReadOp} (hc : c.Benign) : ({ o with r := readStep o.r c } : OpenReader).Kept env b f l g k := by
  have e := (Reader.readStep_W h.agree.symm' c).1
  have hr := h.reread.step hc
  have hh : (readStep o.r c).hdr = o.r.hdr :=
    Reader.readStep_hdr (len := o.r.point.length) rfl (by
      have := h.reread.ready.keeps
      have hp := h.reread.ready.on.point
      intro p hp'
      rw [show o.r.point.length = _ from hp] at hp' ⊢
      exact this p hp') c
  rw [e] at hr
  exact ⟨hr, by rw [hh]; exact h.agree, h.place, by intro hg; rw [hh]; exact h.same hg⟩

theorem OpenReader.Kept.setHeader {env : Env} {b : List Byte} {f : PointFormat} {l : List VLR} {g : Header} {o o' : OpenReader} {k : Nat}
    (bld : Build) (h : o.Kept env b f l g k) {d : Header} (hd : SamePointPlace g d) (e : o.setHeader bld d = .ok o') :
    o'.Kept env b f l g k ∧ o'.r = { o.r with hdr := d, point := o'.r.point } ∧ o'.r.point.length = o.r.point.length ∧
      o'.own = o.own := by
  unfold OpenReader.setHeader OpenReader.movePoint at e
  split at e
  · cases e
  obtain ⟨p, e1, e⟩ := bind_eq_ok e
  obtain ⟨q, e2, e1⟩ := bind_eq_ok e1
  cases e1
  cases e
  have hl : q.data.length = o.r.point.length := by
    refine setHeader_length ?_ e2
    show d.dataRecordLength = o.r.point.length
    have h1 := h.reread.ready.on.point
    have h2 := h.reread.ready.on.recordLength
    have h3 : o.own.dataRecordLength = _ := h2
    have h4 : o.r.point.length = _ := h1
    rw [h4, ← h3, h.place.length, hd.length]
  have ho := h.reread.ready.on
  refine ⟨⟨?_, h.place.symm'.trans' hd.agree, h.place, by intro hh; cases hh⟩, rfl, hl, rfl⟩
  have hr := h.reread
  exact ⟨⟨⟨ho.buf, ho.dataOffset, ho.recordSize, ho.recordLength, hl.trans ho.point, ho.size, ho.count, ho.pos⟩, hr.ready.keeps⟩,
    hr.hdr, hr.fmt, hr.len, hr.user, hr.named, hr.even⟩

/-- A reset without a given header is the reset of the reader. -/
theorem OpenReader.reset_plain (env : Env) (bld : Build) {o : OpenReader} (hg : o.given = false) (hs : o.r.hdr = o.own) :
    o.reset env bld = (o.r.reset env bld).bind fun r => .ok ⟨r, r.hdr, false⟩ := by
  unfold OpenReader.reset Reader.reset
  rw [← hs]
  dsimp only
  cases readHeader env (if o.r.ifs.eof then o.r.ifs.clear else o.r.ifs) o.r.hdr with
  | throw e => rfl
  | ub => rfl
  | ok x =>
    obtain ⟨s, h⟩ := x
    simp only [Outcome.bind_ok]
    split
    · rfl
    · unfold OpenReader.resetPoint
      rw [hg]
      simp only [Bool.false_eq_true, if_false]
      cases Point.setHeader bld ⟨o.r.point, h.toP⟩ h.toP with
      | throw e => rfl
      | ub => rfl
      | ok x => rfl

/-- A reset. -/
theorem OpenReader.Kept.reset {env : Env} {b : List Byte} {f : PointFormat} {l : List VLR} {g : Header} {o : OpenReader} {k : Nat}
    (bld : Build) (hB : Block env b f l) (h : o.Kept env b f l g k) (hs : sameScaling o.own.toP o.own.toP = true) :
    (o.given = true → ¬Blank o.r → o.reset env bld = .ub) ∧
    ((o.given = true → Blank o.r) → ∃ o', o.reset env bld = .ok o' ∧ o'.Kept env b f l g (k + 1) ∧ o'.given = false ∧
      o'.r.ifs = ⟨b, 0, false, false⟩ ∧ o'.r.current = 0 ∧ o'.r.filter = o.r.filter ∧ o'.r.xform = o.r.xform) := by
  obtain ⟨r', e, hJ, g1, g2, g3, g4⟩ := h.reread.reset bld hB hs
  have hplace : HAgree g r'.hdr := by
    have h1 := h.reread.hdr
    have h2 := hJ.hdr
    have hp := h.place
    have e1 : r'.hdr.pointCount = o.own.pointCount := by
      rw [h2]; rw [show o.own.pointCount = _ from congrArg Header.pointCount h1]
    have e2 : r'.hdr.dataOffset = o.own.dataOffset := by
      rw [h2]; rw [show o.own.dataOffset = _ from congrArg Header.dataOffset h1]
    have e3 : r'.hdr.dataRecordLength = o.own.dataRecordLength := by
      show r'.hdr.schema.dataRecordLength = o.own.schema.dataRecordLength
      rw [hJ.len, show o.own.schema.dataRecordLength = _ from h.reread.len]
    exact ⟨e1.trans hp.count, e2.trans hp.offset, e3.trans hp.length⟩
  unfold Reader.reset at e
  dsimp only at e
  obtain ⟨⟨s, H⟩, e1, e⟩ := bind_eq_ok e
  dsimp only at e
  split at e
  · cases e
  rename_i hc
  obtain ⟨p, e2, e⟩ := bind_eq_ok e
  injection e with e
  have hH : r'.hdr = H := by rw [← e]; rfl
  constructor
  · intro hg hb
    unfold OpenReader.reset
    dsimp only
    rw [e1]
    simp only [Outcome.bind_ok]
    rw [if_neg hc]
    unfold OpenReader.resetPoint OpenReader.movePoint
    rw [if_pos hg, if_pos ⟨hg, fun hh => hb ((blank_iff _).2 hh)⟩]
    rfl
  · intro hb
    have hm : o.resetPoint bld H = .ok p.data := by
      unfold OpenReader.resetPoint
      split
      · rename_i hg
        have hz := (blank_iff _).1 (hb hg)
        unfold OpenReader.movePoint
        rw [if_neg (fun hh => hh.2 hz)]
        unfold Point.setHeader at e2 ⊢
        rw [if_pos hz] at e2 ⊢
        injection e2 with e2
        rw [← e2]
        rfl
      · rw [e2]; rfl
    refine ⟨⟨r', r'.hdr, false⟩, ?_, ⟨hJ, ⟨rfl, rfl, rfl⟩, hplace, fun _ => rfl⟩, rfl, g1, g2, g3, g4⟩
    unfold OpenReader.reset
    dsimp only
    rw [e1]
    simp only [Outcome.bind_ok]
    rw [if_neg hc, hm]
    simp only [Outcome.bind_ok]
    rw [hH, ← e]
    rfl

theorem OpenReader.Kept.scaling {env : Env} {b : List Byte} {f : PointFormat} {l : List VLR} {g : Header} {o o' : OpenReader}
    {k k' : Nat} (h : o.Kept env b f l g k) (h' : o'.Kept env b f l g k') (hs : sameScaling o.own.toP o.own.toP = true) :
    sameScaling o'.own.toP o'.own.toP = true := by
  have := Reread.scaling (r := { o.r with hdr := o.own }) (r' := { o'.r with hdr := o'.own }) h.reread h'.reread hs
  exact this

/-- A history. -/
theorem headerRun_kept {env : Env} {b : List Byte} {f : PointFormat} {l : List VLR} {g : Header} (bld : Build) (hB : Block env b f l)
    (cs : List HeaderCall) : ∀ {o o' : OpenReader} {k : Nat}, o.Kept env b f l g k → sameScaling o.own.toP o.own.toP = true →
    (∀ c ∈ cs, c.Benign g) → headerRun env bld o cs = .ok o' → ∃ k', o'.Kept env b f l g k' := by
  induction cs with
  | nil =>
    intro o o' k h _ _ e
    cases e
    exact ⟨k, h⟩
  | cons c cs ih =>
    intro o o' k h hs hc e
    have hc0 := hc c (by simp)
    have hc' : ∀ c ∈ cs, c.Benign g := fun x hx => hc x (by simp [hx])
    rw [headerRun] at e
    cases c with
    | op c =>
      have h1 := h.step (c := c) hc0
      exact ih h1 (h.scaling h1 hs) hc' e
    | setHeader d =>
      cases hx : o.setHeader bld d with
      | throw x => rw [headerStep, hx] at e; cases e
      | ub => rw [headerStep, hx] at e; cases e
      | ok o1 =>
        rw [headerStep, hx] at e
        have h1 := (h.setHeader bld hc0 hx).1
        exact ih h1 (h.scaling h1 hs) hc' e
    | reset =>
      obtain ⟨r1, r2⟩ := h.reset bld hB hs
      by_cases hb : o.given = true → Blank o.r
      · obtain ⟨o1, x1, x2, -⟩ := r2 hb
        rw [headerStep, x1] at e
        exact ih x2 (h.scaling x2 hs) hc' e
      · obtain ⟨hg, hb⟩ := Classical.not_imp.1 hb
        rw [headerStep, r1 hg hb] at e
        cases e

theorem OpenReader.opened_kept {env : Env} {today : BitVec 16 × BitVec 16} {b : List Byte} {r₀ : Reader}
    (hb : 227 ≤ b.length) (hr : Reader.make env today (IStream.onFile b) = .ok r₀) (hv : NoSchema env r₀.hdr.vlrs)
    (hl : 0 < r₀.hdr.dataRecordLength) :
    ∃ f, Block env b f r₀.hdr.vlrs ∧ (OpenReader.opened r₀).Kept env b f r₀.hdr.vlrs r₀.hdr 0 := by
  obtain ⟨f, hB, hJ⟩ := open_reread hb hr hv hl
  exact ⟨f, hB, hJ, ⟨rfl, rfl, rfl⟩, ⟨rfl, rfl, rfl⟩, fun _ => rfl⟩

namespace Reader

theorem implReadNext_place {h : Header} {r : Reader} (ha : h.dataOffset = r.hdr.dataOffset) :
    implReadNext { r with hdr := h } = W h r.implReadNext := by
  unfold implReadNext
  dsimp only
  have e0 : (if r.current = 0 then ({ r with hdr := h, ifs := r.ifs.clear.seek h.dataOffset.toNat } : Reader) else { r with hdr := h }) =
      { (if r.current = 0 then { r with ifs := r.ifs.clear.seek r.hdr.dataOffset.toNat } else r) with hdr := h } := by
    rw [ha]; split <;> rfl
  rw [show (if r.current = 0 then ({ ifs := r.ifs.clear.seek h.dataOffset.toNat, hdr := h, size := r.size, current := r.current, recordSize := r.recordSize, point := r.point, filter := r.filter, xform := r.xform } : Reader) else { ifs := r.ifs, hdr := h, size := r.size, current := r.current, recordSize := r.recordSize, point := r.point, filter := r.filter, xform := r.xform }) = _ from e0]
  generalize (if r.current = 0 then { r with ifs := r.ifs.clear.seek r.hdr.dataOffset.toNat } else r) = r0
  by_cases h1 : r0.current ≥ r0.size
  · rw [if_pos (show r0.current ≥ r0.size from h1), if_pos h1]; rfl
  rw [if_neg (show ¬ r0.current ≥ r0.size from h1), if_neg h1, readCounted_W]
  rcases r0.readCounted with ⟨r1, o⟩
  rcases o with a | e | _
  · show (if r1.accepts = true then ((transform { r1 with hdr := h } : Reader), Outcome.ok ()) else afterReject { r1 with hdr := h }) =
      W h (if r1.accepts = true then (r1.transform, .ok ()) else r1.afterReject)
    by_cases h2 : r1.accepts = true
    · rw [if_pos h2, if_pos h2, transform_W]; rfl
    · rw [if_neg h2, if_neg h2, afterReject_W]
  · rfl
  · rfl

theorem implReadAt_place {h : Header} {r : Reader} (ho : h.dataOffset = r.hdr.dataOffset)
    (hl : h.dataRecordLength = r.hdr.dataRecordLength) (n : Nat) : implReadAt { r with hdr := h } n = W h (r.implReadAt n) := by
  unfold implReadAt
  dsimp only
  by_cases h1 : r.size = n
  · rw [if_pos h1, if_pos h1]; rfl
  rw [if_neg h1, if_neg h1]
  by_cases h2 : r.size < n
  · rw [if_pos h2, if_pos h2]; rfl
  rw [if_neg h2, if_neg h2, hl, ho]
  rw [show ({ ifs := r.ifs.clear.seek (n * r.hdr.dataRecordLength + r.hdr.dataOffset.toNat), hdr := h, size := r.size, current := r.current, recordSize := r.recordSize, point := r.point, filter := r.filter, xform := r.xform } : Reader) =
    { ({ r with ifs := r.ifs.clear.seek (n * r.hdr.dataRecordLength + r.hdr.dataOffset.toNat) } : Reader) with hdr := h } from rfl,
    readRecord_W]
  rcases readRecord { r with ifs := r.ifs.clear.seek (n * r.hdr.dataRecordLength + r.hdr.dataOffset.toNat) } with ⟨r1, o⟩
  rcases o with a | e | _
  · simp only [W, transform_W]
  · rfl
  · rfl

theorem seek_place {h : Header} {r : Reader} (ho : h.dataOffset = r.hdr.dataOffset)
    (hl : h.dataRecordLength = r.hdr.dataRecordLength) (n : Nat) : seek { r with hdr := h } n = W h (r.seek n) := by
  have : implSeek { r with hdr := h } n = W h (r.implSeek n) := by
    unfold implSeek
    dsimp only
    by_cases h1 : r.size = n
    · rw [if_pos h1, if_pos h1]; rfl
    rw [if_neg h1, if_neg h1]
    by_cases h2 : r.size < n
    · rw [if_pos h2, if_pos h2]; rfl
    rw [if_neg h2, if_neg h2, hl, ho]; rfl
  unfold seek
  rw [this, catchRange_W]

/-- Reading without access by number does not look at the number of points in the header. -/
theorem reports_sequential {f : List Byte} {off len n : Nat} {h : Header} (ops : List ReadOp) : ∀ {r : Reader}, r.Ready f off len n →
    h.dataOffset = r.hdr.dataOffset → h.dataRecordLength = r.hdr.dataRecordLength → (∀ o ∈ ops, o.Benign) →
    (∀ n, ReadOp.at n ∉ ops) → reports { r with hdr := h } ops = reports r ops := by
  induction ops with
  | nil => intro r _ _ _ _ _; rfl
  | cons o ops ih =>
    intro r hr ho hl hb hat
    have key : readStep { r with hdr := h } o = { readStep r o with hdr := h } ∧ report { r with hdr := h } o = report r o := by
      cases o with
      | next =>
        have : readNext { r with hdr := h } = W h r.readNext := by
          unfold readNext
          rw [implReadNext_place ho, catchRange_W]
        simp only [readStep, report, this, W, and_self]
      | «at» n => exact absurd (List.mem_cons_self) (hat n)
      | seek n => simp only [readStep, report, seek_place ho hl, W, and_self]
      | filters fs => exact ⟨rfl, rfl⟩
      | transforms ts => exact ⟨rfl, rfl⟩
    rw [reports, reports, key.1, key.2]
    congr 1
    have hh := readStep_hdr hr.on.point hr.keeps o
    exact ih (readStep_ready hr (hb o List.mem_cons_self)) (by rw [hh]; exact ho) (by rw [hh]; exact hl)
      (fun o' ho => hb o' (List.mem_cons_of_mem _ ho)) fun n hn => hat n (List.mem_cons_of_mem _ hn)

end Reader

end LibLAS
