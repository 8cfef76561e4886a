import Verif.Spec.WriterSession
import Verif.Props.WriteRead
/-
Sessions of an open writer.
-/
namespace LibLAS
open Spec HeaderWriter

theorem overlay_twice {b x y : List Byte} {p : Nat} (h : x.length = y.length) :
    overlay (overlay b p x) p y = overlay b p y := by
  apply List.ext_getElem?
  intro i
  rw [overlay_getElem?, overlay_getElem?, overlay_getElem?]
  by_cases hy : y = []
  · subst hy
    have : x = [] := List.eq_nil_of_length_eq_zero h
    simp [this]
  · have hx : x ≠ [] := by rintro rfl; exact hy (List.eq_nil_of_length_eq_zero h.symm)
    simp only [hx, hy, if_false, overlay_length]
    split
    · rw [if_pos (by omega)]
    · split
      · rfl
      · rw [if_neg (by omega)]

/-- The header is rewritten in place. -/
theorem write_again (env : Env) {s : OStream} {h : Header} (c : BitVec 32) (hf : s.fail = false) (hb : 227 ≤ s.buf.length)
    (hs : h.Sized) (hr : 5 ≤ h.byReturn.length) :
    ∃ s', HeaderWriter.write env s c h = .ok (s', h.pointCount, h) ∧ s'.fail = false ∧
      s'.buf = headerBytes h ++ s.buf.drop 227 ∧
      s'.pos = if h.pointCount ≠ 0 then s.buf.length else h.dataOffset.toNat := by
  have hhl := headerBytes_length hs hr
  obtain ⟨s1, f1, f2, f3, f4⟩ := OStream.writeAll_ok (HeaderWriter.fields h) ⟨s.buf, 0, false, s.log⟩ rfl
  have hbuf : s1.buf = headerBytes h ++ s.buf.drop 227 := by
    rw [f3]
    show overlay s.buf 0 (headerBytes h) = _
    rw [overlay_zero (by omega), hhl]
  have hblen : s1.buf.length = s.buf.length := by rw [hbuf, List.length_append, hhl, List.length_drop]; omega
  refine ⟨finalSeek s1 h.pointCount h, ?_, ?_, ?_, ?_⟩
  · unfold HeaderWriter.write
    rw [OStream.seekEnd_eq hf]
    dsimp only
    rw [if_pos ⟨hf, by omega⟩]
    unfold HeaderWriter.writeAppend HeaderWriter.writeFields
    rw [OStream.seek_eq (s := ⟨s.buf, s.buf.length + 0, s.fail, s.log⟩) hf, if_neg (by omega)]
    dsimp only
    have f1' : OStream.writeAll { buf := s.buf, pos := 0, fail := s.fail, log := s.log } (HeaderWriter.fields h) = .ok s1 := by
      rw [hf]; exact f1
    rw [f1']
    rfl
  · unfold finalSeek
    split
    · rw [OStream.seekEnd_eq f2]; exact f2
    · rw [OStream.seek_eq f2]; exact f2
  · unfold finalSeek
    split
    · rw [OStream.seekEnd_eq f2]; exact hbuf
    · rw [OStream.seek_eq f2]; exact hbuf
  · unfold finalSeek
    split
    · rw [OStream.seekEnd_eq f2]; show s1.buf.length + 0 = _; omega
    · rw [OStream.seek_eq f2]

/-- The writer whose header is not changed. -/
def OpenWriter.plain (o : OpenWriter) : Writer := ⟨o.ofs, o.hdr, o.count⟩

theorem calls_append (env : Env) (a b : List WriterCall) : ∀ o, OpenWriter.calls env (a ++ b) o =
    (OpenWriter.calls env a o).bind (OpenWriter.calls env b) := by
  induction a with
  | nil => intro o; rfl
  | cons c a ih =>
    intro o
    show (o.call env c).bind _ = ((o.call env c).bind _).bind _
    cases o.call env c with
    | ok o' => exact ih o'
    | throw e => rfl
    | ub => rfl

/-- Points through a writer whose point writer knows the header's record length. -/
theorem calls_points (env : Env) (pts : List (List Byte)) : ∀ (o : OpenWriter) (w' : Writer),
    o.length = o.hdr.dataRecordLength → o.plain.writePoints pts = .ok w' →
    ∃ o', OpenWriter.calls env (pts.map .point) o = .ok o' ∧ o'.plain = w' ∧ o'.hdr = o.hdr ∧ o'.length = o.length ∧
      o'.filters = o.filters ∧ o'.transforms = o.transforms := by
  induction pts with
  | nil =>
    intro o w' _ h
    injection h with h
    exact ⟨o, rfl, h, rfl, rfl, rfl, rfl⟩
  | cons p pts ih =>
    intro o w' hl h
    obtain ⟨w1, h1, h2⟩ := bind_eq_ok h
    unfold Writer.writePoint at h1
    split at h1
    · cases h1
    rename_i c1
    split at h1
    · cases h1
    rename_i c2
    split at h1
    · cases h1
    rename_i c3
    injection h1 with h1
    subst h1
    have hc : o.call env (.point p) = .ok { o with
        ofs := o.ofs.write (p.take o.length), count := o.count + 1, recLen := some o.length } := by
      show o.writePoint p = _
      unfold OpenWriter.writePoint
      rw [if_neg c1, if_neg (show ¬o.ofs.fail = true from c2), if_neg (by rw [hl]; exact c3)]
    obtain ⟨o', e1, e2, e3, e4, e5, e6⟩ := ih { o with
        ofs := o.ofs.write (p.take o.length), count := o.count + 1, recLen := some o.length } w' hl
        (by rw [← h2]; unfold OpenWriter.plain; dsimp only; rw [hl])
    refine ⟨o', ?_, e2, e3, e4, e5, e6⟩
    show (o.call env (.point p)).bind _ = _
    rw [hc]
    exact e1

/-- Writing points keeps the stream in order. -/
theorem Writing.points {env : Env} {w : Writer} {old : List (List Byte)} (hw : Writing env w old) (pts : List (List Byte))
    (hp : ∀ p ∈ pts, w.hdr.dataRecordLength ≤ p.length) (hn : old.length + pts.length < 2 ^ 32)
    (ht : w.ofs.buf.length ≤ w.ofs.pos) :
    ∃ w', w.writePoints pts = .ok w' ∧ w'.hdr = w.hdr ∧ Writing env w' (old ++ cutTo w.hdr.dataRecordLength pts) ∧
      w'.ofs.buf.length ≤ w'.ofs.pos := by
  obtain ⟨w', e1, e2, e3, e4, e5, e6, -⟩ := writePoints_ok pts w hw.recPos hw.good hp
  have hcl := cutTo_length hp
  have hcn : (cutTo w.hdr.dataRecordLength pts).length = pts.length := by simp [cutTo]
  have hhl := headerBytes_length hw.readable.toSized hw.readable.returns
  have hbl : 227 ≤ w.ofs.buf.length := by
    have := congrArg List.length hw.block; rw [slice_length, hhl] at this; omega
  have hof := hw.fits
  have hsz := hw.size
  have hpos := hw.pos
  refine ⟨w', e1, e2, ?_, ?_⟩
  · constructor
    · exact e4
    · rw [e2]; exact hw.readable
    · rw [e2]; exact hw.size
    · rw [e5, e2, slice_overlay_before (by omega) (by omega)]; exact hw.block
    · rw [e5, e2]
      by_cases h0 : w.hdr.vlrs.flatMap vlrBytes = []
      · have := flatMap_vlrBytes_length hw.readable.wf
        rw [h0] at this ⊢
        rw [← this]; rfl
      · have hge : w.hdr.headerSize.toNat + vlrTotal w.hdr.vlrs ≤ w.ofs.buf.length := by
          have := slice_length_ge (b := w.ofs.buf) (x := w.hdr.vlrs.flatMap vlrBytes) (off := w.hdr.headerSize.toNat)
            (by rw [flatMap_vlrBytes_length hw.readable.wf]; exact hw.records) h0
          rwa [flatMap_vlrBytes_length hw.readable.wf] at this
        rw [slice_overlay_before (by omega) (by omega)]
        exact hw.records
    · rw [e2]; exact hw.schema
    · rw [e2]; exact hw.fits
    · rw [e2]; exact hw.recPos
    · rw [e2]
      intro p hp'
      rcases List.mem_append.1 hp' with h | h
      · exact hw.len p h
      · exact hcl p h
    · rw [e5, e2, List.flatten_append]
      apply slice_split
      · by_cases h0 : old.flatten = []
        · rw [h0]; rfl
        · rw [slice_overlay_before (by omega) (slice_length_ge hw.data h0)]
          exact hw.data
      · rw [slice_overlay_in (by omega) (by omega)]
        rw [show w.hdr.dataOffset.toNat + old.flatten.length - w.ofs.pos = 0 by omega, slice_self]
    · rw [e6, e2, hpos, List.flatten_append, List.length_append]; omega
    · rw [e3, BitVec.toNat_add, hw.count, BitVec.toNat_ofNat, List.length_append, hcn]; omega
  · rw [e5, e6, overlay_length]
    split
    · omega
    · omega

theorem Spec.SameArrangement.readable {g h : Header} (hs : SameArrangement g h) (hg : g.Readable) : h.Readable where
  signature := by rw [hs.storable.signature]; rfl
  guid := hs.storable.guid
  systemId := hs.storable.systemId
  softwareId := hs.storable.softwareId
  returns := hs.returns
  signature' := hs.storable.signature
  major := hs.storable.major
  minor := hs.storable.minor
  offset := by rw [hs.headerSize, hs.dataOffset]; exact hg.offset
  std := std_of_mem hs.storable.format
  count := by rw [hs.records.1, hs.records.2]; exact hg.count
  wf := by rw [hs.records.1]; exact hg.wf
  raw := hs.plain

/-- The header is written again: `old` are the points already in the file. -/
theorem Writing.rewrite {env : Env} {w : Writer} {old : List (List Byte)} {h : Header} (hw : Writing env w old)
    (hns : NoSchema env w.hdr.vlrs) (ht : w.ofs.buf.length ≤ w.ofs.pos) (hs : SameArrangement w.hdr h) (c : BitVec 32) :
    ∃ s', HeaderWriter.write env w.ofs c h = .ok (s', h.pointCount, h) ∧
      (h.pointCount = 0 → Writing env ⟨s', h, 0⟩ [] ∧ (old = [] → s'.buf.length ≤ s'.pos)) ∧
      (h.pointCount ≠ 0 → old ≠ [] → Writing env ⟨s', h, BitVec.ofNat 32 old.length⟩ old ∧ s'.buf.length ≤ s'.pos) := by
  have hrd := hs.readable hw.readable
  have hhl := headerBytes_length hw.readable.toSized hw.readable.returns
  have hhl' := headerBytes_length hrd.toSized hrd.returns
  have hbl : 227 ≤ w.ofs.buf.length := by
    have := congrArg List.length hw.block; rw [slice_length, hhl] at this; omega
  obtain ⟨s', e1, e2, e3, e4⟩ := write_again env (h := h) c hw.good hbl hrd.toSized hrd.returns
  have hslice : ∀ o k, 227 ≤ o → slice s'.buf o k = slice w.ofs.buf o k := by
    intro o k ho
    rw [e3, slice_append_right (by omega), hhl']
    unfold slice
    rw [List.drop_drop, Nat.add_sub_cancel' ho]
  have hblock : slice s'.buf 0 227 = headerBytes h := by
    rw [e3, slice_append_left (by omega), ← hhl', slice_self]
  have hrecs : slice s'.buf h.headerSize.toNat (vlrTotal h.vlrs) = h.vlrs.flatMap vlrBytes := by
    rw [hs.headerSize, hs.records.1, hslice _ _ hw.size]; exact hw.records
  have hsch : SchemaBack env h := Or.inl (by rw [hs.records.1]; exact hns)
  have hfits : h.headerSize.toNat + vlrTotal h.vlrs ≤ h.dataOffset.toNat := by
    rw [hs.headerSize, hs.records.1, hs.dataOffset]; exact hw.fits
  have hsize : 227 ≤ h.headerSize.toNat := by rw [hs.headerSize]; exact hw.size
  have hrp : 0 < h.dataRecordLength := by rw [hs.recordLength]; exact hw.recPos
  have hfit := hw.fits
  have hsz := hw.size
  have hblen : s'.buf.length = w.ofs.buf.length := by rw [e3, List.length_append, hhl', List.length_drop]; omega
  have hcnt := w.count.isLt
  rw [hw.count] at hcnt
  refine ⟨s', e1, ?_, ?_⟩
  · intro h0
    have hp : s'.pos = h.dataOffset.toNat := by rw [e4, if_neg (by simp [h0])]
    refine ⟨⟨e2, hrd, hsize, hblock, hrecs, hsch, hfits, hrp, by intro p hp; simp at hp, rfl, by rw [hp]; simp, rfl⟩, ?_⟩
    rintro rfl
    have h1 := hw.pos
    simp only [List.flatten_nil, List.length_nil] at h1
    rw [hp, hs.dataOffset, hblen]
    omega
  · intro h0 hne
    have hpos : s'.pos = w.ofs.buf.length := by rw [e4, if_pos h0]
    refine ⟨⟨e2, hrd, hsize, hblock, hrecs, hsch, hfits, hrp, by rw [hs.recordLength]; exact hw.len, ?_, ?_, ?_⟩, by omega⟩
    · show slice s'.buf h.dataOffset.toNat _ = _
      rw [hs.dataOffset, hslice _ _ (by omega)]; exact hw.data
    · show s'.pos = h.dataOffset.toNat + _
      rw [hs.dataOffset, hpos]
      have hp := hw.pos
      have : w.hdr.dataOffset.toNat + old.flatten.length ≤ w.ofs.buf.length := by
        apply slice_length_ge hw.data
        intro hh
        have h3 := congrArg List.length hh
        rw [flatten_length_const hw.len] at h3
        exact Nat.mul_ne_zero (by intro hh; exact hne (List.eq_nil_of_length_eq_zero hh)) (by have := hw.recPos; omega) h3
      omega
    · show (BitVec.ofNat 32 old.length).toNat = _
      rw [BitVec.toNat_ofNat]; omega

/-- Another number of points in the header of a file. -/
theorem FileOf.recount {env : Env} {H : Header} {b : List Byte} {recs : List (List Byte)} (hf : FileOf env H b recs) {k : Nat}
    {c : BitVec 32} (hk : k ≤ recs.length) (hc : c.toNat = k) :
    FileOf env { H with pointCount := c } (overlay b 107 (put 4 c)) (recs.take k) := by
  have hhl := headerBytes_length hf.readable.toSized hf.readable.returns
  have hput : (put 4 c).length = 4 := put_length _ _
  have hsz := hf.size
  have hft := hf.fits
  have hlen : ∀ p ∈ recs.take k, p.length = H.dataRecordLength := fun p hp => hf.len p (List.mem_of_mem_take hp)
  constructor
  · have hr := hf.readable
    exact { hr with }
  · exact hf.size
  · rw [slice_overlay_block hf.block hhl (by rw [hput]; omega), headerBytes_setCount hf.readable.toSized hf.readable.returns]
  · show slice _ H.headerSize.toNat (vlrTotal H.vlrs) = _
    rw [slice_overlay_after (by rw [hput]; omega)]; exact hf.records
  · exact hf.schema
  · exact hf.fits
  · show c.toNat = _
    rw [hc, List.length_take, Nat.min_eq_left hk]
  · exact hf.pos
  · exact hlen
  · show slice _ H.dataOffset.toNat _ = _
    rw [slice_overlay_after (by rw [hput]; omega)]
    have h1 := hf.data
    have h2 : recs.flatten = (recs.take k).flatten ++ (recs.drop k).flatten := by
      rw [← List.flatten_append, List.take_append_drop]
    rw [h2] at h1
    have h3 : slice b H.dataOffset.toNat (recs.take k).flatten.length =
        (slice b H.dataOffset.toNat ((recs.take k).flatten ++ (recs.drop k).flatten).length).take (recs.take k).flatten.length := by
      unfold slice
      rw [List.take_take, List.length_append, Nat.min_eq_left (by omega)]
    rw [h3, h1, List.take_left' rfl]

/-- An open writer with the points `ps` in its file, ready for more. -/
structure Steady (env : Env) (o : OpenWriter) (ps : List (List Byte)) : Prop where
  writing : Writing env o.plain ps
  noSchema : NoSchema env o.hdr.vlrs
  tight : o.ofs.buf.length ≤ o.ofs.pos
  len : o.length = o.hdr.dataRecordLength

theorem Steady.points {env : Env} {o : OpenWriter} {ps : List (List Byte)} (ho : Steady env o ps) (qs : List (List Byte))
    (hq : ∀ p ∈ qs, p.length = o.hdr.dataRecordLength) (hn : ps.length + qs.length < 2 ^ 32) :
    ∃ o', OpenWriter.calls env (qs.map .point) o = .ok o' ∧ o'.hdr = o.hdr ∧ Steady env o' (ps ++ qs) := by
  obtain ⟨w', e1, e2, e3, e4⟩ := ho.writing.points qs (fun p hp => Nat.le_of_eq (hq p hp).symm) hn ho.tight
  obtain ⟨o', f1, f2, f3, f4, -, -⟩ := calls_points env qs o w' ho.len e1
  refine ⟨o', f1, f3, ?_⟩
  subst f2
  rw [cutTo_eq (show ∀ p ∈ qs, p.length = o.plain.hdr.dataRecordLength from hq)] at e3
  exact ⟨e3, by rw [f3]; exact ho.noSchema, e4, by rw [f4, f3]; exact ho.len⟩

theorem calls_round {env : Env} {o : OpenWriter} {h : Header} {s' : OStream} {c : BitVec 32} (qs : List (List Byte))
    (hw : HeaderWriter.write env o.ofs o.count h = .ok (s', c, h)) :
    OpenWriter.calls env (round (h, qs)) o =
      OpenWriter.calls env (qs.map .point) { o with ofs := s', count := c, hdr := h } := by
  show (OpenWriter.writeHeader env { o with hdr := h }).bind _ = _
  unfold OpenWriter.writeHeader
  dsimp only
  rw [hw]
  rfl

theorem Spec.SameArrangement.length {o : OpenWriter} {h : Header} (hs : SameArrangement o.hdr h) (hl : o.length = o.hdr.dataRecordLength)
    (s' : OStream) (c : BitVec 32) :
    ({ o with ofs := s', count := c, hdr := h } : OpenWriter).length = h.dataRecordLength := by
  unfold OpenWriter.length at hl ⊢
  dsimp only
  cases hr : o.recLen with
  | none => rfl
  | some n => rw [hr] at hl; rw [hs.recordLength]; exact hl

/-- A header with the right count, and points. -/
theorem Steady.round {env : Env} {o : OpenWriter} {ps : List (List Byte)} (ho : Steady env o ps) {h : Header}
    (hs : SameArrangement o.hdr h) (hc : h.pointCount.toNat = ps.length) (qs : List (List Byte))
    (hq : ∀ p ∈ qs, p.length = o.hdr.dataRecordLength) (hn : ps.length + qs.length < 2 ^ 32) :
    ∃ o', OpenWriter.calls env (round (h, qs)) o = .ok o' ∧ o'.hdr = h ∧ Steady env o' (ps ++ qs) := by
  obtain ⟨s', e1, e2, e3⟩ := ho.writing.rewrite ho.noSchema ho.tight hs o.count
  have e1' : HeaderWriter.write env o.ofs o.count h = .ok (s', h.pointCount, h) := e1
  rw [calls_round qs e1']
  have hst : Steady env { o with ofs := s', count := h.pointCount, hdr := h } ps := by
    have hns : NoSchema env h.vlrs := by rw [hs.records.1]; exact ho.noSchema
    have hl := hs.length ho.len s' h.pointCount
    by_cases h0 : h.pointCount = 0
    · have hp : ps = [] := by
        apply List.eq_nil_of_length_eq_zero
        rw [← hc, h0]; rfl
      obtain ⟨g1, g2⟩ := e2 h0
      subst hp
      exact ⟨by unfold OpenWriter.plain; dsimp only; rw [h0]; exact g1, hns, g2 rfl, hl⟩
    · have hp : ps ≠ [] := by
        rintro rfl
        apply h0
        apply BitVec.eq_of_toNat_eq
        rw [hc]; rfl
      obtain ⟨g1, g2⟩ := e3 h0 hp
      have : BitVec.ofNat 32 ps.length = h.pointCount := by rw [← hc]; simp
      rw [this] at g1
      exact ⟨g1, hns, g2, hl⟩
  obtain ⟨o', f1, f2, f3⟩ := hst.points qs (by intro p hp; rw [hq p hp]; exact hs.recordLength.symm) hn
  exact ⟨o', f1, f2, f3⟩

/-- Closing. -/
theorem Steady.close {env : Env} {o : OpenWriter} {ps : List (List Byte)} (ho : Steady env o ps) :
    FileOf env { o.hdr with pointCount := o.count } o.close.buf ps := by
  have hn : ps.length + ([] : List (List Byte)).length < 2 ^ 32 := by
    have := o.count.isLt
    have h2 : o.count.toNat = ps.length := ho.writing.count
    simp; omega
  obtain ⟨w', e1, e2, -⟩ := ho.writing.finish [] (by simp) hn
  injection e1 with e1
  subst e1
  have e3 : ps ++ cutTo o.plain.hdr.dataRecordLength [] = ps := by simp [cutTo]
  rw [e3] at e2
  exact e2

/-- A new file. -/
theorem Steady.opened {env : Env} {h : Header} {w : Writer} (hs : StorableHeader h)
    (hmk : Writer.make env (OStream.onFile []) h = .ok w)
    (hsmall : h.headerSize.toNat + recordBytes w.hdr.vlrs + 4 < 2 ^ 31)
    (hns : NoSchema env w.hdr.vlrs) (hpad : w.hdr.padding = 0) (h0 : 0 < h.dataRecordLength) :
    Steady env (.opened w) [] ∧ w.hdr.dataRecordLength = h.dataRecordLength := by
  obtain ⟨pad, hf⟩ := new_file (StorableHeader.good hs) hs.size hmk hsmall
  have hw := hf.writing hs (Or.inl hns) h0 hsmall
  have hp0 : pad = 0 := by
    have : w.hdr.padding = BitVec.ofNat 32 pad := by conv_lhs => rw [hf.hdr]
    rw [hpad] at this
    have h2 := congrArg BitVec.toNat this
    rw [BitVec.toNat_ofNat, Nat.mod_eq_of_lt (by have := hf.pad_le; omega)] at h2
    simpa using h2.symm
  have ht := hf.noTail hp0
  refine ⟨⟨hw, hns, ?_, rfl⟩, by rw [hf.hdr]; rfl⟩
  have := hw.pos
  simp only [List.flatten_nil, List.length_nil] at this
  show w.ofs.buf.length ≤ w.ofs.pos
  omega

end LibLAS
