import Verif.Lemmas.Reopen
import Verif.Lemmas.ReadSeq
import Verif.Spec.NewFile
/-
Writing points, closing, reopening.
-/
namespace LibLAS
open Spec

/-- The bytes of each point that go to the file. -/
def cutTo (len : Nat) (pts : List (List Byte)) : List (List Byte) := pts.map fun p => p.take len

theorem cutTo_length {len : Nat} {pts : List (List Byte)} (h : ∀ p ∈ pts, len ≤ p.length) :
    ∀ p ∈ cutTo len pts, p.length = len := by
  intro p hp
  obtain ⟨q, hq, rfl⟩ := List.mem_map.1 hp
  have := h q hq
  simp; omega

theorem cutTo_eq {len : Nat} {pts : List (List Byte)} (h : ∀ p ∈ pts, p.length = len) : cutTo len pts = pts := by
  unfold cutTo
  conv_rhs => rw [← List.map_id pts]
  apply List.map_congr_left
  intro p hp
  rw [← h p hp]; simp

theorem flatten_length_const {len : Nat} : ∀ {l : List (List Byte)}, (∀ p ∈ l, p.length = len) →
    l.flatten.length = l.length * len
  | [], _ => by simp
  | p :: l, h => by
    rw [List.flatten_cons, List.length_append, flatten_length_const (fun q hq => h q (by simp [hq])), h p (by simp),
      List.length_cons, Nat.succ_mul]
    omega

/-- The positions and bytes of successive writes. -/
def writesAt (pos : Nat) : List (List Byte) → List (Nat × List Byte)
  | [] => []
  | p :: ps => (pos, p) :: writesAt (pos + p.length) ps

theorem writePoint_ok {w : Writer} {p : List Byte} (h0 : 0 < w.hdr.dataRecordLength) (hf : w.ofs.fail = false)
    (hp : w.hdr.dataRecordLength ≤ p.length) :
    w.writePoint p = .ok { w with
      ofs := w.ofs.write (p.take w.hdr.dataRecordLength), count := w.count + 1 } := by
  unfold Writer.writePoint
  rw [if_neg (by rintro rfl; simp at hp; omega), if_neg (by simp [hf]), if_neg (by omega)]

theorem writePoints_ok (pts : List (List Byte)) : ∀ (w : Writer), 0 < w.hdr.dataRecordLength → w.ofs.fail = false →
    (∀ p ∈ pts, w.hdr.dataRecordLength ≤ p.length) →
    ∃ w', w.writePoints pts = .ok w' ∧ w'.hdr = w.hdr ∧ w'.count = w.count + BitVec.ofNat 32 pts.length ∧
      w'.ofs.fail = false ∧
      w'.ofs.buf = overlay w.ofs.buf w.ofs.pos (cutTo w.hdr.dataRecordLength pts).flatten ∧
      w'.ofs.pos = w.ofs.pos + (cutTo w.hdr.dataRecordLength pts).flatten.length ∧
      w'.ofs.log = w.ofs.log ++ writesAt w.ofs.pos (cutTo w.hdr.dataRecordLength pts) := by
  induction pts with
  | nil =>
    intro w _ hf _
    exact ⟨w, rfl, rfl, by simp, hf, by simp [cutTo, overlay_nil], by simp [cutTo], by simp [cutTo, writesAt]⟩
  | cons p pts ih =>
    intro w h0 hf hp
    have hp1 := hp p (by simp)
    rw [Writer.writePoints, writePoint_ok h0 hf hp1]
    simp only [Outcome.bind_ok]
    have hw : w.ofs.write (p.take w.hdr.dataRecordLength) = ⟨overlay w.ofs.buf w.ofs.pos (p.take w.hdr.dataRecordLength),
        w.ofs.pos + w.hdr.dataRecordLength, false, w.ofs.log ++ [(w.ofs.pos, p.take w.hdr.dataRecordLength)]⟩ := by
      unfold OStream.write
      rw [if_neg (by simp [hf])]
      simp [hf, Nat.min_eq_left hp1]
    rw [hw]
    obtain ⟨w', e1, e2, e3, e4, e5, e6, e7⟩ := ih ⟨⟨overlay w.ofs.buf w.ofs.pos (p.take w.hdr.dataRecordLength),
        w.ofs.pos + w.hdr.dataRecordLength, false, w.ofs.log ++ [(w.ofs.pos, p.take w.hdr.dataRecordLength)]⟩, w.hdr,
        w.count + 1⟩ h0 rfl (fun q hq => hp q (by simp [hq]))
    have hl : (p.take w.hdr.dataRecordLength).length = w.hdr.dataRecordLength := by simp; omega
    refine ⟨w', e1, e2, ?_, e4, ?_, ?_, ?_⟩
    · rw [e3]
      show w.count + 1 + _ = _
      rw [List.length_cons, Nat.add_comm, BitVec.ofNat_add, BitVec.add_assoc]; rfl
    · rw [e5]
      show overlay (overlay _ _ _) (w.ofs.pos + w.hdr.dataRecordLength) _ = _
      have := overlay_overlay w.ofs.buf w.ofs.pos (p.take w.hdr.dataRecordLength) (cutTo w.hdr.dataRecordLength pts).flatten
      rw [hl] at this
      rw [this]; rfl
    · rw [e6]
      show w.ofs.pos + w.hdr.dataRecordLength + _ = w.ofs.pos + ((p.take _) ++ _).length
      rw [List.length_append, hl]
      show w.ofs.pos + w.hdr.dataRecordLength + (cutTo w.hdr.dataRecordLength pts).flatten.length =
        w.ofs.pos + (w.hdr.dataRecordLength + (cutTo w.hdr.dataRecordLength pts).flatten.length)
      omega
    · rw [e7]
      show _ ++ _ ++ writesAt _ _ = _ ++ writesAt _ ((p.take _) :: cutTo _ pts)
      rw [writesAt, hl, List.append_assoc]; rfl

theorem close_buf {w : Writer} (hf : w.ofs.fail = false) : w.close.buf = overlay w.ofs.buf 107 (put 4 w.count) := by
  unfold Writer.close Writer.updatePointCount
  dsimp only
  have : (if w.count ≠ 0 then w.count else w.count) = w.count := by split <;> rfl
  rw [this, if_neg (by simp [hf])]
  unfold OStream.seek OStream.write
  simp [hf]

/-- The whole records of a region are its pieces. -/
theorem recordsFrom_eq {f : List Byte} {len : Nat} : ∀ (l : List (List Byte)) (off : Nat), (∀ p ∈ l, p.length = len) →
    slice f off l.flatten.length = l.flatten → recordsFrom f off len 0 l.length = l := by
  intro l
  induction l with
  | nil => intro off _ _; rfl
  | cons p l ih =>
    intro off hl hs
    have hp := hl p (by simp)
    have h1 : slice f off len = p := by
      have := congrArg (fun x => x.take len) hs
      simp only [List.flatten_cons] at this
      rw [List.take_left' hp] at this
      rw [← this]
      unfold slice
      rw [List.take_take, List.length_append, hp, Nat.min_eq_left (by omega)]
    have h2 : slice f (off + len) l.flatten.length = l.flatten := by
      have := congrArg (fun x => x.drop len) hs
      simp only [List.flatten_cons] at this
      rw [List.drop_left' hp] at this
      refine Eq.trans ?_ this
      unfold slice
      rw [List.drop_take, List.drop_drop, List.length_append, hp, Nat.add_sub_cancel_left]
    have := ih (off + len) (fun q hq => hl q (by simp [hq])) h2
    unfold recordsFrom at this ⊢
    rw [List.length_cons, List.range_succ_eq_map, List.map_cons, List.map_map]
    congr 1
    · unfold record; simpa using h1
    · conv_rhs => rw [← this]
      apply List.map_congr_left
      intro j _
      simp only [Function.comp, record, Nat.succ_eq_add_one]
      congr 1
      rw [Nat.zero_add, Nat.zero_add, Nat.succ_mul]; omega

/-- A file holding the header `h` and the records `recs`. -/
structure FileOf (env : Env) (h : Header) (b : List Byte) (recs : List (List Byte)) : Prop where
  readable : h.Readable
  size : 227 ≤ h.headerSize.toNat
  block : slice b 0 227 = headerBytes h
  records : slice b h.headerSize.toNat (vlrTotal h.vlrs) = h.vlrs.flatMap vlrBytes
  schema : SchemaBack env h
  fits : h.headerSize.toNat + vlrTotal h.vlrs ≤ h.dataOffset.toNat
  count : h.pointCount.toNat = recs.length
  pos : 0 < h.dataRecordLength
  len : ∀ p ∈ recs, p.length = h.dataRecordLength
  data : slice b h.dataOffset.toNat recs.flatten.length = recs.flatten

theorem Reopened.on {env : Env} {today : BitVec 16 × BitVec 16} {b : List Byte} {h : Header} {r : Reader}
    (hr : Reopened env today b h r) (h0 : 0 < h.dataRecordLength) :
    r.On b h.dataOffset.toNat h.dataRecordLength h.pointCount.toNat ∧ r.At h.dataOffset.toNat h.dataRecordLength 0 := by
  obtain ⟨srs, sch, e, -⟩ := hr.hdr
  refine ⟨⟨by rw [hr.ifs], by rw [e]; rfl, hr.recordSize, hr.recordLength, by rw [hr.point]; simp, hr.size,
    by rw [e]; rfl, h0⟩, hr.current, fun hh => absurd rfl hh⟩

/-- A file opened again. -/
theorem FileOf.read {env : Env} (today : BitVec 16 × BitVec 16) {h : Header} {b : List Byte} {recs : List (List Byte)}
    (hf : FileOf env h b recs) :
    ∃ r, Reader.make env today (IStream.onFile b) = .ok r ∧ Reopened env today b h r ∧ delivers r recs := by
  obtain ⟨r, h1, h2⟩ := reopen env today hf.readable hf.block hf.records hf.schema
  refine ⟨r, h1, h2, ?_⟩
  obtain ⟨h3, h4⟩ := h2.on hf.pos
  have hfl := flatten_length_const hf.len
  by_cases h0 : recs = []
  · subst h0
    exact Reader.readNext_end h3 h4 (by rw [hf.count]; simp)
  have hin : h.dataOffset.toNat + h.pointCount.toNat * h.dataRecordLength ≤ b.length := by
    have := congrArg List.length hf.data
    rw [slice_length] at this
    rw [hf.count, ← hfl]
    have h5 : recs.length * h.dataRecordLength ≠ 0 :=
      Nat.mul_ne_zero (by intro hh; exact h0 (List.eq_nil_of_length_eq_zero hh)) (by have := hf.pos; omega)
    omega
  have := Reader.delivers_all hin h.pointCount.toNat r 0 h3 h4 (by omega) h2.filter (by intro p hp; unfold Reader.xf; rw [h2.xform]; exact hp)
  rw [hf.count, recordsFrom_eq recs _ hf.len hf.data] at this
  have hid : r.xf = id := by funext p; unfold Reader.xf; rw [h2.xform]; rfl
  rw [hid, List.map_id] at this
  exact this

/-! Files made by a writer. -/

theorem StorableHeader.good {h : Header} (hs : StorableHeader h) : h.Good where
  signature := by rw [hs.signature]; rfl
  guid := hs.guid
  systemId := hs.systemId
  softwareId := hs.softwareId
  vlrs := fun v hv => hs.records v (by simp [hv])
  srs := fun v hv => hs.records v (by simp [hv])

theorem std_of_mem {f : PointFormat} (h : f ∈ [PointFormat.f0, .f1, .f2, .f3]) : f.std = true := by
  cases f <;> first | rfl | (exact absurd h (by decide))

theorem recordBytes_eq (vs : List VLR) : recordBytes vs = vlrTotal vs := rfl

theorem slice_overlay_block {b bs F : List Byte} {p : Nat} (hb : slice b 0 227 = F) (hF : F.length = 227)
    (hp : p + bs.length ≤ 227) : slice (overlay b p bs) 0 227 = overlay F p bs := by
  have hl : 227 ≤ b.length := by have := congrArg List.length hb; rw [slice_length, hF] at this; omega
  apply List.ext_getElem?
  intro i
  rw [slice_getElem?, overlay_getElem?, overlay_getElem?]
  have hFi : ∀ j, F[j]? = if j < 227 then b[j]? else none := by
    intro j; rw [← hb, slice_getElem?]; simp
  simp only [hFi, Nat.zero_add, hF]
  by_cases h0 : bs = []
  · simp [h0]
  · simp only [h0, if_false]
    split
    · rename_i hi
      split
      · rw [if_pos (by omega)]
      · rfl
    · rename_i hi
      rw [if_neg (by omega), if_neg (by omega)]

/-- The stream of a writer: header block, variable records, `old` records, position behind them. -/
structure Writing (env : Env) (w : Writer) (old : List (List Byte)) : Prop where
  good : w.ofs.fail = false
  readable : w.hdr.Readable
  size : 227 ≤ w.hdr.headerSize.toNat
  block : slice w.ofs.buf 0 227 = headerBytes w.hdr
  records : slice w.ofs.buf w.hdr.headerSize.toNat (vlrTotal w.hdr.vlrs) = w.hdr.vlrs.flatMap vlrBytes
  schema : SchemaBack env w.hdr
  fits : w.hdr.headerSize.toNat + vlrTotal w.hdr.vlrs ≤ w.hdr.dataOffset.toNat
  recPos : 0 < w.hdr.dataRecordLength
  len : ∀ p ∈ old, p.length = w.hdr.dataRecordLength
  data : slice w.ofs.buf w.hdr.dataOffset.toNat old.flatten.length = old.flatten
  pos : w.ofs.pos = w.hdr.dataOffset.toNat + old.flatten.length
  count : w.count.toNat = old.length

theorem slice_split {b : List Byte} {off : Nat} {x y : List Byte} (h1 : slice b off x.length = x)
    (h2 : slice b (off + x.length) y.length = y) : slice b off (x ++ y).length = x ++ y := by
  conv_rhs => rw [← h1, ← h2]
  unfold slice
  rw [List.length_append, List.take_add, List.drop_drop]

theorem slice_length_ge {b x : List Byte} {off : Nat} (h : slice b off x.length = x) (h0 : x ≠ []) : off + x.length ≤ b.length := by
  have := congrArg List.length h
  rw [slice_length] at this
  have : x.length ≠ 0 := by intro hh; exact h0 (List.eq_nil_of_length_eq_zero hh)
  omega

/-- Writing points behind the old ones and closing. -/
theorem Writing.finish {env : Env} {w : Writer} {old : List (List Byte)} (hw : Writing env w old) (pts : List (List Byte))
    (hp : ∀ p ∈ pts, w.hdr.dataRecordLength ≤ p.length) (hn : old.length + pts.length < 2 ^ 32) :
    ∃ w', w.writePoints pts = .ok w' ∧
      FileOf env { w.hdr with pointCount := w'.count } w'.close.buf (old ++ cutTo w.hdr.dataRecordLength pts) ∧
      w'.close.buf.length = max w.ofs.buf.length
        (if pts = [] then 0 else w.hdr.dataOffset.toNat + (old.length + pts.length) * w.hdr.dataRecordLength) := by
  obtain ⟨w', e1, e2, e3, e4, e5, e6, -⟩ := writePoints_ok pts w hw.recPos hw.good hp
  have hcl := cutTo_length hp
  have hfl := flatten_length_const hcl
  have hfo := flatten_length_const hw.len
  have hcn : (cutTo w.hdr.dataRecordLength pts).length = pts.length := by simp [cutTo]
  have hhl := headerBytes_length hw.readable.toSized hw.readable.returns
  have hbl : 227 ≤ w.ofs.buf.length := by
    have := congrArg List.length hw.block; rw [slice_length, hhl] at this; omega
  have hof := hw.fits
  have hsz := hw.size
  have hpos := hw.pos
  have hput : (put 4 w'.count).length = 4 := put_length _ _
  have hcount : w'.count.toNat = old.length + pts.length := by
    rw [e3, BitVec.toNat_add, hw.count, BitVec.toNat_ofNat]
    omega
  refine ⟨w', e1, ?_, ?_⟩
  · rw [close_buf e4, e5]
    have hb1 : slice (overlay w.ofs.buf w.ofs.pos (cutTo w.hdr.dataRecordLength pts).flatten) 0 227 = headerBytes w.hdr := by
      rw [slice_overlay_before (by omega) (by omega)]; exact hw.block
    constructor
    · have hr := hw.readable
      exact { hr with }
    · exact hw.size
    · rw [slice_overlay_block hb1 hhl (by rw [hput]; omega),
        headerBytes_setCount hw.readable.toSized hw.readable.returns]
    · show slice _ w.hdr.headerSize.toNat (vlrTotal w.hdr.vlrs) = w.hdr.vlrs.flatMap vlrBytes
      rw [slice_overlay_after (by rw [hput]; omega)]
      by_cases h0 : w.hdr.vlrs.flatMap vlrBytes = []
      · have := flatMap_vlrBytes_length hw.readable.wf
        rw [h0] at this ⊢
        rw [← this]; rfl
      · have hge : w.hdr.headerSize.toNat + vlrTotal w.hdr.vlrs ≤ w.ofs.buf.length := by
          have := slice_length_ge (b := w.ofs.buf) (x := w.hdr.vlrs.flatMap vlrBytes) (off := w.hdr.headerSize.toNat)
            (by rw [flatMap_vlrBytes_length hw.readable.wf]; exact hw.records) h0
          rwa [flatMap_vlrBytes_length hw.readable.wf] at this
        rw [slice_overlay_before (by omega) (by omega)]
        exact hw.records
    · exact hw.schema
    · exact hw.fits
    · show w'.count.toNat = _
      rw [hcount, List.length_append, hcn]
    · exact hw.recPos
    · intro p hp'
      rcases List.mem_append.1 hp' with h | h
      · exact hw.len p h
      · exact hcl p h
    · show slice _ w.hdr.dataOffset.toNat _ = _
      rw [slice_overlay_after (by rw [hput]; omega), List.flatten_append]
      apply slice_split
      · by_cases h0 : old.flatten = []
        · rw [h0]; rfl
        · rw [slice_overlay_before (by omega) (slice_length_ge hw.data h0)]
          exact hw.data
      · rw [slice_overlay_in (by omega) (by omega)]
        rw [show w.hdr.dataOffset.toNat + old.flatten.length - w.ofs.pos = 0 by omega, slice_self]
  · rw [close_buf e4, e5, overlay_length, if_neg (by intro hh; rw [hh] at hput; simp at hput), overlay_length, hput, hfl, hcn,
      hpos, hfo]
    by_cases h0 : pts = []
    · subst h0
      simp [cutTo]; omega
    · have : (cutTo w.hdr.dataRecordLength pts).flatten ≠ [] := by
        intro hh
        have := congrArg List.length hh
        rw [hfl, hcn] at this
        have h1 := hw.recPos
        have h2 : pts.length ≠ 0 := by intro hh; exact h0 (List.eq_nil_of_length_eq_zero hh)
        exact Nat.mul_ne_zero h2 (by omega) this
      rw [if_neg this, if_neg h0, Nat.add_mul]
      omega

/-- The header of a new file can be read. -/
theorem Started.legible {h : Header} {w : Writer} {pad : Nat} (hf : Started h w pad) (hs : StorableHeader h)
    (hsmall : h.headerSize.toNat + vlrTotal w.hdr.vlrs + 4 < 2 ^ 31) : w.hdr.Legible := by
  have e := hf.hdr
  have hd := hf.dataOffset
  have hl := length_le_total w.hdr.vlrs
  have e1 : w.hdr.headerSize = h.headerSize := by rw [e]
  have e3 : w.hdr.recordsCount = BitVec.ofNat 32 w.hdr.vlrs.length := by conv_lhs => rw [e]
  constructor
  · constructor
    · rw [e]; show h.signature.length = 4; rw [hs.signature]; rfl
    · rw [e]; exact hs.guid
    · rw [e]; exact hs.systemId
    · rw [e]; exact hs.softwareId
  · rw [e]; exact hf.returns
  · rw [e]; exact hs.signature
  · rw [e]; exact hs.major
  · rw [e]; exact hs.minor
  · rw [e1, hd]; omega
  · rw [e]; exact std_of_mem hs.format
  · rw [e3, BitVec.toNat_ofNat, Nat.mod_eq_of_lt]; omega
  · exact hf.wf

/-- A new file. -/
theorem Fresh.writing {env : Env} {h : Header} {w : Writer} {pad : Nat} (hf : Fresh env h w pad) (hs : StorableHeader h)
    (hsch : SchemaBack env w.hdr) (h0 : 0 < h.dataRecordLength) (hsmall : h.headerSize.toNat + vlrTotal w.hdr.vlrs + 4 < 2 ^ 31) :
    Writing env w [] := by
  have e := hf.hdr
  have hd := hf.dataOffset
  have e1 : w.hdr.headerSize = h.headerSize := by rw [e]
  have e2 : w.hdr.schema = h.schema := by rw [e]
  constructor
  · exact hf.good
  · exact ⟨hf.toStarted.legible hs hsmall, by rw [e]; exact hf.raw⟩
  · rw [e1]; exact hs.size
  · exact hf.block
  · rw [e1]; exact hf.records
  · exact hsch
  · rw [e1, hd]; omega
  · show 0 < w.hdr.schema.dataRecordLength
    rw [e2]; exact h0
  · intro p hp; simp at hp
  · rfl
  · rw [hf.pos]; simp
  · rw [hf.count]; rfl

/-! Appending. -/

theorem vlrBytes_canon {v : VLR} (h : v.WF) : vlrBytes v.canon = vlrBytes v := by
  have hc1 := cstr_length_le v.userId
  have hc2 := cstr_length_le v.description
  have h1 := h.1
  have h2 := h.2.1
  have hw : v.canon.WF := ⟨padTo_length (by omega), padTo_length (by omega), h.2.2⟩
  rw [vlrBytes_eq hw, vlrBytes_eq h]
  simp [VLR.canon, cstr_padTo, cstr_cstr]

theorem canon_wf {v : VLR} (h : v.WF) : v.canon.WF := by
  have hc1 := cstr_length_le v.userId
  have hc2 := cstr_length_le v.description
  have h1 := h.1
  have h2 := h.2.1
  exact ⟨padTo_length (by omega), padTo_length (by omega), h.2.2⟩

theorem flatMap_canon {l : List VLR} (h : ∀ v ∈ l, v.WF) : (l.map VLR.canon).flatMap vlrBytes = l.flatMap vlrBytes := by
  induction l with
  | nil => rfl
  | cons v l ih =>
    rw [List.map_cons, List.flatMap_cons, List.flatMap_cons, vlrBytes_canon (h v (by simp)), ih (fun w hw => h w (by simp [hw]))]

theorem overlay_zero {b F : List Byte} (hl : F.length ≤ b.length) : overlay b 0 F = F ++ b.drop F.length := by
  unfold overlay
  split
  · simp [*]
  · simp

/-- A file of exactly its records (or fewer bytes than the data offset if it has no records). -/
def Tight (h : Header) (b : List Byte) (recs : List (List Byte)) : Prop :=
  b.length ≤ h.dataOffset.toNat + recs.length * h.dataRecordLength

/-- Opening a writer on an existing file with the header read from it. -/
theorem FileOf.append {env : Env} {today : BitVec 16 × BitVec 16} {h : Header} {b : List Byte} {recs : List (List Byte)}
    (hf : FileOf env h b recs) (hns : NoSchema env h.vlrs) (ht : Tight h b recs) {r : Reader}
    (hr : Reopened env today b h r) :
    ∃ w, Writer.make env (OStream.onFile b) r.hdr = .ok w ∧ Writing env w recs ∧ NoSchema env w.hdr.vlrs ∧
      w.ofs.buf.length = b.length ∧ w.hdr.dataOffset = h.dataOffset ∧ w.hdr = r.hdr ∧
      w.hdr.dataRecordLength = h.dataRecordLength := by
  obtain ⟨srs, sch, e, hfmt⟩ := hr.hdr
  have hrd := hf.readable
  have hfmt := hfmt hns
  have hrl := hr.recordLength
  have hret : 5 ≤ r.hdr.byReturn.length := by
    rw [e]; show 5 ≤ (h.byReturn.take 5 ++ [0, 0]).length; have := hrd.returns; simp; omega
  have hc1 := cstr_length_le h.systemId
  have hc2 := cstr_length_le h.softwareId
  have hsys := hrd.toSized.systemId
  have hsof := hrd.toSized.softwareId
  have hread : r.hdr.Readable := by
    refine ⟨?_, by rw [e]; exact hrd.raw⟩
    constructor
    · constructor
      · rw [e]; rfl
      · rw [e]; simp [preHeader, HeaderWriter.guidBytes]
      · rw [e]; exact padTo_length (by omega)
      · rw [e]; exact padTo_length (by omega)
    · exact hret
    · rw [e]; rfl
    · rw [e]; rfl
    · rw [e]; exact hrd.minor
    · rw [e]; exact hrd.offset
    · rw [e]; show sch.fmt.std = true; rw [hfmt]; exact hrd.std
    · rw [e]; show h.recordsCount.toNat = (h.vlrs.map VLR.canon).length; rw [List.length_map]; exact hrd.count
    · rw [e]
      intro v hv
      obtain ⟨u, hu, rfl⟩ := List.mem_map.1 hv
      exact canon_wf (hrd.wf u hu)
  have hhl := headerBytes_length hread.toSized hret
  have hbl : 227 ≤ b.length := by
    have := congrArg List.length hf.block
    rw [slice_length, headerBytes_length hrd.toSized hrd.returns] at this; omega
  have hvl : r.hdr.vlrs = h.vlrs.map VLR.canon := by rw [e]
  have hoff : r.hdr.dataOffset = h.dataOffset := by rw [e]; rfl
  have hhs : r.hdr.headerSize = h.headerSize := by rw [e]; rfl
  have hpc : r.hdr.pointCount = h.pointCount := by rw [e]; rfl
  obtain ⟨s', f1, f2, f3, f4⟩ := OStream.writeAll_ok (HeaderWriter.fields r.hdr) ⟨b, 0, false, []⟩ rfl
  have hbuf : s'.buf = headerBytes r.hdr ++ b.drop 227 := by
    rw [f3]
    show overlay b 0 (headerBytes r.hdr) = _
    rw [overlay_zero (by omega), hhl]
  have hblen : s'.buf.length = b.length := by rw [hbuf, List.length_append, hhl, List.length_drop]; omega
  have hslice : ∀ o k, 227 ≤ o → slice s'.buf o k = slice b o k := by
    intro o k ho
    rw [hbuf, slice_append_right (by omega), hhl]
    unfold slice
    rw [List.drop_drop]
    rw [Nat.add_sub_cancel' ho]
  have hmake : Writer.make env (OStream.onFile b) r.hdr = .ok ⟨HeaderWriter.finalSeek s' r.hdr.pointCount r.hdr, r.hdr, r.hdr.pointCount⟩ := by
    unfold Writer.make HeaderWriter.write OStream.onFile
    rw [OStream.seekEnd_eq rfl]
    dsimp only
    rw [if_pos ⟨rfl, by omega⟩]
    unfold HeaderWriter.writeAppend HeaderWriter.writeFields
    rw [OStream.seek_eq rfl, if_neg (by omega)]
    dsimp only
    have f1' : OStream.writeAll { buf := b, pos := 0, fail := false, log := [] } (HeaderWriter.fields r.hdr) = .ok s' := f1
    rw [f1']
    rfl
  have hfl := flatten_length_const hf.len
  refine ⟨_, hmake, ?_, ?_, ?_, hoff, rfl, hrl⟩
  · have hfs : HeaderWriter.finalSeek s' r.hdr.pointCount r.hdr =
        { s' with pos := h.dataOffset.toNat + recs.flatten.length } := by
      unfold HeaderWriter.finalSeek
      rw [hpc, hoff]
      split
      · rename_i hne
        rw [OStream.seekEnd_eq f2, hblen]
        have h1 : recs ≠ [] := by
          rintro rfl
          apply hne
          apply BitVec.eq_of_toNat_eq
          rw [hf.count]; rfl
        have h2 : recs.flatten ≠ [] := by
          intro hh
          have h3 := congrArg List.length hh
          rw [hfl] at h3
          exact Nat.mul_ne_zero (by intro hh; exact h1 (List.eq_nil_of_length_eq_zero hh)) (by have := hf.pos; omega) h3
        have h3 := slice_length_ge hf.data h2
        unfold Tight at ht
        rw [hfl] at h3 ⊢
        congr 1; omega
      · rename_i hne
        have h1 : recs = [] := by
          apply List.eq_nil_of_length_eq_zero
          rw [← hf.count]; simp only [ne_eq, Decidable.not_not] at hne; rw [hne]; rfl
        rw [OStream.seek_eq f2, h1]
        simp
    constructor
    · dsimp only; rw [hfs]; exact f2
    · exact hread
    · dsimp only; rw [hhs]; exact hf.size
    · dsimp only; rw [hfs]
      show slice s'.buf 0 227 = _
      rw [hbuf, slice_append_left (by omega), ← hhl, slice_self]
    · dsimp only; rw [hfs, hhs, hvl]
      show slice s'.buf _ _ = _
      rw [vlrTotal_canon, flatMap_canon hrd.wf, hslice _ _ hf.size]
      exact hf.records
    · left
      dsimp only; rw [hvl]
      unfold NoSchema; rw [schemaFromVLRs_canon]; exact hns
    · dsimp only; rw [hvl, hhs, hoff, vlrTotal_canon]; exact hf.fits
    · dsimp only; rw [hrl]; exact hf.pos
    · dsimp only; rw [hrl]; exact hf.len
    · dsimp only; rw [hfs, hoff]
      show slice s'.buf _ _ = _
      rw [hslice _ _ (by have := hf.fits; have := hf.size; omega)]
      exact hf.data
    · dsimp only; rw [hfs, hoff]
    · dsimp only; rw [hpc]; exact hf.count
  · dsimp only; rw [hvl]
    unfold NoSchema; rw [schemaFromVLRs_canon]; exact hns
  · dsimp only
    unfold HeaderWriter.finalSeek
    split
    · rw [OStream.seekEnd_eq f2]; exact hblen
    · rw [OStream.seek_eq f2]; exact hblen

end LibLAS
