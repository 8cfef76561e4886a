import Verif.Lemmas.Open
namespace LibLAS
open Spec HeaderReader Schema

/-- A header whose fields the reader accepts, in a compressed file or not. -/
structure Header.Legible (h : Header) : Prop extends Header.Sized h where
  returns : 5 ≤ h.byReturn.length
  signature' : h.signature = lit "LASF"
  major : h.verMajor = 1
  minor : h.verMinor.toNat ≤ 3
  offset : h.headerSize.toNat ≤ h.dataOffset.toNat
  std : h.schema.fmt.std = true
  count : h.recordsCount.toNat = h.vlrs.length
  wf : ∀ v ∈ h.vlrs, v.WF

/-- A header of an uncompressed file whose fields the reader accepts. -/
structure Header.Readable (h : Header) : Prop extends Header.Legible h where
  raw : h.compressed = false

/-- The source id and the reserved field as they come back: version 1.0 has one field instead. -/
def readSource (h : Header) : BitVec 16 := if h.verMinor = 0 then h.reserved else h.sourceId
def readReserved (h : Header) : BitVec 16 := if h.verMinor = 0 then 0 else h.reserved

/-- The header as the reader sees it before the variable records. -/
def preHeader (today : BitVec 16 × BitVec 16) (h : Header) (sch : Schema) : Header :=
  { Header.new today.1 today.2 with
    sourceId := readSource h
    reserved := readReserved h
    guid := HeaderWriter.guidBytes h.guid
    verMajor := 1
    verMinor := h.verMinor
    systemId := padTo 32 (cstr h.systemId)
    softwareId := padTo 32 (cstr h.softwareId)
    doy := h.doy
    year := h.year
    headerSize := h.headerSize
    dataOffset := h.dataOffset
    recordsCount := h.recordsCount
    compressed := h.compressed
    schema := sch
    pointCount := h.pointCount
    byReturn := h.byReturn.take 5 ++ [0, 0]
    scale := h.scale
    offset := h.offset
    max := h.max
    min := h.min }

theorem cstr_lasf : padTo 4 (cstr ((lit "LASF").take 4)) = lit "LASF" := by decide +kernel

theorem setFileSignature_lasf (d y : BitVec 16) :
    HeaderReader.set ((Header.new d y).setFileSignature (lit "LASF")) = .ok (Header.new d y) := by
  unfold Header.setFileSignature
  rw [if_neg (by simp [lit]), cstr_lasf]
  rfl

theorem slice_of_block {b F : List Byte} (hb : slice b 0 227 = F) {off k : Nat} (h : off + k ≤ 227) :
    slice b off k = slice F off k := by
  rw [← hb, slice_slice h, Nat.zero_add]

theorem got_put8 (v : BitVec 8) : got 8 (put 1 v) = v := got_put 1 v
theorem got_put16 (v : BitVec 16) : got 16 (put 2 v) = v := got_put 2 v
theorem got_put32 (v : BitVec 32) : got 32 (put 4 v) = v := got_put 4 v
theorem got_put64 (v : BitVec 64) : got 64 (put 8 v) = v := got_put 8 v

theorem slice_all {b : List Byte} {n : Nat} (h : b.length = n) : slice b 0 n = b := by rw [← h, slice_self]

theorem returns_slice (l : List (BitVec 32)) (hl : l.length = 5) :
    (List.range 5).map (fun j => got 32 (slice (l.flatMap (put 4)) (4 * j) 4)) = l := by
  match l, hl with
  | [a, b, c, d, e], _ =>
    have key : ∀ i (x : BitVec 32), [a, b, c, d, e][i]? = some x →
        got 32 (slice ([a, b, c, d, e].flatMap (put 4)) (4 * i) 4) = x := by
      intro i x hx
      have h1 := slice_flatten ([a, b, c, d, e].map (put 4)) i (put 4 x) (by rw [List.getElem?_map, hx]; rfl)
      have h2 : (List.take i (List.map List.length (List.map (put 4) [a, b, c, d, e]))).sum = 4 * i := by
        have hlt : i < 5 := (List.getElem?_eq_some_iff.1 hx).1
        simp only [List.map_cons, List.map_nil, put_length]
        rcases (by omega : i = 0 ∨ i = 1 ∨ i = 2 ∨ i = 3 ∨ i = 4) with rfl | rfl | rfl | rfl | rfl <;> rfl
      rw [h2, put_length] at h1
      rw [List.flatMap_def, h1, got_put32]
    simp only [List.range_succ, List.range_zero, List.nil_append, List.map_cons, List.map_nil, List.cons_append]
    rw [key 0 a rfl, key 1 b rfl, key 2 c rfl, key 3 d rfl, key 4 e rfl]

theorem fmt_code (f : PointFormat) (hf : f.std = true) (z : Bool) :
    compressionOf (if z then f.code ||| 0x80 else f.code) = .ok z ∧
      formatOf ((if z then f.code ||| 0x80 else f.code) &&& 0x3f) = .ok f := by
  cases f <;> cases z <;> first | (exact absurd hf (by decide)) | decide

theorem low_bytes (v : BitVec 16) : slice (put 4 (v.setWidth 32)) 0 2 = put 2 v ∧ slice (put 4 (v.setWidth 32)) 2 2 = put 2 (0 : BitVec 16) := by
  constructor <;>
  · simp only [slice, put, writeScalar, swapN, memBytes, List.range_succ, List.range_zero, List.nil_append,
      List.map_cons, List.map_nil, List.cons_append]
    simp
    constructor <;>
    · apply BitVec.eq_of_getLsbD_eq
      intro i hi
      have h1 : i < 32 := by omega
      have h2 : 8 + i < 32 := by omega
      have h3 : 16 ≤ 24 + i := by omega
      simp [BitVec.getLsbD_extractLsb', BitVec.getLsbD_setWidth, h1, h2, BitVec.getLsbD_of_ge _ _ h3]

/-- The header block read back, up to the variable records. -/
theorem reopen_block (env : Env) (today : BitVec 16 × BitVec 16) {b : List Byte} {h : Header} (hr : h.Legible)
    (hblk : slice b 0 227 = headerBytes h) :
    ∃ sch, Laid sch (stdL h.schema.fmt) ∧ sch.fmt = h.schema.fmt ∧ sch.nextPos ≤ 16 ∧
      readHeader env ⟨b, 0, false, false⟩ (Header.new today.1 today.2) = (do
        let (s, h') ← readVLRsIfAny env ⟨b, 227, false, false⟩ (preHeader today h sch)
        let vlr ← h'.vlrBlockSize
        let h' := { h' with padding := h'.dataOffset - (h'.headerSize.setWidth 32 + vlr) }
        let s := if s.eof then s.clear else s
        let s := s.seek h'.dataOffset.toNat
        let h' ← addExtra h' h.dataRecordLength
        pure (s, h')) := by
  have hs := hr.toSized
  have h5 := hr.returns
  have hlen : 227 ≤ b.length := by
    have := congrArg List.length hblk
    rw [slice_length, headerBytes_length hs h5] at this; omega
  obtain ⟨sch, m1, m2, m3, m4⟩ := new_setDataFormatId today.1 today.2 h.schema.fmt hr.std
  have h16 := (stdBase_facts h.schema.fmt h.schema.fmt hr.std).2.2.2.2.1
  refine ⟨sch, m2, m3, by omega, ?_⟩
  rw [readHeader_eq env b 0 _ hlen]
  have F : ∀ (i : Nat) (bs : List Byte) (off k : Nat), (fieldsG h)[i]? = some bs →
      (([4, 4, 16, 1, 1, 32, 32, 2, 2, 2, 4, 4, 1, 2, 4, 20, 8, 8, 8, 8, 8, 8, 8, 8, 8, 8, 8, 8] : List Nat).take i).sum = off →
      ([4, 4, 16, 1, 1, 32, 32, 2, 2, 2, 4, 4, 1, 2, 4, 20, 8, 8, 8, 8, 8, 8, 8, 8, 8, 8, 8, 8] : List Nat)[i]? = some k →
      off + k ≤ 227 → slice b off k = bs := by
    intro i bs off k h1 h2 h3 h4
    rw [slice_of_block hblk h4]
    exact field_at hs h5 i bs h1 off k h2 h3
  have f0 := F 0 _ 0 4 rfl rfl rfl (by omega)
  have f1 := F 1 _ 4 4 rfl rfl rfl (by omega)
  have f2 := F 2 _ 8 16 rfl rfl rfl (by omega)
  have f3 := F 3 _ 24 1 rfl rfl rfl (by omega)
  have f4 := F 4 _ 25 1 rfl rfl rfl (by omega)
  have f5 := F 5 _ 26 32 rfl rfl rfl (by omega)
  have f6 := F 6 _ 58 32 rfl rfl rfl (by omega)
  have f7 := F 7 _ 90 2 rfl rfl rfl (by omega)
  have f8 := F 8 _ 92 2 rfl rfl rfl (by omega)
  have f9 := F 9 _ 94 2 rfl rfl rfl (by omega)
  have f10 := F 10 _ 96 4 rfl rfl rfl (by omega)
  have f11 := F 11 _ 100 4 rfl rfl rfl (by omega)
  have f12 := F 12 _ 104 1 rfl rfl rfl (by omega)
  have f13 := F 13 _ 105 2 rfl rfl rfl (by omega)
  have f14 := F 14 _ 107 4 rfl rfl rfl (by omega)
  have f15 := F 15 _ 111 20 rfl rfl rfl (by omega)
  have f16 := F 16 _ 131 8 rfl rfl rfl (by omega)
  have f17 := F 17 _ 139 8 rfl rfl rfl (by omega)
  have f18 := F 18 _ 147 8 rfl rfl rfl (by omega)
  have f19 := F 19 _ 155 8 rfl rfl rfl (by omega)
  have f20 := F 20 _ 163 8 rfl rfl rfl (by omega)
  have f21 := F 21 _ 171 8 rfl rfl rfl (by omega)
  have f22 := F 22 _ 179 8 rfl rfl rfl (by omega)
  have f23 := F 23 _ 187 8 rfl rfl rfl (by omega)
  have f24 := F 24 _ 195 8 rfl rfl rfl (by omega)
  have f25 := F 25 _ 203 8 rfl rfl rfl (by omega)
  have f26 := F 26 _ 211 8 rfl rfl rfl (by omega)
  have f27 := F 27 _ 219 8 rfl rfl rfl (by omega)
  have g4 : slice b 4 2 = slice (sourceBytes h) 0 2 := by rw [← f1, slice_slice (by omega)]
  have g6 : slice b 6 2 = slice (sourceBytes h) 2 2 := by rw [← f1, slice_slice (by omega)]
  have s4 : got 16 (slice b 4 2) = readSource h := by
    rw [g4]; unfold sourceBytes readSource
    split
    · rw [(low_bytes _).1, got_put16]
    · rw [slice_append_left (by rw [put_length]), slice_all (put_length _ _), got_put16]
  have s6 : got 16 (slice b 6 2) = readReserved h := by
    rw [g6]; unfold sourceBytes readReserved
    split
    · rw [(low_bytes _).2, got_put16]
    · rw [slice_append_right (by rw [put_length]), put_length, Nat.sub_self, slice_all (put_length _ _), got_put16]
  have hfc := fmt_code h.schema.fmt hr.std h.compressed
  have hret : ∀ g : Header, 5 ≤ g.byReturn.length →
      returnsOf b g = .ok { g with byReturn := h.byReturn.take 5 ++ g.byReturn.drop 5 } := by
    intro g hg
    unfold returnsOf
    rw [if_pos hg]
    congr 3
    have := returns_slice (h.byReturn.take 5) (by rw [List.length_take]; omega)
    rw [← this, ← f15]
    simp only [List.range_succ, List.range_zero, List.nil_append, List.map_cons, List.map_nil, List.cons_append]
    rw [slice_slice (by omega), slice_slice (by omega), slice_slice (by omega), slice_slice (by omega), slice_slice (by omega)]
  have e1 : HeaderReader.set ((Header.new today.1 today.2).setFileSignature (slice b 0 4)) = .ok (Header.new today.1 today.2) := by
    rw [f0, hr.signature', setFileSignature_lasf]
  have hm1 : ∀ g : Header, HeaderReader.set (g.setVersionMajor (got 8 (slice b 24 1))) = .ok { g with verMajor := 1 } := by
    intro g; rw [f3, got_put8, hr.major]; rfl
  have hm2 : ∀ g : Header, HeaderReader.set (g.setVersionMinor (got 8 (slice b 25 1))) = .ok { g with verMinor := h.verMinor } := by
    intro g; rw [f4, got_put8]; unfold Header.setVersionMinor
    rw [if_neg (by have := hr.minor; omega)]; rfl
  have hc1 := cstr_length_le h.systemId
  have hc2 := cstr_length_le h.softwareId
  have hz1 := hs.systemId
  have hz2 := hs.softwareId
  have hm3 : ∀ g : Header, HeaderReader.set (g.setSystemId (slice b 26 32)) = .ok { g with systemId := padTo 32 (cstr h.systemId) } := by
    intro g
    have : h.getSystemId true = padTo 32 (cstr h.systemId) := padded_eq hs.systemId
    rw [f5, this]; unfold Header.setSystemId
    rw [if_neg (by rw [padTo_length (by omega)]; omega), cstr_padTo, cstr_cstr, List.take_of_length_le (by omega)]; rfl
  have hm4 : ∀ g : Header, HeaderReader.set (g.setSoftwareId (slice b 58 32)) = .ok { g with softwareId := padTo 32 (cstr h.softwareId) } := by
    intro g
    have : h.getSoftwareId true = padTo 32 (cstr h.softwareId) := padded_eq hs.softwareId
    rw [f6, this]; unfold Header.setSoftwareId
    rw [if_neg (by rw [padTo_length (by omega)]; omega), cstr_padTo, cstr_cstr, List.take_of_length_le (by omega)]; rfl
  rw [e1, Outcome.bind_ok]
  dsimp only
  rw [hm1, Outcome.bind_ok, hm2, Outcome.bind_ok, hm3, Outcome.bind_ok, hm4, Outcome.bind_ok]
  have hno : ¬ h.dataOffset.toNat < h.headerSize.toNat := by have := hr.offset; omega
  simp only [f10, f9, f12, got_put32, got_put16, got_put8, hfc.1, hfc.2, Outcome.bind_ok]
  rw [if_neg hno]
  have hset : ∀ g : Header, g.schema = (Header.new today.1 today.2).schema →
      HeaderReader.set (g.setDataFormatId h.schema.fmt) = .ok { g with schema := sch } := by
    intro g hg
    unfold Header.setDataFormatId
    rw [hg, m1]; rfl
  rw [hset]
  swap
  · rfl
  rw [Outcome.bind_ok, hret _ (by show 5 ≤ (List.replicate 7 (0 : BitVec 32)).length; simp), Outcome.bind_ok]
  have hrl : (BitVec.ofNat 16 h.dataRecordLength).toNat = h.dataRecordLength := by
    rw [BitVec.toNat_ofNat]; exact Nat.mod_eq_of_lt (Nat.mod_lt _ (by norm_num))
  simp only [f2, f7, f8, f11, f13, f14, f16, f17, f18, f19, f20, f21, f22, f23, f24, f25, f26, f27, s4, s6, got_put16,
    got_put32, got_put64, hrl]
  rfl


theorem canon_isSchema (v : VLR) : v.canon.isSchema = v.isSchema := by
  unfold VLR.isSchema VLR.getUserId VLR.canon
  simp [cstr_padTo, cstr_cstr]

theorem find_canon (l : List VLR) : (l.map VLR.canon).find? VLR.isSchema = (l.find? VLR.isSchema).map VLR.canon := by
  induction l with
  | nil => rfl
  | cons v l ih =>
    rw [List.map_cons, List.find?_cons, List.find?_cons, canon_isSchema, ih]
    cases v.isSchema <;> rfl

theorem schemaFromVLRs_canon (env : Env) (l : List VLR) : schemaFromVLRs env (l.map VLR.canon) = schemaFromVLRs env l := by
  unfold schemaFromVLRs
  rw [find_canon]
  cases l.find? VLR.isSchema <;> rfl

theorem canon_totalSize (v : VLR) : v.canon.totalSize = v.totalSize := rfl

theorem vlrTotal_canon (l : List VLR) : vlrTotal (l.map VLR.canon) = vlrTotal l := by
  unfold vlrTotal; rw [List.map_map]; rfl

/-- The schema information in the file leads back to records of the stored length: either there is no readable
schema record, or the first one is understood and describes records of that length. -/
def SchemaBack (env : Env) (h : Header) : Prop :=
  NoSchema env h.vlrs ∨
  ∃ S L, schemaFromVLRs env h.vlrs = .ok S ∧ Laid S L ∧ "X" ∈ L.map Dim.name ∧
    "Y" ∈ L.map Dim.name ∧ "Z" ∈ L.map Dim.name ∧ S.nextPos + 3 < 2 ^ 32 ∧ S.byteSize = h.dataRecordLength

/-- What a reader opened on the file knows. -/
structure Reopened (env : Env) (today : BitVec 16 × BitVec 16) (b : List Byte) (h : Header) (r : Reader) : Prop where
  ifs : r.ifs = ⟨b, 0, false, false⟩
  current : r.current = 0
  filter : r.filter = none
  xform : r.xform = none
  size : r.size = h.pointCount.toNat
  recordLength : r.hdr.dataRecordLength = h.dataRecordLength
  recordSize : r.recordSize = h.dataRecordLength
  point : r.point = List.replicate h.dataRecordLength 0#8
  hdr : ∃ srs sch, r.hdr = { preHeader today h sch with
    vlrs := h.vlrs.map VLR.canon
    srs := srs
    padding := h.dataOffset - (h.headerSize.setWidth 32 + BitVec.ofNat 32 (vlrTotal h.vlrs)) } ∧
    (NoSchema env h.vlrs → sch.fmt = h.schema.fmt)

theorem addExtra_same {g : Header} {rl : Nat} (h : g.dataRecordLength = rl) : addExtra g rl = .ok g := by
  unfold addExtra; rw [if_neg (by simpa using h)]; rfl

theorem reopen_header (env : Env) (today : BitVec 16 × BitVec 16) {b : List Byte} {h : Header} (hr : h.Legible)
    (hblk : slice b 0 227 = headerBytes h)
    (hrec : slice b h.headerSize.toNat (vlrTotal h.vlrs) = h.vlrs.flatMap vlrBytes) (hsch : SchemaBack env h) :
    ∃ srs8 sch9 s9, readHeader env ⟨b, 0, false, false⟩ (Header.new today.1 today.2) = .ok (s9, { preHeader today h sch9 with
        vlrs := h.vlrs.map VLR.canon, srs := srs8,
        padding := h.dataOffset - (h.headerSize.setWidth 32 + BitVec.ofNat 32 (vlrTotal h.vlrs)) }) ∧ s9.buf = b ∧
      sch9.byteSize = h.dataRecordLength ∧ sch9.dataRecordLength = h.dataRecordLength ∧
      (NoSchema env h.vlrs → sch9.fmt = h.schema.fmt) := by
  obtain ⟨sch, m1, m2, m3, hread⟩ := reopen_block env today hr hblk
  have hrl : h.dataRecordLength < 2 ^ 16 := Nat.mod_lt _ (by norm_num)
  have hstd : StdSchema sch := ⟨by rw [m2]; exact hr.std, by rw [m2]; exact m1, by omega⟩
  -- the records
  have hvl : ∃ s8 srs8 sch8, readVLRsIfAny env ⟨b, 227, false, false⟩ (preHeader today h sch) =
      .ok (s8, { preHeader today h sch with vlrs := h.vlrs.map VLR.canon, srs := srs8, schema := sch8 }) ∧ s8.buf = b ∧
      ((NoSchema env h.vlrs ∧ StdSchema sch8 ∧ sch8.nextPos ≤ 19 ∧ sch8.fmt = h.schema.fmt) ∨
       (sch8.byteSize = h.dataRecordLength ∧ ¬ NoSchema env h.vlrs)) := by
    unfold readVLRsIfAny
    by_cases h0 : (preHeader today h sch).recordsCount.toNat > 0
    · rw [if_pos h0]
      have h0' : h.recordsCount.toNat > 0 := h0
      unfold readVLRs
      dsimp only
      have hseek : (if (⟨b, 227, false, false⟩ : IStream).eof = true then (⟨b, 227, false, false⟩ : IStream).clear else
          ⟨b, 227, false, false⟩).seek (preHeader today h sch).headerSize.toNat = ⟨b, h.headerSize.toNat, false, false⟩ := rfl
      rw [hseek]
      have hcount : (preHeader today h sch).recordsCount.toNat = h.vlrs.length := hr.count
      rw [hcount]
      have hdrop : b.drop h.headerSize.toNat = h.vlrs.flatMap vlrBytes ++ (b.drop h.headerSize.toNat).drop (vlrTotal h.vlrs) := by
        rw [← hrec]; unfold slice; exact (List.take_append_drop _ _).symm
      have hloop := readVLRLoop_ok h.vlrs hr.wf ⟨b, h.headerSize.toNat, false, false⟩
        { preHeader today h sch with recordsCount := 0 } (List.replicate 54 env.junk) _ rfl rfl (by simp) hdrop
      rw [hloop]
      simp only [Outcome.bind_ok]
      have hrc : (0 : BitVec 32) + BitVec.ofNat 32 h.vlrs.length = h.recordsCount := by
        rw [← hr.count]; simp
      have hpv : (preHeader today h sch).vlrs = [] := rfl
      rw [hpv, hrc]
      simp only [List.nil_append]
      -- schema
      unfold adoptSchema
      simp only [Header.setSRS]
      rw [schemaFromVLRs_canon]
      rcases hsch with hnone | ⟨S, L, hp, hL, hx, hy, hz, hnp, hbs⟩
      · obtain ⟨x, hx1, hx2⟩ := hnone
        rw [hx1]
        simp only [hx2, if_true]
        unfold defaultSchema
        obtain ⟨s, k1, k2, k3, k4⟩ := make_std h.schema.fmt hr.std
        dsimp only [preHeader]
        rw [m2, k1]
        simp only [Outcome.bind_ok]
        obtain ⟨s', a1, a2, a3, a4⟩ := k2.setSchema (by omega) { preHeader today h sch with
          vlrs := h.vlrs.map VLR.canon, srs := (h.vlrs.map VLR.canon).filter VLR.isGeo }
        dsimp only [preHeader] at a1
        rw [a1]
        refine ⟨⟨b, _, false, false⟩, _, s', rfl, rfl, Or.inl ⟨⟨x, hx1, hx2⟩, a2, by omega, by rw [a3, k3]⟩⟩
      · rw [hp]
        simp only
        obtain ⟨s', a1, a2, a3, a4⟩ := hL.setSchema hx hy hz hnp { preHeader today h sch with
          vlrs := h.vlrs.map VLR.canon, srs := (h.vlrs.map VLR.canon).filter VLR.isGeo }
        dsimp only [preHeader] at a1 ⊢
        rw [a1]
        refine ⟨⟨b, _, false, false⟩, _, s', rfl, rfl, Or.inr ⟨?_, by rintro ⟨x, hx1, -⟩; rw [hp] at hx1; cases hx1⟩⟩
        rw [← hbs]
        unfold Schema.byteSize
        rw [a2.bits_eq, hL.bits_eq]
    · rw [if_neg h0]
      have h0' : h.vlrs.length = 0 := by have : ¬ h.recordsCount.toNat > 0 := h0; have := hr.count; omega
      have hnil : h.vlrs = [] := List.eq_nil_of_length_eq_zero h0'
      refine ⟨⟨b, 227, false, false⟩, [], sch, ?_, rfl, Or.inl ⟨by rw [hnil]; exact noSchema_none rfl, hstd, by omega, m2⟩⟩
      rw [hnil]; rfl
  obtain ⟨s8, srs8, sch8, v1, v2, v3⟩ := hvl
  rw [v1] at hread
  simp only [Outcome.bind_ok] at hread
  rw [vlrBlockSize_ok (by show h.recordsCount.toNat = (h.vlrs.map VLR.canon).length; rw [List.length_map]; exact hr.count)] at hread
  simp only [Outcome.bind_ok] at hread
  rw [vlrTotal_canon] at hread
  have hex : ∃ sch9, addExtra { preHeader today h sch with
      vlrs := h.vlrs.map VLR.canon, srs := srs8, schema := sch8,
      padding := h.dataOffset - (h.headerSize.setWidth 32 + BitVec.ofNat 32 (vlrTotal h.vlrs)) } h.dataRecordLength =
      .ok { preHeader today h sch9 with
        vlrs := h.vlrs.map VLR.canon, srs := srs8,
        padding := h.dataOffset - (h.headerSize.setWidth 32 + BitVec.ofNat 32 (vlrTotal h.vlrs)) } ∧
      sch9.byteSize = h.dataRecordLength ∧ sch9.dataRecordLength = h.dataRecordLength ∧
      (NoSchema env h.vlrs → sch9.fmt = h.schema.fmt) := by
    rcases v3 with ⟨hn, w1, w2, w3⟩ | ⟨w1, w2⟩
    · obtain ⟨s', x1, x2, x3, x4, -⟩ := addExtra_std (g := { preHeader today h sch with
        vlrs := h.vlrs.map VLR.canon, srs := srs8, schema := sch8,
        padding := h.dataOffset - (h.headerSize.setWidth 32 + BitVec.ofNat 32 (vlrTotal h.vlrs)) })
        w1 (by show sch8.nextPos ≤ 90; omega) h.dataRecordLength hrl
      exact ⟨s', x1, x3, x4, fun _ => by rw [x2]; exact w3⟩
    · refine ⟨sch8, addExtra_same ?_, w1, ?_, fun hh => absurd hh w2⟩
      · show sch8.dataRecordLength = _
        unfold Schema.dataRecordLength; rw [w1]; exact Nat.mod_eq_of_lt hrl
      · unfold Schema.dataRecordLength; rw [w1]; exact Nat.mod_eq_of_lt hrl
  obtain ⟨sch9, y1, y2, y3, y4⟩ := hex
  have hread2 : ∃ s9, readHeader env ⟨b, 0, false, false⟩ (Header.new today.1 today.2) = .ok (s9, { preHeader today h sch9 with
        vlrs := h.vlrs.map VLR.canon, srs := srs8,
        padding := h.dataOffset - (h.headerSize.setWidth 32 + BitVec.ofNat 32 (vlrTotal h.vlrs)) }) ∧ s9.buf = b := by
    rw [hread]
    dsimp only [preHeader] at y1 ⊢
    rw [y1]
    refine ⟨_, rfl, ?_⟩
    unfold IStream.seek IStream.clear
    split <;> split <;> exact v2
  obtain ⟨s9, z1, z2⟩ := hread2
  exact ⟨srs8, sch9, s9, z1, z2, y2, y3, y4⟩

theorem reopen (env : Env) (today : BitVec 16 × BitVec 16) {b : List Byte} {h : Header} (hr : h.Readable)
    (hblk : slice b 0 227 = headerBytes h)
    (hrec : slice b h.headerSize.toNat (vlrTotal h.vlrs) = h.vlrs.flatMap vlrBytes) (hsch : SchemaBack env h) :
    ∃ r, Reader.make env today (IStream.onFile b) = .ok r ∧ Reopened env today b h r := by
  obtain ⟨srs8, sch9, s9, z1, z2, y2, y3, y4⟩ := reopen_header env today hr.toLegible hblk hrec hsch
  have hif : (if (IStream.onFile b).eof then (IStream.onFile b).clear else IStream.onFile b) = ⟨b, 0, false, false⟩ := rfl
  unfold Reader.make
  rw [hif]
  dsimp only
  rw [z1]
  simp only [Outcome.bind_ok]
  rw [if_neg (by show ¬ (h.compressed = true); rw [hr.raw]; decide)]
  refine ⟨_, rfl, ?_⟩
  constructor
  · show s9.clear.seek 0 = _
    unfold IStream.clear IStream.seek
    rw [z2]; rfl
  · rfl
  · rfl
  · rfl
  · rfl
  · exact y3
  · exact y2
  · show List.replicate sch9.dataRecordLength 0#8 = _
    rw [y3]
  · exact ⟨srs8, sch9, rfl, y4⟩

end LibLAS
