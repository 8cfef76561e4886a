import Verif.Lemmas.ZipWriter
import Verif.Props.ZipCases
import Verif.Props.WriteRead
/-
C76: points written compressed are read back.
-/
namespace LibLAS
open Spec HeaderWriter

variable {z : LASzip}

/-- What a compressed file that was written and closed shows to a reader. -/
structure ReadBack (z : LASzip) (env : Env) (today : BitVec 16 × BitVec 16) (file : List Byte) (h : Header) (rs : List (List Byte))
    (r : ZipReader z) : Prop where
  opened : ZipReader.make z env today (IStream.onFile file) = .ok r
  all : zipDelivers r rs
  session : ∀ ops, cursorSession rs 0 [] r ops
  count : r.hdr.pointCount.toNat = rs.length
  format : r.hdr.schema.fmt = h.schema.fmt
  compressed : r.hdr.compressed = true
  scale : r.hdr.scale = h.scale
  offset : r.hdr.offset = h.offset
  min : r.hdr.min = h.min
  max : r.hdr.max = h.max
  minor : r.hdr.verMinor = h.verMinor
  byReturn : r.hdr.byReturn.take 5 = h.byReturn.take 5
  recordLength : r.hdr.dataRecordLength = h.dataRecordLength

/-- C76: with a LASzip that keeps its contract, points of the packed length written to a new compressed file and closed are
read back exactly, in any session, with the header's count, format, scale, offset, extent, counts by return and record
length. -/
theorem compressed_round_trip (env : Env) (today : BitVec 16 × BitVec 16) (b : Build) {h : Header} {w : ZipWriter z}
    (hs : StorableHeader h) (hz : h.compressed = true) (hu : UsualPacking z h)
    (hmk : ZipWriter.make z env (OStream.onFile []) h = .ok w)
    (hpk : Packs z w.config) (hd : Described z w.config)
    (hsmall : h.headerSize.toNat + recordBytes w.hdr.vlrs + 4 < 2 ^ 31)
    (hschema : NoSchema env w.hdr.vlrs)
    (ps : List Point) (hp : ∀ p ∈ ps, p.data.length = z.size w.config) (hn : ps.length < 2 ^ 32) :
    ∃ w', w.writePoints b ps = .ok w' ∧ ∃ r, ReadBack z env today w'.close.buf h (ps.map Point.data) r := by
  obtain ⟨W, hw⟩ := hpk
  unfold ZipWriter.make at hmk
  obtain ⟨c, ec, hmk⟩ := bind_eq_ok hmk
  obtain ⟨⟨s5, n5, h5⟩, eh, hmk⟩ := bind_eq_ok hmk
  dsimp only at hmk
  -- the packing is the usual one
  have hset : z.setup h.schema.fmt = some c := by
    unfold Zip.zipPoint at ec
    split at ec
    · cases ec
    · split at ec
      · rename_i v hv
        have hm := List.mem_of_find?_eq_some hv
        have hi := List.find?_some hv
        rw [Zip.isZipVLR_eq] at hi
        simp only [Bool.and_eq_true, beq_iff_eq] at hi
        obtain ⟨h1, h2⟩ := hu v hm hi.1 hi.2
        rw [if_neg h1, h2] at ec
        split at ec
        · rename_i c' hc'; injection ec with ec; rw [hc', ec]
        · cases ec
      · split at ec
        · rename_i c' hc'; injection ec with ec; rw [hc', ec]
        · cases ec
  split at hmk
  · cases hmk
  rename_i u s ho
  injection hmk with hmk
  have hcfg : w.config = c := by rw [← hmk]
  have hwh : w.hdr = h5 := by rw [← hmk]
  rw [hcfg] at hw hd hp
  rw [hwh] at hsmall hschema
  -- the header block
  have e1 : (Zip.prepareVLRs z env h >>= fun h => writeRest (OStream.onFile []) 0 h) = .ok (s5, n5, h5) := by
    unfold Zip.writeHeader at eh
    simpa [OStream.onFile, OStream.seekEnd] using eh
  obtain ⟨h1, ep, e1⟩ := bind_eq_ok e1
  obtain ⟨l, c', hno, hset', hwf, hh1⟩ := Zip.prepareVLRs_ok (StorableHeader.good hs) hz ep (by
    intro c' hc'
    rw [hset] at hc'
    injection hc' with hc'
    rw [← hc']; exact hd.2.1)
  rw [hset] at hset'
  injection hset' with hset'
  subst hset'
  rw [recordBytes_eq] at hsmall
  obtain ⟨hl5, pad, hst⟩ := started_file (StorableHeader.good hs) hs.size hh1 hwf e1 hsmall
  have hleg : h5.Legible := hst.legible hs hsmall
  have e0 : h5 = { h with vlrs := h5.vlrs, recordsCount := BitVec.ofNat 32 h5.vlrs.length, padding := BitVec.ofNat 32 pad, dataOffset := h5.dataOffset } := hst.hdr
  have hhs : h5.headerSize = h.headerSize := by rw [e0]
  have h227 : 227 ≤ h5.headerSize.toNat := by rw [hhs]; exact hs.size
  have hfit : h5.headerSize.toNat + vlrTotal h5.vlrs ≤ h5.dataOffset.toNat := by
    have := hst.dataOffset
    dsimp only at this
    rw [hhs, this]; omega
  have hvl := flatMap_vlrBytes_length hleg.wf
  have hhl := headerBytes_length hleg.toSized hleg.returns
  obtain ⟨u', o', ho', hW, hk⟩ := hw.opens s5 hst.good
  rw [ho] at ho'
  simp only [Prod.mk.injEq, Option.some.injEq] at ho'
  obtain ⟨rfl, rfl⟩ := ho'
  have hpos : s5.pos = h5.dataOffset.toNat := hst.pos
  rw [hpos] at hW hk
  have hbk : slice s.buf 0 227 = headerBytes h5 := by
    have := hk.block (p := 0) (bs := headerBytes h5) (by rw [hhl]; exact hst.block) (by rw [hhl]; omega)
    rwa [hhl] at this
  have hrc : slice s.buf h5.headerSize.toNat (vlrTotal h5.vlrs) = h5.vlrs.flatMap vlrBytes := by
    have := hk.block (p := h5.headerSize.toNat) (bs := h5.vlrs.flatMap vlrBytes) (by rw [hvl, hhs]; exact hst.records) (by rw [hvl]; omega)
    rwa [hvl] at this
  have hwr : ZipWriting W h5 c [] w := by
    rw [← hmk]
    exact ⟨hbk, hrc, hW, by show n5.toNat = 0; have := hst.count; dsimp only at this; rw [this]; rfl, rfl⟩
  obtain ⟨w', ew, hw'⟩ := ZipWriting.points hw hleg h227 hfit b ps [] w hwr hp (by simpa using hn)
  rw [List.nil_append] at hw'
  refine ⟨w', ew, ?_⟩
  obtain ⟨hb, hr, hdec⟩ := hw'.closed hw hleg h227 hfit
  have hcount := hw'.count
  -- opened again
  have hleg' : Header.Legible { h5 with pointCount := w'.count } := { hleg with }
  obtain ⟨srs8, sch9, s9, z1, z2, y2, y3, y4⟩ := reopen_header env today hleg' hb hr (Or.inl hschema)
  have hfmt : sch9.fmt = h.schema.fmt := by
    rw [y4 hschema]; show h5.schema.fmt = _; rw [e0]
  have hz5 : h5.compressed = true := by rw [e0]; exact hz
  have hzp : Zip.zipPoint z sch9.fmt (h5.vlrs.map VLR.canon) = .ok c := by
    unfold Zip.zipPoint
    have hstd := hs.format
    rw [hfmt, if_neg (by rintro (h | h) <;> rw [h] at hstd <;> exact absurd hstd (by decide)), hl5, List.map_append, List.find?_append,
      Zip.find_none (by
        intro v hv
        obtain ⟨v', hv', rfl⟩ := List.mem_map.1 hv
        rw [Zip.isZipVLR_canon]; exact hno v' hv')]
    have hzz : Zip.isZipVLR (Zip.constructVLR z c).canon = true := by
      rw [Zip.isZipVLR_canon, Zip.isZipVLR_eq]
      have : cstr (Zip.constructVLR z c).userId = lit "laszip encoded" := by
        show cstr (padTo 16 (lit "laszip encoded")) = _
        decide +kernel
      rw [this]
      show ((lit "laszip encoded" == lit "laszip encoded") && (22204#16 == 22204#16)) = true
      decide +kernel
    rw [List.map_singleton, List.find?_singleton, if_pos hzz, Option.none_or]
    dsimp only
    have : (Zip.constructVLR z c).canon.data = z.pack c := rfl
    rw [this, if_neg hd.1, hd.2.2]
  obtain ⟨Rd, v0, start, hdw⟩ := hdec
  have hopen := hdw.opens
  have hif : (if (IStream.onFile w'.close.buf).eof then (IStream.onFile w'.close.buf).clear else IStream.onFile w'.close.buf) =
      ⟨w'.close.buf, 0, false, false⟩ := rfl
  have hseek : (s9.clear.seek 0).seek h5.dataOffset.toNat = ⟨w'.close.buf, h5.dataOffset.toNat, false, false⟩ := by
    obtain ⟨b9, p9, e9, f9⟩ := s9
    cases z2; rfl
  have hmake : ∃ r, ZipReader.make z env today (IStream.onFile w'.close.buf) = .ok r ∧ r.config = c ∧
      r.hdr = { preHeader today { h5 with pointCount := w'.count } sch9 with
        vlrs := h5.vlrs.map VLR.canon, srs := srs8,
        padding := h5.dataOffset - (h5.headerSize.setWidth 32 + BitVec.ofNat 32 (vlrTotal h5.vlrs)) } := by
    unfold ZipReader.make
    rw [hif]
    dsimp only
    rw [z1]
    simp only [Outcome.bind_ok]
    rw [if_neg (by show ¬ (h5.compressed = false); rw [hz5]; decide)]
    have hzp' : Zip.zipPoint z (preHeader today { h5 with pointCount := w'.count } sch9).schema.fmt (h5.vlrs.map VLR.canon) = .ok c := hzp
    rw [hzp', Outcome.bind_ok]
    have hseek' : (s9.clear.seek 0).seek (preHeader today { h5 with pointCount := w'.count } sch9).dataOffset.toNat =
        ⟨w'.close.buf, h5.dataOffset.toNat, false, false⟩ := hseek
    rw [hseek', hopen]
    exact ⟨_, rfl, rfl, rfl⟩
  obtain ⟨r, hmr, hrcfg, hrh⟩ := hmake
  have hoff : r.hdr.dataOffset = h5.dataOffset := by rw [hrh]; rfl
  have hdec' : Decodes z r.config w'.close.buf r.hdr.dataOffset.toNat (ps.map Point.data) := by
    rw [hrcfg, hoff]; exact ⟨Rd, v0, start, hdw⟩
  have hcnt : r.hdr.pointCount.toNat = (ps.map Point.data).length := by rw [hrh]; exact hcount
  refine ⟨r, hmr, ?_, compressed_session hmr hdec' hcnt, hcnt, ?_, ?_, ?_, ?_, ?_, ?_, ?_, ?_, ?_⟩
  · have := compressed_all hmr hdec' hcnt []
    have h1 : r.setTransforms [] = r := by
      obtain ⟨_, _, _, _, hl⟩ := ZipReader.make_live hmr hdec' hcnt
      have hx := hl.xform
      rw [if_pos rfl] at hx
      unfold ZipReader.setTransforms
      rw [if_pos rfl, ← hx]
    rw [h1] at this
    have h2 : (ps.map Point.data).map (fun p => ([] : List (List Byte → List Byte)).foldl (fun p t => t p) p) = ps.map Point.data := List.map_id _
    rwa [h2] at this
  · rw [hrh]; exact hfmt
  · rw [hrh]; exact hz5
  · rw [hrh]; show h5.scale = _; rw [e0]
  · rw [hrh]; show h5.offset = _; rw [e0]
  · rw [hrh]; show h5.min = _; rw [e0]
  · rw [hrh]; show h5.max = _; rw [e0]
  · rw [hrh]; show h5.verMinor = _; rw [e0]
  · rw [hrh]
    show (h5.byReturn.take 5 ++ [0, 0]).take 5 = _
    have : (h5.byReturn.take 5).length = 5 := by have := hleg.returns; simp; omega
    rw [List.take_append_of_le_length (by omega), List.take_of_length_le (by omega), e0]
  · show r.hdr.schema.dataRecordLength = _
    rw [hrh]
    show sch9.dataRecordLength = _
    rw [y3]
    show h5.schema.dataRecordLength = _
    rw [e0]; rfl

end LibLAS
