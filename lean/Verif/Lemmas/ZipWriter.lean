import Verif.Lemmas.Zip
import Verif.Lemmas.RoundTrip
namespace LibLAS
open Spec HeaderWriter

variable {z : LASzip}

theorem Zip.isZipVLR_eq (v : VLR) : Zip.isZipVLR v = (cstr v.userId == lit "laszip encoded" && v.recordId == 22204#16) := by
  unfold Zip.isZipVLR
  dsimp only
  unfold VLR.getUserId
  have : cstr (if (true && (cstr v.userId).length < 16) = true then padTo 16 (cstr v.userId) else cstr v.userId) = cstr v.userId := by
    split
    · rw [cstr_padTo, cstr_cstr]
    · rw [cstr_cstr]
  dsimp only
  rw [this]

theorem Zip.isZipVLR_canon (v : VLR) : Zip.isZipVLR v.canon = Zip.isZipVLR v := by
  rw [Zip.isZipVLR_eq, Zip.isZipVLR_eq]
  simp [VLR.canon, cstr_padTo, cstr_cstr]

theorem newVLRs_noZip {env : Env} {h : Header} {l : List VLR} (e : newVLRs env h = .ok l) : ∀ v ∈ l, Zip.isZipVLR v = false := by
  have key : ∀ m : List VLR, l = (m.filter fun v => !(VLR.same (lit "laszip encoded") 22204 v)) → ∀ v ∈ l, Zip.isZipVLR v = false := by
    rintro m rfl v hv
    have := (List.mem_filter.1 hv).2
    rw [Zip.isZipVLR_eq]
    have : ¬ cstr v.userId = lit "laszip encoded" ∨ ¬ v.recordId = 22204#16 := by simpa [VLR.same, VLR.getUserId] using this
    rw [Bool.and_eq_false_iff]
    rcases this with h | h
    · left; simpa using h
    · right; simpa using h
  unfold newVLRs at e
  dsimp only at e
  obtain ⟨m, _, e⟩ := bind_eq_ok e
  split at e
  · cases e
  · simp only [Outcome.pure_eq, Outcome.ok.injEq] at e
    exact key m e.symm

theorem Zip.prepareVLRs_eq (env : Env) (h : Header) (hc : h.compressed = true) : Zip.prepareVLRs z env h =
    newVLRs env { h with compressed := false } >>= fun l => Zip.zipPoint z h.schema.fmt l >>= fun c =>
      .ok { h with vlrs := l ++ [Zip.constructVLR z c], recordsCount := BitVec.ofNat 32 (l ++ [Zip.constructVLR z c]).length } := by
  unfold Zip.prepareVLRs newVLRs prepareSchemaVLR
  simp only [Header.setGeoreference, foldl_addVLR]
  by_cases hs : h.schema.isCustom = true
  · cases hv : h.schema.getVLR env <;>
      simp_all [Header.deleteVLRs, geoVLRs, Header.addVLR, BitVec.ofNat_add]
  · simp_all [Header.deleteVLRs, geoVLRs, Header.addVLR, BitVec.ofNat_add]

theorem Zip.find_none {l : List VLR} (h : ∀ v ∈ l, Zip.isZipVLR v = false) : l.find? Zip.isZipVLR = none := by
  rw [List.find?_eq_none]
  intro v hv
  rw [h v hv]; simp

theorem Zip.prepareVLRs_ok {env : Env} {h h1 : Header} (hg : h.Good) (hc : h.compressed = true)
    (e : Zip.prepareVLRs z env h = .ok h1) (hd : ∀ c, z.setup h.schema.fmt = some c → (z.pack c).length < 2 ^ 16) :
    ∃ l c, (∀ v ∈ l, Zip.isZipVLR v = false) ∧ z.setup h.schema.fmt = some c ∧ (∀ v ∈ l ++ [Zip.constructVLR z c], v.WF) ∧
      h1 = { h with vlrs := l ++ [Zip.constructVLR z c], recordsCount := BitVec.ofNat 32 (l ++ [Zip.constructVLR z c]).length } := by
  rw [Zip.prepareVLRs_eq _ _ hc] at e
  obtain ⟨l, hl, e⟩ := bind_eq_ok e
  obtain ⟨c, ec, e⟩ := bind_eq_ok e
  have hn := newVLRs_noZip hl
  have hset : z.setup h.schema.fmt = some c := by
    unfold Zip.zipPoint at ec
    split at ec
    · cases ec
    · rw [Zip.find_none hn] at ec
      dsimp only at ec
      split at ec
      · rename_i c' hc'
        injection ec with ec
        rw [hc', ec]
      · cases ec
  refine ⟨l, c, hn, hset, ?_, ?_⟩
  · intro v hv
    rcases List.mem_append.1 hv with hv | hv
    · obtain ⟨_, h3⟩ := newVLRs_ok hl
      rcases h3 v hv with h | h | h
      · exact hg.vlrs v h
      · exact hg.srs v h
      · exact (getVLR_ok h).1
    · rw [List.mem_singleton.1 hv]
      refine ⟨rfl, rfl, ?_⟩
      show (BitVec.ofNat 16 (z.pack c).length).toNat = _
      rw [BitVec.toNat_ofNat]
      exact Nat.mod_eq_of_lt (hd c hset)
  · injection e with e
    exact e.symm

/-- The stream of a compressing writer: header block, variable records, compressor. -/
structure ZipWriting (W : Nat → List (List Byte) → z.Packer → OStream → Prop) (H : Header) (c : z.Config) (rs : List (List Byte))
    (w : ZipWriter z) : Prop where
  block : slice w.ofs.buf 0 227 = headerBytes H
  records : slice w.ofs.buf H.headerSize.toNat (vlrTotal H.vlrs) = H.vlrs.flatMap vlrBytes
  packing : W H.dataOffset.toNat rs w.packer w.ofs
  count : w.count.toNat = rs.length
  config : w.config = c

theorem Spec.Keeps.block {off : Nat} {o o' : OStream} (hk : Keeps off o o') {p : Nat} {bs : List Byte} (h : slice o.buf p bs.length = bs)
    (ho : p + bs.length ≤ off) : slice o'.buf p bs.length = bs := by
  by_cases h0 : bs = []
  · subst h0; simp [slice]
  · rw [hk p bs.length ho (slice_length_ge h h0), h]

variable {W : Nat → List (List Byte) → z.Packer → OStream → Prop} {H : Header} {c : z.Config}

theorem ZipWriting.points (hp : Packs.With z c W) (hl : H.Legible) (h227 : 227 ≤ H.headerSize.toNat)
    (hfit : H.headerSize.toNat + vlrTotal H.vlrs ≤ H.dataOffset.toNat) (b : Build) :
    ∀ (ps : List Point) (rs : List (List Byte)) (w : ZipWriter z), ZipWriting W H c rs w →
      (∀ p ∈ ps, p.data.length = z.size c) → rs.length + ps.length < 2 ^ 32 →
      ∃ w', w.writePoints b ps = .ok w' ∧ ZipWriting W H c (rs ++ ps.map Point.data) w' := by
  have hhl := headerBytes_length hl.toSized hl.returns
  have hvl := flatMap_vlrBytes_length hl.wf
  intro ps
  induction ps with
  | nil => intro rs w h _ _; exact ⟨w, rfl, by simpa using h⟩
  | cons p ps ih =>
    intro rs w h hs hn
    simp only [List.length_cons] at hn
    have hps := hs p (by simp)
    obtain ⟨u, o, e, hw, hk⟩ := hp.writes _ rs _ _ p.data h.packing hps (by omega)
    have ew : w.writePoint b p = .ok { w with ofs := o, packer := u, count := w.count + 1, hdr := { w.hdr with pointCount := w.count + 1 } } := by
      unfold ZipWriter.writePoint
      rw [h.config, if_neg (by simpa using hps), Outcome.bind_ok]
      dsimp only
      rw [if_neg (by omega), List.take_of_length_le (by omega), e]
    have hbk : slice o.buf 0 227 = headerBytes H := by
      have := hk.block (p := 0) (bs := headerBytes H) (by rw [hhl]; exact h.block) (by rw [hhl]; omega)
      rwa [hhl] at this
    have hrc : slice o.buf H.headerSize.toNat (vlrTotal H.vlrs) = H.vlrs.flatMap vlrBytes := by
      have := hk.block (bs := H.vlrs.flatMap vlrBytes) (by rw [hvl]; exact h.records) (by rw [hvl]; omega)
      rwa [hvl] at this
    obtain ⟨w', e', h'⟩ := ih (rs ++ [p.data]) { w with ofs := o, packer := u, count := w.count + 1, hdr := { w.hdr with pointCount := w.count + 1 } }
      ⟨hbk, hrc, hw, by
        show (w.count + 1).toNat = _
        rw [BitVec.toNat_add, h.count, List.length_append]
        show (_ + 1) % _ = _ + 1
        omega, h.config⟩ (fun q hq => hs q (by simp [hq])) (by rw [List.length_append, List.length_singleton]; omega)
    refine ⟨w', ?_, ?_⟩
    · show (w.writePoint b p >>= fun w => w.writePoints b ps) = _
      rw [ew, Outcome.bind_ok, e']
    · rw [List.map_cons]
      simpa using h'

theorem ZipWriting.closed (hp : Packs.With z c W) (hl : H.Legible) (h227 : 227 ≤ H.headerSize.toNat)
    (hfit : H.headerSize.toNat + vlrTotal H.vlrs ≤ H.dataOffset.toNat) {rs : List (List Byte)} {w : ZipWriter z} (h : ZipWriting W H c rs w) :
    slice w.close.buf 0 227 = headerBytes { H with pointCount := w.count } ∧
    slice w.close.buf H.headerSize.toNat (vlrTotal H.vlrs) = H.vlrs.flatMap vlrBytes ∧
    Decodes z c w.close.buf H.dataOffset.toNat rs := by
  have hhl := headerBytes_length hl.toSized hl.returns
  have hvl := flatMap_vlrBytes_length hl.wf
  have hgood := hp.good _ _ _ _ h.packing
  have hput : (put 4 w.count).length = 4 := put_length _ _
  have hbl : 227 ≤ w.ofs.buf.length := by
    have := congrArg List.length h.block; rw [slice_length, hhl] at this; omega
  have hup : w.updatePointCount 0 = { w with ofs := ((w.ofs.seek 107).write (put 4 w.count)).seek w.ofs.pos } := by
    unfold ZipWriter.updatePointCount
    rw [if_neg (by rw [hgood]; simp), if_neg (by simp)]
  have hW := hp.patched _ _ _ _ 107 (put 4 w.count) h.packing (by omega) (by omega)
  have hbuf : (((w.ofs.seek 107).write (put 4 w.count)).seek w.ofs.pos).buf = overlay w.ofs.buf 107 (put 4 w.count) := by
    unfold OStream.seek OStream.write
    simp [hgood]
  obtain ⟨hk, hd⟩ := hp.closes _ _ _ _ hW
  have hcl : w.close = z.close w.packer (((w.ofs.seek 107).write (put 4 w.count)).seek w.ofs.pos) := by
    unfold ZipWriter.close
    rw [hup]
  rw [hcl]
  have hhl' : (headerBytes { H with pointCount := w.count }).length = 227 := by
    rw [← headerBytes_setCount hl.toSized hl.returns, overlay_length, hhl, hput, if_neg (by intro e; rw [e] at hput; simp at hput)]
    decide
  refine ⟨?_, ?_, hd⟩
  · have := hk.block (p := 0) (bs := headerBytes { H with pointCount := w.count }) (by
      rw [hhl', hbuf, slice_overlay_block h.block hhl (by omega), headerBytes_setCount hl.toSized hl.returns]) (by rw [hhl']; omega)
    rwa [hhl'] at this
  · have := hk.block (p := H.headerSize.toNat) (bs := H.vlrs.flatMap vlrBytes) (by
      rw [hvl, hbuf, slice_overlay_after (by rw [hput]; omega)]; exact h.records) (by rw [hvl]; omega)
    rwa [hvl] at this

end LibLAS
