import Verif.Lemmas.HeaderWrite
namespace LibLAS
open Spec HeaderWriter

/-- Total size of a list of records. -/
def vlrTotal (vs : List VLR) : Nat := (vs.map VLR.totalSize).sum

theorem foldl_block (vs : List VLR) (a : BitVec 32) :
    vs.foldl (fun acc v => acc + BitVec.ofNat 32 v.totalSize) a = a + BitVec.ofNat 32 (vlrTotal vs) := by
  induction vs generalizing a with
  | nil => simp [vlrTotal]
  | cons v vs ih =>
    rw [List.foldl_cons, ih, BitVec.add_assoc]
    congr 1
    rw [← BitVec.ofNat_add]; rfl

theorem vlrBlockSize_ok {h : Header} (hc : h.recordsCount.toNat = h.vlrs.length) :
    h.vlrBlockSize = .ok (BitVec.ofNat 32 (vlrTotal h.vlrs)) := by
  unfold Header.vlrBlockSize
  rw [if_pos (by omega), hc, List.take_length, foldl_block]
  simp

theorem length_le_total (vs : List VLR) : 54 * vs.length ≤ vlrTotal vs := by
  induction vs with
  | nil => simp [vlrTotal]
  | cons v vs ih => simp only [vlrTotal, List.map_cons, List.sum_cons, List.length_cons] at *; unfold VLR.totalSize at *; omega

theorem flatMap_vlrBytes_length {vs : List VLR} (h : ∀ v ∈ vs, v.WF) : (vs.flatMap vlrBytes).length = vlrTotal vs := by
  induction vs with
  | nil => rfl
  | cons v vs ih =>
    rw [List.flatMap_cons, List.length_append, ih (fun w hw => h w (by simp [hw])), vlrBytes_length (h v (by simp))]
    simp [vlrTotal]

theorem flatten_vlrFields (vs : List VLR) : (vs.flatMap vlrFields).flatten = vs.flatMap vlrBytes := by
  induction vs with
  | nil => rfl
  | cons v vs ih => rw [List.flatMap_cons, List.flatten_append, ih]; rfl

theorem deleteVLRs_eq (h : Header) (n : List Byte) (i : BitVec 16) :
    h.deleteVLRs n i = { h with vlrs := (h.deleteVLRs n i).vlrs,
                                recordsCount := BitVec.ofNat 32 (h.deleteVLRs n i).vlrs.length } := rfl

theorem foldl_addVLR (vs : List VLR) (h : Header) : vs.foldl Header.addVLR h =
    { h with vlrs := h.vlrs ++ vs, recordsCount := h.recordsCount + BitVec.ofNat 32 vs.length } := by
  induction vs generalizing h with
  | nil => simp
  | cons v vs ih =>
    rw [List.foldl_cons, ih]
    simp only [Header.addVLR, List.append_assoc, List.singleton_append, List.length_cons]
    congr 1
    rw [BitVec.add_assoc, Nat.add_comm, BitVec.ofNat_add]; rfl

/-- The records left by the deletions of `write` and `SetGeoreference`, followed by those of the reference. -/
def geoVLRs (h : Header) : List VLR :=
  ((((h.deleteVLRs (lit "liblas") 2112).deleteVLRs (lit "LASF_Projection") 34735).deleteVLRs
    (lit "LASF_Projection") 34736).deleteVLRs (lit "LASF_Projection") 34737).vlrs ++ h.srs

theorem getVLR_ok {env : Env} {s : Schema} {v : VLR} (h : s.getVLR env = .ok v) :
    v.WF ∧ v.data = env.xml s ∧ v.isSchema = true := by
  unfold Schema.getVLR at h
  dsimp only at h
  split at h
  · cases h
  · rename_i hl
    injection h with h
    subst h
    refine ⟨⟨rfl, rfl, ?_⟩, rfl, by
      show (cstr (padTo 16 (lit "liblas")) == lit "liblas" && ((7#16 : BitVec 16) == 7#16)) = true
      decide +kernel⟩
    simp; omega

/-- The records of a new file. -/
def newVLRs (env : Env) (h : Header) : Outcome (List VLR) := do
  let l := geoVLRs h
  let l ← (if h.schema.isCustom then do
    let v ← h.schema.getVLR env
    pure (l.filter (fun v => !(VLR.same (lit "liblas") 7 v)) ++ [v])
    else pure l)
  if h.compressed then .throw .configError
  else pure (l.filter fun v => !(VLR.same (lit "laszip encoded") 22204 v))

theorem prepareVLRs_eq (env : Env) (h : Header) : prepareVLRs env h =
    newVLRs env h >>= fun l => .ok { h with vlrs := l, recordsCount := BitVec.ofNat 32 l.length } := by
  unfold prepareVLRs newVLRs prepareSchemaVLR
  simp only [Header.setGeoreference, foldl_addVLR]
  by_cases hc : h.schema.isCustom = true
  · cases hv : h.schema.getVLR env <;> by_cases hz : h.compressed = true <;>
      simp_all [Header.deleteVLRs, geoVLRs, Header.addVLR]
  · by_cases hz : h.compressed = true <;> simp_all [Header.deleteVLRs, geoVLRs]

theorem mem_geoVLRs {h : Header} {v : VLR} (hv : v ∈ geoVLRs h) : v ∈ h.vlrs ∨ v ∈ h.srs := by
  unfold geoVLRs at hv
  simp only [Header.deleteVLRs, List.mem_append, List.mem_filter] at hv
  tauto

theorem newVLRs_ok {env : Env} {h : Header} {l : List VLR} (e : newVLRs env h = .ok l) :
    h.compressed = false ∧ (∀ v ∈ l, v ∈ h.vlrs ∨ v ∈ h.srs ∨ h.schema.getVLR env = .ok v) := by
  unfold newVLRs at e
  by_cases hc : h.schema.isCustom = true
  · cases hv : h.schema.getVLR env with
    | throw e' => simp_all
    | ub => simp_all
    | ok v =>
      by_cases hz : h.compressed = true
      · simp_all
      · simp only [hc, hv, hz] at e
        simp at e
        refine ⟨by simpa using hz, ?_⟩
        intro u hu
        rw [← e] at hu
        simp only [List.mem_append, List.mem_filter] at hu
        rcases hu with hu | hu
        · rcases mem_geoVLRs hu.1 with h | h <;> tauto
        · right; right
          rw [List.mem_singleton.1 hu.1]
  · by_cases hz : h.compressed = true
    · simp_all
    · simp only [hc, hz] at e
      simp at e
      refine ⟨by simpa using hz, ?_⟩
      intro u hu
      rw [← e] at hu
      simp only [List.mem_filter] at hu
      rcases mem_geoVLRs hu.1 with h | h <;> tauto

/-- Fixed-size fields have their sizes and every record is consistent. -/
structure Header.Good (h : Header) : Prop extends Header.Sized h where
  vlrs : ∀ v ∈ h.vlrs, v.WF
  srs : ∀ v ∈ h.srs, v.WF

theorem prepareVLRs_ok {env : Env} {h h1 : Header} (hg : h.Good) (e : prepareVLRs env h = .ok h1) :
    ∃ l, newVLRs env h = .ok l ∧ h1 = { h with vlrs := l, recordsCount := BitVec.ofNat 32 l.length } ∧
      h.compressed = false ∧ ∀ v ∈ l, v.WF := by
  rw [prepareVLRs_eq] at e
  cases hl : newVLRs env h with
  | throw e' => simp_all
  | ub => simp_all
  | ok l =>
    rw [hl] at e
    simp at e
    obtain ⟨h2, h3⟩ := newVLRs_ok hl
    refine ⟨l, rfl, e.symm, h2, ?_⟩
    intro v hv
    rcases h3 v hv with h | h | h
    · exact hg.vlrs v h
    · exact hg.srs v h
    · exact (getVLR_ok h).1

end LibLAS

namespace LibLAS
open Spec HeaderWriter

theorem bind_eq_ok {α β : Type} {x : Outcome α} {f : α → Outcome β} {b : β} (h : (x >>= f) = .ok b) :
    ∃ a, x = .ok a ∧ f a = .ok b := by
  cases x with
  | ok a => exact ⟨a, rfl, h⟩
  | throw e => cases h
  | ub => cases h

theorem OStream.seek_eq {s : OStream} (h : s.fail = false) (p : Nat) : s.seek p = { s with pos := p } := by
  unfold OStream.seek; simp [h]

theorem OStream.seekEnd_eq {s : OStream} (h : s.fail = false) (p : Nat) :
    s.seekEnd p = { s with pos := s.buf.length + p } := by
  unfold OStream.seekEnd; simp [h]

theorem OStream.writeN_eq {s : OStream} (h : s.fail = false) (bs : List Byte) :
    ∃ s', s.writeN bs = .ok s' ∧ s'.fail = false ∧ s'.buf = overlay s.buf s.pos bs ∧ s'.pos = s.pos + bs.length := by
  unfold OStream.writeN OStream.write
  simp [h]

/-- What the writer has put on an empty stream when its constructor returns, with the variable records it chose. -/
structure Started (h : Header) (w : Writer) (pad : Nat) : Prop where
  pad_le : pad ≤ 2
  wf : ∀ v ∈ w.hdr.vlrs, v.WF
  hdr : w.hdr = { h with vlrs := w.hdr.vlrs, recordsCount := BitVec.ofNat 32 w.hdr.vlrs.length,
                         padding := BitVec.ofNat 32 pad, dataOffset := w.hdr.dataOffset }
  returns : 5 ≤ h.byReturn.length
  dataOffset : w.hdr.dataOffset.toNat =
    h.headerSize.toNat + vlrTotal w.hdr.vlrs + pad + (if h.verMinor = 0 ∧ pad < 2 then 2 else 0)
  count : w.count = 0
  good : w.ofs.fail = false
  pos : w.ofs.pos = w.hdr.dataOffset.toNat
  block : slice w.ofs.buf 0 227 = headerBytes w.hdr
  records : slice w.ofs.buf h.headerSize.toNat (vlrTotal w.hdr.vlrs) = w.hdr.vlrs.flatMap vlrBytes
  length : 227 ≤ w.ofs.buf.length
  noTail : pad = 0 → w.ofs.buf.length ≤ w.hdr.dataOffset.toNat

/-- What the writer of an uncompressed file has put on an empty stream when its constructor returns. -/
structure Fresh (env : Env) (h : Header) (w : Writer) (pad : Nat) : Prop extends Started h w pad where
  vlrs : newVLRs env h = .ok w.hdr.vlrs
  raw : h.compressed = false

theorem sizedWith {h g : Header} (hs : h.Sized) (h1 : g.signature = h.signature) (h2 : g.guid = h.guid)
    (h3 : g.systemId = h.systemId) (h4 : g.softwareId = h.softwareId) : g.Sized :=
  ⟨h1 ▸ hs.signature, h2 ▸ hs.guid, h3 ▸ hs.systemId, h4 ▸ hs.softwareId⟩

theorem slice_zero_length {b : List Byte} {n : Nat} (h : (slice b 0 n).length = n) : n ≤ b.length := by
  rw [slice_length] at h; omega

/-- The header block and the records of a new file, whatever the records are. -/
theorem started_file {h h1 h5 : Header} {s5 : OStream} {c5 : BitVec 32} {l : List VLR} (hg : h.Good) (h227 : 227 ≤ h.headerSize.toNat)
    (hh1 : h1 = { h with vlrs := l, recordsCount := BitVec.ofNat 32 l.length }) (hwf : ∀ v ∈ l, v.WF)
    (e1 : writeRest (OStream.onFile []) 0 h1 = .ok (s5, c5, h5))
    (hsmall : h.headerSize.toNat + vlrTotal h5.vlrs + 4 < 2 ^ 31) : h5.vlrs = l ∧ ∃ pad, Started h ⟨s5, h5, c5⟩ pad := by
  unfold writeRest at e1
  obtain ⟨h2, eo, e1⟩ := bind_eq_ok e1
  obtain ⟨s1, ef, e1⟩ := bind_eq_ok e1
  obtain ⟨⟨s2, h3⟩, ev, e1⟩ := bind_eq_ok e1
  dsimp only at e1
  obtain ⟨s3, epd, e1⟩ := bind_eq_ok e1
  obtain ⟨⟨s4, h4⟩, es, e1⟩ := bind_eq_ok e1
  simp only [Outcome.pure_eq, Outcome.ok.injEq, Prod.mk.injEq] at e1
  obtain ⟨ef5, rfl, rfl⟩ := e1
  -- the final records are those prepared
  -- offset and padding
  unfold prepareOffset at eo
  obtain ⟨bs, ebs, eo⟩ := bind_eq_ok eo
  obtain ⟨pad, epad, eo⟩ := bind_eq_ok eo
  simp only [Outcome.pure_eq, Outcome.ok.injEq] at eo
  -- records survive the later steps
  have hv3 : h3.vlrs = h2.vlrs ∧ h3.padding = h2.padding ∧ h3.recordsCount = h2.recordsCount ∧ h3.headerSize = h2.headerSize ∧
      h3 = { h2 with dataOffset := h3.dataOffset } := by
    unfold writeVLRs at ev
    obtain ⟨b, _, ev⟩ := bind_eq_ok ev
    obtain ⟨⟨sa, ha⟩, er, ev⟩ := bind_eq_ok ev
    dsimp only at ev
    obtain ⟨sb, _, ev⟩ := bind_eq_ok ev
    simp only [Outcome.pure_eq, Outcome.ok.injEq, Prod.mk.injEq] at ev
    obtain ⟨_, rfl⟩ := ev
    unfold raiseOffset at er
    split at er
    · obtain ⟨sc, _, er⟩ := bind_eq_ok er
      simp only [Outcome.pure_eq, Outcome.ok.injEq, Prod.mk.injEq] at er
      obtain ⟨_, rfl⟩ := er
      exact ⟨rfl, rfl, rfl, rfl, rfl⟩
    · simp only [Outcome.ok.injEq, Prod.mk.injEq] at er
      obtain ⟨_, rfl⟩ := er
      exact ⟨rfl, rfl, rfl, rfl, rfl⟩
  have hv4 : h4 = { h3 with dataOffset := h4.dataOffset } := by
    unfold writePadSignature at es
    split at es
    · simp only [Outcome.ok.injEq, Prod.mk.injEq] at es
      obtain ⟨_, rfl⟩ := es
      rfl
    · obtain ⟨b, _, es⟩ := bind_eq_ok es
      obtain ⟨⟨sa, ha⟩, er, es⟩ := bind_eq_ok es
      dsimp only at es
      obtain ⟨sb, _, es⟩ := bind_eq_ok es
      simp only [Outcome.pure_eq, Outcome.ok.injEq, Prod.mk.injEq] at es
      obtain ⟨_, rfl⟩ := es
      unfold roomForSignature at er
      split at er
      · obtain ⟨sc, _, er⟩ := bind_eq_ok er
        simp only [Outcome.pure_eq, Outcome.ok.injEq, Prod.mk.injEq] at er
        obtain ⟨_, rfl⟩ := er
        rfl
      · simp only [Outcome.ok.injEq, Prod.mk.injEq] at er
        obtain ⟨_, rfl⟩ := er
        rfl
  have hl4 : h4.vlrs = l := by
    rw [hv4]; show h3.vlrs = l
    rw [hv3.1, ← eo, hh1]
  rw [hl4] at hsmall
  have hlen := length_le_total l
  have hcnt : (BitVec.ofNat 32 l.length).toNat = l.length := by
    rw [BitVec.toNat_ofNat]; exact Nat.mod_eq_of_lt (by omega)
  have hbs : bs = BitVec.ofNat 32 (vlrTotal l) := by
    rw [vlrBlockSize_ok (by rw [hh1]; exact hcnt)] at ebs
    rw [hh1] at ebs
    simpa using ebs.symm
  have hbsn : bs.toNat = vlrTotal l := by
    rw [hbs, BitVec.toNat_ofNat]; exact Nat.mod_eq_of_lt (by omega)
  have hblk : ∀ g : Header, g.vlrs = l → g.recordsCount = BitVec.ofNat 32 l.length → g.vlrBlockSize = .ok bs := by
    intro g g1 g2
    rw [vlrBlockSize_ok (by rw [g1, g2]; exact hcnt), g1, hbs]
  have h2v : h2.vlrs = l := by rw [← eo, hh1]
  have h2c : h2.recordsCount = BitVec.ofNat 32 l.length := by rw [← eo, hh1]
  have h2h : h2.headerSize = h.headerSize := by rw [← eo, hh1]
  have h2p : h2.padding = pad := by rw [← eo]
  have h2m : h2.verMinor = h.verMinor := by rw [← eo, hh1]
  have h2s : h2.Sized := sizedWith hg.toSized (by rw [← eo, hh1]) (by rw [← eo, hh1]) (by rw [← eo, hh1]) (by rw [← eo, hh1])
  have hpad : pad.toNat ≤ 2 := by
    unfold writePadding at epd
    rw [hv3.2.1, h2p] at epd
    by_contra hc
    rw [if_pos (by omega), hblk h3 (hv3.1.trans h2v) (hv3.2.2.1.trans h2c)] at epd
    simp only [Outcome.bind_ok] at epd
    rw [if_neg hc] at epd
    cases epd
  have hhs : (h.headerSize.setWidth 32).toNat = h.headerSize.toNat := by
    rw [BitVec.toNat_setWidth]; exact Nat.mod_eq_of_lt (by have := h.headerSize.isLt; omega)
  have h2d : h2.dataOffset.toNat = h.headerSize.toNat + vlrTotal l + pad.toNat := by
    have : h2.dataOffset = h.headerSize.setWidth 32 + bs + pad := by rw [← eo, hh1]
    rw [this, BitVec.toNat_add, BitVec.toNat_add, hhs, hbsn]
    omega
  have hreq : (bs + h.headerSize.setWidth 32).toNat = h.headerSize.toNat + vlrTotal l := by
    rw [BitVec.toNat_add, hhs, hbsn]; omega
  have hdiff : h2.dataOffset - (bs + h.headerSize.setWidth 32) = pad := by
    apply BitVec.eq_of_toNat_eq
    rw [BitVec.toNat_sub, hreq, h2d]; omega
  have hnot : ¬ ((pad).slt 0 = true) := by
    rw [BitVec.slt_iff_toInt_lt]
    rw [BitVec.toInt_eq_toNat_of_lt (by omega)]; simp
  -- the header block
  have hr : 5 ≤ h2.byReturn.length := by
    unfold writeFields at ef
    by_contra hc
    rw [if_pos (by omega)] at ef
    cases ef
  have hrh : 5 ≤ h.byReturn.length := by
    have : h2.byReturn = h.byReturn := by rw [← eo, hh1]
    rw [← this]; exact hr
  have hs1 : s1.fail = false ∧ s1.buf = headerBytes h2 ∧ s1.pos = 227 := by
    unfold writeFields at ef
    rw [if_neg (by omega)] at ef
    obtain ⟨s', q1, q2, q3, q4⟩ := OStream.writeAll_ok (fields h2) (OStream.onFile []) rfl
    rw [q1] at ef
    cases ef
    have hb := headerBytes_length h2s hr
    refine ⟨q2, ?_, ?_⟩
    · rw [q3]; show overlay [] 0 (headerBytes h2) = _
      exact overlay_end [] _
    · rw [q4]; show 0 + (headerBytes h2).length = _
      omega
  obtain ⟨f1, b1, p1⟩ := hs1
  have hb1 : s1.buf.length = 227 := by rw [b1]; exact headerBytes_length h2s hr
  -- the records
  have hs2 : s2.fail = false ∧ s2.buf = overlay s1.buf h.headerSize.toNat (l.flatMap vlrBytes) ∧ h3 = h2 := by
    unfold writeVLRs at ev
    rw [hblk h2 h2v h2c] at ev
    simp only [Outcome.bind_ok] at ev
    unfold raiseOffset at ev
    rw [h2h, hdiff, if_neg hnot] at ev
    simp only [Outcome.bind_ok] at ev
    obtain ⟨sb, eb, ev⟩ := bind_eq_ok ev
    simp only [Outcome.pure_eq, Outcome.ok.injEq, Prod.mk.injEq] at ev
    obtain ⟨rfl, rfl⟩ := ev
    rw [OStream.seek_eq f1, h2v, h2c, hcnt, List.take_length] at eb
    obtain ⟨s', q1, q2, q3, q4⟩ := OStream.writeAll_ok (l.flatMap vlrFields) { s1 with pos := h.headerSize.toNat } f1
    rw [q1] at eb
    cases eb
    refine ⟨q2, ?_, rfl⟩
    rw [q3, flatten_vlrFields]
  obtain ⟨f2, b2, rfl⟩ := hs2
  have hV := flatMap_vlrBytes_length hwf
  have hb2 : s2.buf.length = if l = [] then 227 else h.headerSize.toNat + vlrTotal l := by
    rw [b2, overlay_length, hV, hb1]
    by_cases hl0 : l = []
    · simp [hl0]
    · have h54 : 0 < l.length := List.length_pos_of_ne_nil hl0
      have hne : l.flatMap vlrBytes ≠ [] := by
        intro hh; rw [hh] at hV; simp at hV; omega
      rw [if_neg hne, if_neg hl0]; omega
  have hb2le : s2.buf.length ≤ h.headerSize.toNat + vlrTotal l := by
    rw [hb2]; split <;> omega
  have hb2ge : 227 ≤ s2.buf.length := by rw [hb2]; split <;> omega
  have hblock2 : slice s2.buf 0 227 = headerBytes h3 := by
    rw [b2, slice_overlay_before (by omega) (by omega), b1, ← headerBytes_length h2s hr, slice_self]
  have hrec2 : slice s2.buf h.headerSize.toNat (vlrTotal l) = l.flatMap vlrBytes := by
    rw [b2, slice_overlay_in (by omega) (by omega), Nat.sub_self, ← hV, slice_self]
  -- the padding, beyond the end of what is there
  have hs3 : s3.fail = false ∧ (∀ off k, off + k ≤ s2.buf.length → slice s3.buf off k = slice s2.buf off k) ∧
      s2.buf.length ≤ s3.buf.length ∧ (pad.toNat = 0 → s3.buf = s2.buf) := by
    unfold writePadding at epd
    rw [h2p] at epd
    by_cases h0 : 0 < pad.toNat
    · rw [if_pos h0, hblk h3 h2v h2c] at epd
      simp only [Outcome.bind_ok] at epd
      rw [if_pos hpad, OStream.seekEnd_eq f2] at epd
      obtain ⟨s', q1, q2, q3, q4⟩ := OStream.writeN_eq (s := { s2 with pos := s2.buf.length + (h3.headerSize.setWidth 32 + bs).toNat })
        f2 (List.replicate pad.toNat 0#8)
      rw [q1] at epd
      cases epd
      refine ⟨q2, ?_, ?_, by omega⟩
      · intro off k hk
        rw [q3]
        exact slice_overlay_before (by simp only; omega) hk
      · rw [q3, overlay_length]; split <;> simp only <;> omega
    · rw [if_neg h0] at epd
      cases epd
      exact ⟨f2, fun _ _ _ => rfl, le_refl _, fun _ => rfl⟩
  obtain ⟨f3, b3, l3, z3⟩ := hs3
  have hblock3 : slice s3.buf 0 227 = headerBytes h3 := by rw [b3 _ _ (by omega), hblock2]
  have hrec3 : slice s3.buf h.headerSize.toNat (vlrTotal l) = l.flatMap vlrBytes := by
    by_cases hl0 : l = []
    · subst hl0; simp [vlrTotal, slice]
    · rw [b3 _ _ (by rw [hb2, if_neg hl0]), hrec2]
  have l3' : 227 ≤ s3.buf.length := by omega
  have hnt3 : pad.toNat = 0 → s3.buf.length ≤ h.headerSize.toNat + vlrTotal l := by
    intro hz; rw [z3 hz]; exact hb2le
  -- the signature of version 1.0
  have hs4 : s4.fail = false ∧ slice s4.buf 0 227 = headerBytes h4 ∧
      slice s4.buf h.headerSize.toNat (vlrTotal l) = l.flatMap vlrBytes ∧ 227 ≤ s4.buf.length ∧
      (pad.toNat = 0 → s4.buf.length ≤ h4.dataOffset.toNat) ∧
      h4.dataOffset.toNat = h.headerSize.toNat + vlrTotal l + pad.toNat +
        (if h.verMinor = 0 ∧ pad.toNat < 2 then 2 else 0) := by
    unfold writePadSignature at es
    by_cases hm : h3.verMinor.toNat > 0
    · rw [if_pos hm] at es
      simp only [Outcome.ok.injEq, Prod.mk.injEq] at es
      obtain ⟨rfl, rfl⟩ := es
      have hm' : ¬ (h.verMinor = 0) := by
        rw [← h2m]; intro hh; rw [hh] at hm; simp at hm
      refine ⟨f3, hblock3, hrec3, l3', ?_, ?_⟩
      · intro hz; have := hnt3 hz; omega
      · rw [h2d, if_neg (by tauto)]; omega
    · rw [if_neg hm] at es
      have hm' : h.verMinor = 0 := by
        rw [← h2m]; apply BitVec.eq_of_toNat_eq; simp; omega
      rw [hblk h3 h2v h2c] at es
      simp only [Outcome.bind_ok] at es
      unfold roomForSignature at es
      rw [h2h, hdiff] at es
      have key : ∀ (sx : OStream) (hx : Header), sx.fail = false → slice sx.buf 0 227 = headerBytes hx →
          slice sx.buf h.headerSize.toNat (vlrTotal l) = l.flatMap vlrBytes → 227 ≤ sx.buf.length →
          (pad.toNat = 0 → sx.buf.length ≤ hx.dataOffset.toNat) →
          hx.dataOffset.toNat = h.headerSize.toNat + vlrTotal l + pad.toNat +
            (if h.verMinor = 0 ∧ pad.toNat < 2 then 2 else 0) → 
          (do let s ← (sx.seek (hx.dataOffset - 2).toNat).writeAll [[0xCC#8], [0xDD#8]]; pure (s, hx)) = Outcome.ok (s4, h4) →
          s4.fail = false ∧ slice s4.buf 0 227 = headerBytes h4 ∧
          slice s4.buf h.headerSize.toNat (vlrTotal l) = l.flatMap vlrBytes ∧ 227 ≤ s4.buf.length ∧
          (pad.toNat = 0 → s4.buf.length ≤ h4.dataOffset.toNat) ∧
          h4.dataOffset.toNat = h.headerSize.toNat + vlrTotal l + pad.toNat +
            (if h.verMinor = 0 ∧ pad.toNat < 2 then 2 else 0) := by
        intro sx hx g1 g2 g3 g4 g5 g6 g7
        obtain ⟨sb, eb, g7⟩ := bind_eq_ok g7
        simp only [Outcome.pure_eq, Outcome.ok.injEq, Prod.mk.injEq] at g7
        obtain ⟨rfl, rfl⟩ := g7
        rw [OStream.seek_eq g1] at eb
        obtain ⟨s', q1, q2, q3, q4⟩ := OStream.writeAll_ok [[0xCC#8], [0xDD#8]] { sx with pos := (hx.dataOffset - 2).toNat } g1
        rw [q1] at eb
        injection eb with eb
        subst eb
        have hge : h.headerSize.toNat + vlrTotal l + 2 ≤ hx.dataOffset.toNat := by
          rw [g6]; split
          · omega
          · rename_i hcc; have : ¬ pad.toNat < 2 := fun hh => hcc ⟨hm', hh⟩
            omega
        have hsub : (hx.dataOffset - 2).toNat = hx.dataOffset.toNat - 2 := by
          rw [BitVec.toNat_sub_of_le (by rw [BitVec.le_def]; simp; omega)]; rfl
        have q3' : s'.buf = overlay sx.buf (hx.dataOffset.toNat - 2) [0xCC#8, 0xDD#8] := by
          rw [q3]; simp only [hsub]; rfl
        refine ⟨q2, ?_, ?_, ?_, ?_, g6⟩
        · rw [q3', slice_overlay_before (by omega) (by omega), g2]
        · by_cases hv0 : vlrTotal l = 0
          · have hx0 : l = [] := by
              have := length_le_total l; exact List.eq_nil_of_length_eq_zero (by omega)
            subst hx0; simp [vlrTotal, slice]
          · have := congrArg List.length g3
            rw [slice_length, hV] at this
            rw [q3', slice_overlay_before (by omega) (by omega), g3]
        · rw [q3', overlay_length]; simp; omega
        · intro hz
          have := g5 hz
          rw [q3', overlay_length]; simp; omega
      by_cases hlt : pad.slt 2 = true
      · rw [if_pos hlt] at es
        have hpl : pad.toNat < 2 := by
          rw [BitVec.slt_iff_toInt_lt, BitVec.toInt_eq_toNat_of_lt (by omega)] at hlt
          have : BitVec.toInt (2 : BitVec 32) = 2 := rfl
          rw [this] at hlt; omega
        have hd : (h3.dataOffset + 2).toNat = h.headerSize.toNat + vlrTotal l + pad.toNat + 2 := by
          rw [BitVec.toNat_add, h2d]
          show (_ + 2) % _ = _
          omega
        obtain ⟨s', q1, q2, q3, q4⟩ := OStream.writeN_eq (s := { s3 with pos := 96 }) f3 (put 4 (h3.dataOffset + 2))
        rw [OStream.seek_eq f3] at es
        dsimp only at es
        rw [q1] at es
        simp only [Outcome.bind_ok, Outcome.pure_eq] at es
        have q3' : s'.buf = overlay s3.buf 96 (put 4 (h3.dataOffset + 2)) := q3
        have hne : put 4 (h3.dataOffset + 2) ≠ [] := by
          intro hh; have := congrArg List.length hh; simp [put_length] at this
        have hlen' : s'.buf.length = s3.buf.length := by
          rw [q3', overlay_length, if_neg hne, put_length]; omega
        apply key s' { h3 with dataOffset := h3.dataOffset + 2 } q2
        · rw [← headerBytes_setOffset h2s hr, ← hblock3, q3']
          apply List.ext_getElem?
          intro i
          rw [slice_getElem?, overlay_getElem?, overlay_getElem?, if_neg hne, if_neg hne, put_length, slice_getElem?,
            slice_length_of_le (by omega)]
          simp only [Nat.zero_add]
          by_cases hi : i < 227
          · simp only [hi, if_true]
            by_cases hi2 : i < 96
            · simp [hi2]; omega
            · simp [hi2]
          · have h5 : ¬ i < 96 := by omega
            have h6 : ¬ i < 96 + 4 := by omega
            simp [hi, h5, h6]
        · by_cases hv0 : vlrTotal l = 0
          · have hx0 : l = [] := by
              have := length_le_total l; exact List.eq_nil_of_length_eq_zero (by omega)
            subst hx0; simp [vlrTotal, slice]
          · rw [q3', slice_overlay_after (by rw [put_length]; omega), hrec3]
        · omega
        · intro hz
          have := hnt3 hz
          show s'.buf.length ≤ (h3.dataOffset + 2).toNat
          omega
        · show (h3.dataOffset + 2).toNat = _
          rw [hd, if_pos ⟨hm', hpl⟩]
        · rw [← h2h] at es; exact es
      · rw [if_neg hlt] at es
        have hpl : ¬ pad.toNat < 2 := by
          rw [BitVec.slt_iff_toInt_lt, BitVec.toInt_eq_toNat_of_lt (by omega)] at hlt
          have : BitVec.toInt (2 : BitVec 32) = 2 := rfl
          rw [this] at hlt; omega
        simp only [Outcome.bind_ok] at es
        refine key s3 h3 f3 hblock3 hrec3 l3' ?_ ?_ es
        · intro hz; omega
        · rw [h2d, if_neg (by tauto)]; omega
  obtain ⟨f4, b4, r4, l4, nt4, d4⟩ := hs4
  have hs5 : s5 = { s4 with pos := h4.dataOffset.toNat } := by
    rw [← ef5]; unfold finalSeek
    rw [if_neg (by simp), OStream.seek_eq f4]
  subst hs5
  refine ⟨hl4, pad.toNat, ?_⟩
  have hh4 : h4 = { h with vlrs := l, recordsCount := BitVec.ofNat 32 l.length,
                           padding := pad, dataOffset := h4.dataOffset } := by
    rw [hv4, ← eo, hh1]
  constructor
  · exact hpad
  · show ∀ v ∈ h4.vlrs, v.WF
    rw [hl4]; exact hwf
  · show h4 = _
    simp only [hl4]
    rw [BitVec.ofNat_toNat, BitVec.setWidth_eq]
    exact hh4
  · exact hrh
  · show h4.dataOffset.toNat = _
    simp only [hl4]
    exact d4
  · rfl
  · exact f4
  · rfl
  · exact b4
  · simp only [hl4]; exact r4
  · exact l4
  · exact nt4

/-- A new file. -/
theorem new_file {env : Env} {h : Header} {w : Writer} (hg : h.Good) (h227 : 227 ≤ h.headerSize.toNat)
    (e : Writer.make env (OStream.onFile []) h = .ok w)
    (hsmall : h.headerSize.toNat + vlrTotal w.hdr.vlrs + 4 < 2 ^ 31) : ∃ pad, Fresh env h w pad := by
  unfold Writer.make at e
  obtain ⟨⟨s5, c5, h5⟩, e0, ew⟩ := bind_eq_ok e
  simp only [Outcome.pure_eq, Outcome.ok.injEq] at ew
  have e1 : writeNew env (OStream.onFile []) 0 h = .ok (s5, c5, h5) := by
    unfold HeaderWriter.write at e0
    simpa [OStream.onFile, OStream.seekEnd] using e0
  clear e0 e
  unfold writeNew at e1
  obtain ⟨h1, ep, e1⟩ := bind_eq_ok e1
  obtain ⟨l, hl, hh1, hraw, hwf⟩ := prepareVLRs_ok hg ep
  subst ew
  obtain ⟨hl5, pad, hs⟩ := started_file hg h227 hh1 hwf e1 hsmall
  exact ⟨pad, hs, by show newVLRs env h = .ok h5.vlrs; rw [hl5]; exact hl, hraw⟩

end LibLAS
