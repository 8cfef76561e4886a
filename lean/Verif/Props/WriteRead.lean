import Verif.Props.RoundTrip
/-
C14, C20, C21, C22.
-/
namespace LibLAS
open Spec

/-- C20: any points written through a writer opened on an empty stream are delivered in order by a reader opened on the
closed file, which advertises their number. Only the bytes of the header's record length are stored of each point.
`NoSchema`: the file has no schema record that can be parsed (always so in a file libLAS wrote: its own schema
records do not parse). -/
theorem written_is_read (env : Env) (today : BitVec 16 × BitVec 16) {h : Header} {w : Writer} (hs : StorableHeader h)
    (hmk : Writer.make env (OStream.onFile []) h = .ok w)
    (hsmall : h.headerSize.toNat + recordBytes w.hdr.vlrs + 4 < 2 ^ 31)
    (hschema : NoSchema env w.hdr.vlrs) (h0 : 0 < h.dataRecordLength)
    (pts : List (List Byte)) (hp : ∀ p ∈ pts, h.dataRecordLength ≤ p.length) (hn : pts.length < 2 ^ 32) :
    ∃ w' r, w.writePoints pts = .ok w' ∧ Reader.make env today (IStream.onFile w'.close.buf) = .ok r ∧
      r.hdr.pointCount.toNat = pts.length ∧
      delivers r (pts.map fun p => p.take h.dataRecordLength) := by
  obtain ⟨pad, hf⟩ := new_file (StorableHeader.good hs) hs.size hmk hsmall
  have hw := hf.writing hs (Or.inl hschema) h0 hsmall
  have hl : w.hdr.dataRecordLength = h.dataRecordLength := by rw [hf.hdr]; rfl
  obtain ⟨w', e1, e2, -⟩ := hw.finish pts (by rw [hl]; exact hp) (by simpa using hn)
  obtain ⟨r, r1, r2, r3⟩ := e2.read today
  refine ⟨w', r, e1, r1, ?_, ?_⟩
  · obtain ⟨srs, sch, e, -⟩ := r2.hdr
    have := e2.count
    rw [e]
    show w'.count.toNat = _
    simpa [cutTo] using this
  · rw [List.nil_append, hl] at r3; exact r3

/-- The same when the file's schema record is understood: it must describe records of the header's length and contain
the dimensions X, Y and Z. -/
theorem written_is_read_schema (env : Env) (today : BitVec 16 × BitVec 16) {h : Header} {w : Writer} (hs : StorableHeader h)
    (hmk : Writer.make env (OStream.onFile []) h = .ok w)
    (hsmall : h.headerSize.toNat + recordBytes w.hdr.vlrs + 4 < 2 ^ 31)
    {S : Schema} {L : List Dim} (hS : HeaderReader.schemaFromVLRs env w.hdr.vlrs = .ok S) (hL : Schema.Laid S L)
    (hxyz : "X" ∈ L.map Dim.name ∧ "Y" ∈ L.map Dim.name ∧ "Z" ∈ L.map Dim.name) (hnp : S.nextPos + 3 < 2 ^ 32)
    (hb : S.byteSize = h.dataRecordLength) (h0 : 0 < h.dataRecordLength)
    (pts : List (List Byte)) (hp : ∀ p ∈ pts, h.dataRecordLength ≤ p.length) (hn : pts.length < 2 ^ 32) :
    ∃ w' r, w.writePoints pts = .ok w' ∧ Reader.make env today (IStream.onFile w'.close.buf) = .ok r ∧
      r.hdr.pointCount.toNat = pts.length ∧
      delivers r (pts.map fun p => p.take h.dataRecordLength) := by
  obtain ⟨pad, hf⟩ := new_file (StorableHeader.good hs) hs.size hmk hsmall
  have hl : w.hdr.dataRecordLength = h.dataRecordLength := by rw [hf.hdr]; rfl
  have hw := hf.writing hs (Or.inr ⟨S, L, hS, hL, hxyz.1, hxyz.2.1, hxyz.2.2, hnp, by rw [hl]; exact hb⟩) h0 hsmall
  obtain ⟨w', e1, e2, -⟩ := hw.finish pts (by rw [hl]; exact hp) (by simpa using hn)
  obtain ⟨r, r1, r2, r3⟩ := e2.read today
  refine ⟨w', r, e1, r1, ?_, ?_⟩
  · obtain ⟨srs, sch, e, -⟩ := r2.hdr
    have := e2.count
    rw [e]
    show w'.count.toNat = _
    simpa [cutTo] using this
  · rw [List.nil_append, hl] at r3; exact r3

/-- A header with format 1, one variable record and version 1.2. -/
def sampleHeader : Header :=
  { Header.new 1 2000 with
    schema := match Schema.make .f1 with
      | .ok s => s
      | _ => (Header.new 1 2000).schema
    sourceId := 5
    reserved := 9
    recordsCount := 1
    vlrs := [{ VLR.new with data := [1, 2, 3], recordSize := 3, recordId := 77, userId := padTo 16 (lit "me") }] }

theorem sampleHeader_storable : StorableHeader sampleHeader :=
  ⟨by decide +kernel, by decide +kernel, by decide +kernel, by decide +kernel, by decide +kernel, by decide +kernel, by decide +kernel,
    by decide +kernel, by
      have : ∀ v ∈ sampleHeader.vlrs ++ sampleHeader.srs, v.userId.length = 16 ∧ v.description.length = 32 ∧
        v.recordSize.toNat = v.data.length := by decide +kernel
      exact this⟩

/-- The hypotheses of C20 are met by a header with a variable record: two points of 28 bytes. -/
example : ∃ w, Writer.make plainEnv (OStream.onFile []) sampleHeader = .ok w ∧
    sampleHeader.headerSize.toNat + recordBytes w.hdr.vlrs + 4 < 2 ^ 31 ∧ w.hdr.vlrs.length = 1 ∧
    w.hdr.vlrs.find? VLR.isSchema = none ∧ 0 < sampleHeader.dataRecordLength ∧
    ∀ p ∈ [List.replicate 28 7#8, List.replicate 30 9#8], sampleHeader.dataRecordLength ≤ p.length :=
  Outcome.exists_of_check (by decide +kernel)

/-! C21 -/

/-- Files obtained by writing points to an empty stream and then any number of append sessions, each with the header
read from the file, and the points written in all sessions. -/
inductive Produced (env : Env) (today : BitVec 16 × BitVec 16) : List Byte → List (List Byte) → Prop where
  | fresh {h w w' pts} : StorableHeader h → Writer.make env (OStream.onFile []) h = .ok w →
      h.headerSize.toNat + recordBytes w.hdr.vlrs + 4 < 2 ^ 31 → NoSchema env w.hdr.vlrs → w.hdr.padding = 0 →
      (∀ p ∈ pts, p.length = h.dataRecordLength) → 0 < h.dataRecordLength → pts.length < 2 ^ 32 →
      w.writePoints pts = .ok w' →
      Produced env today w'.close.buf pts
  | append {b old r w w' pts} : Produced env today b old → Reader.make env today (IStream.onFile b) = .ok r →
      Writer.make env (OStream.onFile b) r.hdr = .ok w → (∀ p ∈ pts, p.length = r.hdr.dataRecordLength) →
      old.length + pts.length < 2 ^ 32 → w.writePoints pts = .ok w' →
      Produced env today w'.close.buf (old ++ pts)

private theorem produced_inv {env : Env} {today : BitVec 16 × BitVec 16} {b : List Byte} {ps : List (List Byte)}
    (hp : Produced env today b ps) : ∃ h, FileOf env h b ps ∧ NoSchema env h.vlrs ∧ Tight h b ps := by
  induction hp with
  | @fresh h w w' pts hs hmk hsmall hns hpad hlen h0 hn hwr =>
    obtain ⟨pad, hf⟩ := new_file (StorableHeader.good hs) hs.size hmk hsmall
    have hw := hf.writing hs (Or.inl hns) h0 hsmall
    have hl : w.hdr.dataRecordLength = h.dataRecordLength := by rw [hf.hdr]; rfl
    obtain ⟨v', e1, e2, e3⟩ := hw.finish pts (by intro p hp; rw [hl, hlen p hp]) (by simpa using hn)
    rw [hwr] at e1
    injection e1 with e1
    subst e1
    rw [List.nil_append, cutTo_eq (by rw [hl]; exact hlen)] at e2
    refine ⟨_, e2, hns, ?_⟩
    have hp0 : pad = 0 := by
      have : w.hdr.padding = BitVec.ofNat 32 pad := by conv_lhs => rw [hf.hdr]
      rw [hpad] at this
      have h2 := congrArg BitVec.toNat this
      rw [BitVec.toNat_ofNat, Nat.mod_eq_of_lt (by have := hf.pad_le; omega)] at h2
      simpa using h2.symm
    have ht := hf.noTail hp0
    unfold Tight
    rw [e3]
    show max _ _ ≤ w.hdr.dataOffset.toNat + pts.length * w.hdr.dataRecordLength
    split
    · omega
    · simp; omega
  | @append b old r w w' pts _ hr hmk hlen hn hwr ih =>
    obtain ⟨h, f1, f2, f3⟩ := ih
    obtain ⟨r', r1, r2, -⟩ := f1.read today
    rw [hr] at r1
    injection r1 with r1
    subst r1
    obtain ⟨v, w1, w2, w3, w4, w5, w6, w7⟩ := f1.append f2 f3 r2
    rw [hmk] at w1
    injection w1 with w1
    subst w1
    have hl : w.hdr.dataRecordLength = r.hdr.dataRecordLength := by rw [w6]
    obtain ⟨v', e1, e2, e3⟩ := w2.finish pts (by intro p hp; rw [hl, hlen p hp]) hn
    rw [hwr] at e1
    injection e1 with e1
    subst e1
    rw [cutTo_eq (by rw [hl]; exact hlen)] at e2
    refine ⟨_, e2, w3, ?_⟩
    unfold Tight at f3 ⊢
    rw [e3, w4]
    show max _ _ ≤ w.hdr.dataOffset.toNat + (old ++ pts).length * w.hdr.dataRecordLength
    have hle : old.length * h.dataRecordLength ≤ (old ++ pts).length * h.dataRecordLength :=
      Nat.mul_le_mul_right _ (by simp)
    rw [w5, w7]
    split
    · omega
    · rw [List.length_append] at *
      omega

/-- C21: after a first session without padding and any number of append sessions, a reader delivers the points of all
sessions in the order they were written and advertises their number. -/
theorem append_keeps_points {env : Env} {today : BitVec 16 × BitVec 16} {b : List Byte} {ps : List (List Byte)}
    (hp : Produced env today b ps) :
    ∃ r, Reader.make env today (IStream.onFile b) = .ok r ∧ r.hdr.pointCount.toNat = ps.length ∧ delivers r ps := by
  obtain ⟨h, f1, -, -⟩ := produced_inv hp
  obtain ⟨r, r1, r2, r3⟩ := f1.read today
  obtain ⟨srs, sch, e, -⟩ := r2.hdr
  exact ⟨r, r1, by rw [e]; exact f1.count, r3⟩

/-- C21, progress: an append session on such a file never fails. -/
theorem append_possible {env : Env} {today : BitVec 16 × BitVec 16} {b : List Byte} {ps : List (List Byte)}
    (hp : Produced env today b ps) {r : Reader} (hr : Reader.make env today (IStream.onFile b) = .ok r)
    (pts : List (List Byte)) (hlen : ∀ p ∈ pts, p.length = r.hdr.dataRecordLength) (hn : ps.length + pts.length < 2 ^ 32) :
    ∃ w w', Writer.make env (OStream.onFile b) r.hdr = .ok w ∧ w.writePoints pts = .ok w' ∧
      Produced env today w'.close.buf (ps ++ pts) := by
  obtain ⟨h, f1, f2, f3⟩ := produced_inv hp
  obtain ⟨r', r1, r2, -⟩ := f1.read today
  rw [hr] at r1
  injection r1 with r1
  subst r1
  obtain ⟨w, w1, w2, -, -, -, w6, -⟩ := f1.append f2 f3 r2
  obtain ⟨w', e1, -, -⟩ := w2.finish pts (by intro p hp'; rw [w6, hlen p hp']) hn
  exact ⟨w, w', w1, e1, Produced.append hp hr w1 hlen hn e1⟩

/-- A session for the example below: open, write, close. -/
def session (env : Env) (b : List Byte) (h : Header) (pts : List (List Byte)) : Outcome (List Byte) := do
  let w ← Writer.make env (OStream.onFile b) h
  let w ← w.writePoints pts
  pure w.close.buf

/-- Append with the header read from the file. -/
def appendSession (env : Env) (today : BitVec 16 × BitVec 16) (b : List Byte) (pts : List (List Byte)) : Outcome (List Byte) := do
  let r ← Reader.make env today (IStream.onFile b)
  session env b r.hdr pts

/-- The first two points a reader delivers. -/
def firstTwo (env : Env) (today : BitVec 16 × BitVec 16) (b : List Byte) : Outcome (List (List Byte)) := do
  let r ← Reader.make env today (IStream.onFile b)
  let (r, a) := r.readNext
  let p := r.point
  let a ← a
  let (r, c) := r.readNext
  let q := r.point
  let c ← c
  pure (if a && c then [p, q] else [])

/-- C21 does not hold with padding: the padding is written behind the end of the stream, so the file is longer than its
records and the appended point lands behind the gap. -/
theorem append_after_padding : ∃ h, StorableHeader h ∧ h.dataRecordLength = 34 ∧
    ∃ ps, (do let b ← session plainEnv [] h [List.replicate 34 1#8]
              let b ← appendSession plainEnv (1, 2000) b [List.replicate 34 2#8]
              firstTwo plainEnv (1, 2000) b) = Outcome.ok ps ∧ ps = [List.replicate 34 1#8, List.replicate 34 0#8] := by
  refine ⟨{ Header.new 1 2000 with dataOffset := 229 }, ?_, by decide +kernel, Outcome.exists_of_check (by decide +kernel)⟩
  exact ⟨by decide +kernel, rfl, by decide +kernel, by decide +kernel, rfl, by decide, by decide, by decide +kernel, by intro v hv; simp [Header.new] at hv⟩

/-- Without padding the same sessions work. -/
example : ∃ ps, (do let b ← session plainEnv [] sampleHeader [List.replicate 28 1#8]
                    let b ← appendSession plainEnv (1, 2000) b [List.replicate 28 2#8]
                    firstTwo plainEnv (1, 2000) b) = Outcome.ok ps ∧ ps = [List.replicate 28 1#8, List.replicate 28 2#8] :=
  Outcome.exists_of_check (by decide +kernel)

/-! C14 -/

theorem guidBytes_eq {g : List Byte} (h : g.length = 16) : HeaderWriter.guidBytes g = mixedEndian g := by
  match g, h with
  | [_, _, _, _, _, _, _, _, _, _, _, _, _, _, _, _], _ => rfl

/-- C14, proved part: what a reader shows of a header after the file was written (with any points) and closed. The
project id comes back with its leading fields byte-swapped (`mixedEndian`), and in version 1.0 files source id and reserved value are mixed up;
see `project_id_lost` and `source_id_lost`. The point count is that of the points written. The format is kept when no
schema record is understood. -/
theorem header_round_trip_partial (env : Env) (today : BitVec 16 × BitVec 16) {h : Header} {w w' : Writer} {r : Reader}
    (hs : StorableHeader h) (hmk : Writer.make env (OStream.onFile []) h = .ok w)
    (hsmall : h.headerSize.toNat + recordBytes w.hdr.vlrs + 4 < 2 ^ 31)
    (hschema : NoSchema env w.hdr.vlrs) (h0 : 0 < h.dataRecordLength)
    (pts : List (List Byte)) (hp : ∀ p ∈ pts, h.dataRecordLength ≤ p.length) (hn : pts.length < 2 ^ 32)
    (hwr : w.writePoints pts = .ok w') (hr : Reader.make env today (IStream.onFile w'.close.buf) = .ok r) :
    r.hdr.signature = h.signature ∧ r.hdr.verMajor = h.verMajor ∧ r.hdr.verMinor = h.verMinor ∧
    r.hdr.getSystemId false = h.getSystemId false ∧ r.hdr.getSoftwareId false = h.getSoftwareId false ∧
    r.hdr.doy = h.doy ∧ r.hdr.year = h.year ∧ r.hdr.headerSize = h.headerSize ∧
    r.hdr.dataOffset = w.hdr.dataOffset ∧ r.hdr.schema.fmt = h.schema.fmt ∧ r.hdr.compressed = h.compressed ∧
    r.hdr.dataRecordLength = h.dataRecordLength ∧ r.hdr.pointCount.toNat = pts.length ∧
    r.hdr.byReturn.take 5 = h.byReturn.take 5 ∧ r.hdr.scale = h.scale ∧ r.hdr.offset = h.offset ∧
    r.hdr.min = h.min ∧ r.hdr.max = h.max ∧ r.hdr.recordsCount.toNat = w.hdr.vlrs.length ∧
    List.Forall₂ SameRecord w.hdr.vlrs r.hdr.vlrs ∧
    r.hdr.guid = mixedEndian h.guid ∧
    (h.verMinor ≠ 0 → r.hdr.sourceId = h.sourceId ∧ r.hdr.reserved = h.reserved) := by
  obtain ⟨pad, hf⟩ := new_file (StorableHeader.good hs) hs.size hmk hsmall
  have hw := hf.writing hs (Or.inl hschema) h0 hsmall
  have hl : w.hdr.dataRecordLength = h.dataRecordLength := by rw [hf.hdr]; rfl
  obtain ⟨v', e1, e2, -⟩ := hw.finish pts (by rw [hl]; exact hp) (by simpa using hn)
  rw [hwr] at e1; injection e1 with e1; subst e1
  obtain ⟨r', r1, r2, -⟩ := e2.read today
  rw [hr] at r1; injection r1 with r1; subst r1
  have hrl := r2.recordLength
  obtain ⟨srs, sch, e, hfmt⟩ := r2.hdr
  have hfmt := hfmt hschema
  have hcnt := e2.count
  have hrd := hw.readable
  have e0 := hf.hdr
  have k1 := hs.major
  have k2 := hf.raw
  have k3 : w.hdr.verMinor = h.verMinor := by rw [e0]
  refine ⟨?_, ?_, ?_, ?_, ?_, ?_, ?_, ?_, ?_, ?_, ?_, ?_, ?_, ?_, ?_, ?_, ?_, ?_, ?_, ?_, ?_, ?_⟩
  · rw [e, hs.signature]; rfl
  · rw [e, k1]; rfl
  · rw [e]; exact k3
  · rw [e]
    show (cstr (padTo 32 (cstr w.hdr.systemId))) = cstr h.systemId
    rw [cstr_padTo, cstr_cstr, e0]
  · rw [e]
    show (cstr (padTo 32 (cstr w.hdr.softwareId))) = cstr h.softwareId
    rw [cstr_padTo, cstr_cstr, e0]
  · rw [e]; show w.hdr.doy = _; rw [e0]
  · rw [e]; show w.hdr.year = _; rw [e0]
  · rw [e]; show w.hdr.headerSize = _; rw [e0]
  · rw [e]; rfl
  · rw [e]; show sch.fmt = _; rw [hfmt]; show w.hdr.schema.fmt = _; rw [e0]
  · rw [e]; show w.hdr.compressed = _; rw [e0]
  · rw [hrl, ← hl]; rfl
  · rw [e]
    show w'.count.toNat = _
    simpa [cutTo] using hcnt
  · rw [e]
    show (w.hdr.byReturn.take 5 ++ [0, 0]).take 5 = _
    have : (w.hdr.byReturn.take 5).length = 5 := by have := hrd.returns; simp; omega
    rw [List.take_append_of_le_length (by omega), List.take_of_length_le (by omega), e0]
  · rw [e]; show w.hdr.scale = _; rw [e0]
  · rw [e]; show w.hdr.offset = _; rw [e0]
  · rw [e]; show w.hdr.min = _; rw [e0]
  · rw [e]; show w.hdr.max = _; rw [e0]
  · rw [e]; exact hrd.count
  · rw [e]
    show List.Forall₂ SameRecord w.hdr.vlrs (w.hdr.vlrs.map VLR.canon)
    generalize w.hdr.vlrs = l
    induction l with
    | nil => exact List.Forall₂.nil
    | cons v vs ih => exact List.Forall₂.cons (canon_same v) ih
  · rw [e]; show HeaderWriter.guidBytes w.hdr.guid = _; rw [e0]; exact guidBytes_eq hs.guid
  · intro hv
    have k4 : w.hdr.verMinor ≠ 0 := by rw [k3]; exact hv
    constructor
    · rw [e]
      show readSource { w.hdr with pointCount := w'.count } = _
      unfold readSource; rw [if_neg k4]; show w.hdr.sourceId = _; rw [e0]
    · rw [e]
      show readReserved { w.hdr with pointCount := w'.count } = _
      unfold readReserved; rw [if_neg k4]; show w.hdr.reserved = _; rw [e0]

/-- The header a reader shows of a file written without points. -/
def headerBack (env : Env) (h : Header) : Outcome Header := do
  let b ← session env [] h []
  let r ← Reader.make env (1, 2000) (IStream.onFile b)
  pure r.hdr

/-- C14 does not hold for the project id: the writer swaps bytes, the reader does not swap them back. -/
theorem project_id_lost : ∃ h, StorableHeader h ∧ ∃ g, headerBack plainEnv h = .ok g ∧ g.guid ≠ h.guid := by
  refine ⟨{ sampleHeader with guid := [0, 1, 2, 3, 4, 5, 6, 7, 8, 9, 10, 11, 12, 13, 14, 15] }, ?_,
    Outcome.exists_of_check (by decide +kernel)⟩
  exact { sampleHeader_storable with guid := rfl }

/-- C14 does not hold for the source id and the reserved value of version 1.0 files. -/
theorem source_id_lost : ∃ h, StorableHeader h ∧ ∃ g, headerBack plainEnv h = .ok g ∧
    g.sourceId ≠ h.sourceId ∧ g.reserved ≠ h.reserved := by
  refine ⟨{ sampleHeader with verMinor := 0 }, ?_, Outcome.exists_of_check (by decide +kernel)⟩
  exact { sampleHeader_storable with minor := by decide }

/-! C22 -/

theorem replay_append (f : List Byte) (a b : List (Nat × List Byte)) : replay f (a ++ b) = replay (replay f a) b := by
  simp [replay, List.foldl_append]

theorem replay_writesAt (l : List (List Byte)) : ∀ (f : List Byte) (p : Nat), replay f (writesAt p l) = overlay f p l.flatten := by
  induction l with
  | nil => intro f p; rfl
  | cons a l ih =>
    intro f p
    show replay (overlay f p a) (writesAt (p + a.length) l) = _
    rw [ih, overlay_overlay]; rfl

theorem writesAt_take (l : List (List Byte)) : ∀ (p k : Nat), (writesAt p l).take k = writesAt p (l.take k) := by
  induction l with
  | nil => intro p k; simp [writesAt]
  | cons a l ih =>
    intro p k
    cases k with
    | zero => rfl
    | succ k => simp [writesAt, ih]

theorem writesAt_get (l : List (List Byte)) : ∀ (p k : Nat), (writesAt p l)[k]? =
    l[k]?.map fun a => (p + (l.take k).flatten.length, a) := by
  induction l with
  | nil => intro p k; simp [writesAt]
  | cons a l ih =>
    intro p k
    cases k with
    | zero => simp [writesAt]
    | succ k =>
      simp only [writesAt, List.getElem?_cons_succ, ih, List.take_succ_cons, List.flatten_cons, List.length_append]
      cases l[k]? <;> simp [Nat.add_assoc]

/-- The file after a crash: the bytes of `k` records and part of the next one. -/
theorem crashed_writesAt (l : List (List Byte)) (f : List Byte) (p k m : Nat) :
    crashed f (writesAt p l) k m = overlay f p ((l.take k).flatten ++ ((l[k]?.map (·.take m)).getD [])) := by
  unfold crashed
  rw [replay_append, writesAt_take, replay_writesAt, writesAt_get]
  cases l[k]? with
  | none => simp [replay]
  | some a =>
    simp only [Option.map_some, Option.toList_some, Option.getD_some]
    show overlay (overlay f p _) _ _ = _
    rw [overlay_overlay]

/-- What is left of a file if the process stops while points are being written (`old` are the points already in the
file, none for a new file). -/
theorem Writing.crash {env : Env} {w w' : Writer} {old : List (List Byte)} (hw : Writing env w old) (pts : List (List Byte))
    (hp : ∀ p ∈ pts, w.hdr.dataRecordLength ≤ p.length) (hwr : w.writePoints pts = .ok w') (k m : Nat) :
    let x := crashed w.ofs.buf (w'.ofs.log.drop w.ofs.log.length) k m
    slice x 0 227 = headerBytes w.hdr ∧
    slice x w.hdr.headerSize.toNat (vlrTotal w.hdr.vlrs) = w.hdr.vlrs.flatMap vlrBytes ∧
    slice x w.hdr.dataOffset.toNat (old ++ (cutTo w.hdr.dataRecordLength pts).take k).flatten.length =
      (old ++ (cutTo w.hdr.dataRecordLength pts).take k).flatten ∧
    (∀ i, i < x.length → i < w.hdr.dataOffset.toNat + (old ++ (cutTo w.hdr.dataRecordLength pts).take k).flatten.length →
      ¬ (107 ≤ i ∧ i < 111) → x[i]? = w'.close.buf[i]?) := by
  intro x
  obtain ⟨v', e1, e2, e3, e4, e5, e6, e7⟩ := writePoints_ok pts w hw.recPos hw.good hp
  rw [hwr] at e1; injection e1 with e1; subst e1
  have hx : x = overlay w.ofs.buf w.ofs.pos (((cutTo w.hdr.dataRecordLength pts).take k).flatten ++
      (((cutTo w.hdr.dataRecordLength pts)[k]?.map (·.take m)).getD [])) := by
    show crashed _ _ _ _ = _
    rw [e7, List.drop_left', crashed_writesAt]; rfl
  generalize hA : ((cutTo w.hdr.dataRecordLength pts).take k).flatten = A at hx ⊢
  generalize hB : ((cutTo w.hdr.dataRecordLength pts)[k]?.map (·.take m)).getD [] = B at hx
  have hpos := hw.pos
  have hof := hw.fits
  have hsz := hw.size
  have hhl := headerBytes_length hw.readable.toSized hw.readable.returns
  have hbl : 227 ≤ w.ofs.buf.length := by
    have := congrArg List.length hw.block; rw [slice_length, hhl] at this; omega
  refine ⟨?_, ?_, ?_, ?_⟩
  · rw [hx, slice_overlay_before (by omega) (by omega)]; exact hw.block
  · by_cases h0 : w.hdr.vlrs.flatMap vlrBytes = []
    · have := flatMap_vlrBytes_length hw.readable.wf
      rw [h0] at this ⊢
      rw [← this]; rfl
    · have hge : w.hdr.headerSize.toNat + vlrTotal w.hdr.vlrs ≤ w.ofs.buf.length := by
        have := slice_length_ge (b := w.ofs.buf) (x := w.hdr.vlrs.flatMap vlrBytes) (off := w.hdr.headerSize.toNat)
          (by rw [flatMap_vlrBytes_length hw.readable.wf]; exact hw.records) h0
        rwa [flatMap_vlrBytes_length hw.readable.wf] at this
      rw [hx, slice_overlay_before (by omega) (by omega)]
      exact hw.records
  · rw [List.flatten_append, hA]
    apply slice_split
    · by_cases h0 : old.flatten = []
      · rw [h0]; rfl
      · rw [hx, slice_overlay_before (by omega) (slice_length_ge hw.data h0)]
        exact hw.data
    · rw [hx, slice_overlay_in (by omega) (by rw [List.length_append]; omega)]
      rw [show w.hdr.dataOffset.toNat + old.flatten.length - w.ofs.pos = 0 by omega,
        slice_append_left (by omega), slice_self]
  · intro i hi hi2 hi3
    rw [close_buf e4, e5, hx]
    rw [List.flatten_append, hA, List.length_append] at hi2
    have hput : (put 4 w'.count).length = 4 := put_length _ _
    have hne : put 4 w'.count ≠ [] := by intro hh; rw [hh] at hput; simp at hput
    have hAll : (cutTo w.hdr.dataRecordLength pts).flatten = A ++ ((cutTo w.hdr.dataRecordLength pts).drop k).flatten := by
      rw [← hA, ← List.flatten_append, List.take_append_drop]
    rw [overlay_getElem? (overlay _ _ _) 107, if_neg hne, hput]
    have hR : (if i < 107 then (if i < (overlay w.ofs.buf w.ofs.pos (cutTo w.hdr.dataRecordLength pts).flatten).length then
        (overlay w.ofs.buf w.ofs.pos (cutTo w.hdr.dataRecordLength pts).flatten)[i]? else some 0#8)
        else if i < 107 + 4 then (put 4 w'.count)[i - 107]? else
        (overlay w.ofs.buf w.ofs.pos (cutTo w.hdr.dataRecordLength pts).flatten)[i]?) =
        (overlay w.ofs.buf w.ofs.pos (cutTo w.hdr.dataRecordLength pts).flatten)[i]? := by
      split
      · rw [if_pos]
        rw [overlay_length]; split <;> omega
      · rw [if_neg (by omega)]
    rw [hR, hAll, overlay_getElem?, overlay_getElem?]
    rw [hx, overlay_length] at hi
    by_cases hc : A ++ B = []
    · rw [if_pos hc]
      rw [if_pos hc] at hi
      obtain ⟨rfl, rfl⟩ := List.append_eq_nil_iff.1 hc
      simp only [List.nil_append]
      by_cases hd : ((cutTo w.hdr.dataRecordLength pts).drop k).flatten = []
      · rw [if_pos hd]
      · rw [if_neg hd, if_pos (by simp only [List.length_nil, Nat.add_zero] at hi2; omega), if_pos hi]
    · rw [if_neg hc]
      by_cases hd : A ++ ((cutTo w.hdr.dataRecordLength pts).drop k).flatten = []
      · obtain ⟨rfl, hd2⟩ := List.append_eq_nil_iff.1 hd
        rw [if_pos hd, if_pos (by simp only [List.length_nil, Nat.add_zero] at hi2; omega)]
        split
        · rfl
        · rename_i hlt
          -- the next record would have to be empty
          exfalso
          apply hc
          rw [List.nil_append, ← hB]
          cases hq : (cutTo w.hdr.dataRecordLength pts)[k]? with
          | none => rfl
          | some a =>
            have hk : k < (cutTo w.hdr.dataRecordLength pts).length := (List.getElem?_eq_some_iff.1 hq).1
            have hmem : a ∈ (cutTo w.hdr.dataRecordLength pts).drop k := by
              rw [List.drop_eq_getElem_cons hk]
              have := (List.getElem?_eq_some_iff.1 hq).2
              simp [this]
            have : a = [] := List.flatten_eq_nil_iff.1 hd2 a hmem
            simp [this]
      · rw [if_neg hd]
        by_cases h1 : i < w.ofs.pos
        · rw [if_pos h1, if_pos h1]
        · rw [if_neg h1, if_neg h1, if_pos (by rw [List.length_append]; omega), if_pos (by rw [List.length_append]; omega),
            List.getElem?_append_left (by omega), List.getElem?_append_left (by omega)]

theorem fileNat_put {b : List Byte} {off n : Nat} (v : BitVec (8 * n)) (h : slice b off n = put n v) :
    fileNat b off n = v.toNat := by
  unfold fileNat
  rw [h]
  have h2 : memValue .little (8 * n) (put n v) = v := got_put n v
  rw [memValue_little] at h2
  have h3 := congrArg BitVec.toNat h2
  rw [BitVec.toNat_ofNat, Nat.mod_eq_of_lt] at h3
  · exact h3
  · have := leNat_lt (put n v)
    rw [put_length] at this
    rw [Nat.pow_mul]; exact this

/-- What a crash leaves, in terms of the file: `n` is the point count the file advertised when the writer was
opened, `off` and `len` the place and length of the records, `ps` the points fully written, `final` the file that would
have been left by closing. -/
structure CrashSafe (env : Env) (today : BitVec 16 × BitVec 16) (x : List Byte) (n off len : Nat) (ps : List (List Byte))
    (final : List Byte) : Prop where
  /-- The advertised point count is the old one. -/
  count : fileNat x 107 4 = n
  /-- Every point fully written is in place. -/
  points : ∀ i p, ps[i]? = some p → record x off len i = p
  /-- Apart from the point count, the file agrees with the final one up to there. -/
  agrees : ∀ i, i < x.length → i < off + ps.length * len → ¬ (107 ≤ i ∧ i < 111) → x[i]? = final[i]?
  /-- The file can be opened and shows the old count. -/
  opens : ∃ r, Reader.make env today (IStream.onFile x) = .ok r ∧ r.hdr.pointCount.toNat = n

private theorem crash_safe {env : Env} (today : BitVec 16 × BitVec 16) {w w' : Writer} {old : List (List Byte)}
    (hw : Writing env w old) (pts : List (List Byte)) (hp : ∀ p ∈ pts, p.length = w.hdr.dataRecordLength)
    (hwr : w.writePoints pts = .ok w') (k m : Nat) :
    CrashSafe env today (crashed w.ofs.buf (w'.ofs.log.drop w.ofs.log.length) k m) w.hdr.pointCount.toNat
      w.hdr.dataOffset.toNat w.hdr.dataRecordLength (old ++ pts.take k) w'.close.buf := by
  obtain ⟨c1, c2, c3, c4⟩ := hw.crash pts (fun p h => by rw [hp p h]) hwr k m
  generalize hx : crashed w.ofs.buf (w'.ofs.log.drop w.ofs.log.length) k m = x at *
  rw [cutTo_eq hp] at c3 c4
  have hlen : ∀ p ∈ old ++ pts.take k, p.length = w.hdr.dataRecordLength := by
    intro p h
    rcases List.mem_append.1 h with h | h
    · exact hw.len p h
    · exact hp p (List.mem_of_mem_take h)
  have hrec := recordsFrom_eq (old ++ pts.take k) _ hlen c3
  obtain ⟨r, r1, r2⟩ := reopen env today hw.readable c1 c2 hw.schema
  constructor
  · exact fileNat_put (n := 4) w.hdr.pointCount (by
      rw [slice_of_block c1 (by omega)]
      exact field_at hw.readable.toSized hw.readable.returns 14 _ rfl 107 4 rfl rfl)
  · intro i p hi
    have := congrArg (fun l => l[i]?) hrec
    simp only [recordsFrom, List.getElem?_map, hi] at this
    have hlt : i < (old ++ pts.take k).length := (List.getElem?_eq_some_iff.1 hi).1
    rw [List.getElem?_range hlt] at this
    simpa using this
  · intro i h1 h2 h3
    rw [← flatten_length_const hlen] at h2
    exact c4 i h1 h2 h3
  · obtain ⟨srs, sch, e, -⟩ := r2.hdr
    exact ⟨r, r1, by rw [e]; rfl⟩

/-- C22, new file: stopping after any number of complete point writes and any part of the next one. -/
theorem crash_new_file (env : Env) (today : BitVec 16 × BitVec 16) {h : Header} {w w' : Writer} (hs : StorableHeader h)
    (hmk : Writer.make env (OStream.onFile []) h = .ok w)
    (hsmall : h.headerSize.toNat + recordBytes w.hdr.vlrs + 4 < 2 ^ 31)
    (hschema : NoSchema env w.hdr.vlrs) (h0 : 0 < h.dataRecordLength)
    (pts : List (List Byte)) (hp : ∀ p ∈ pts, p.length = h.dataRecordLength)
    (hwr : w.writePoints pts = .ok w') (k m : Nat) :
    CrashSafe env today (crashed w.ofs.buf (w'.ofs.log.drop w.ofs.log.length) k m) h.pointCount.toNat
      w.hdr.dataOffset.toNat h.dataRecordLength (pts.take k) w'.close.buf := by
  obtain ⟨pad, hf⟩ := new_file (StorableHeader.good hs) hs.size hmk hsmall
  have hw := hf.writing hs (Or.inl hschema) h0 hsmall
  have hl : w.hdr.dataRecordLength = h.dataRecordLength := by rw [hf.hdr]; rfl
  have hc : w.hdr.pointCount = h.pointCount := by rw [hf.hdr]
  have := crash_safe today hw pts (by rw [hl]; exact hp) hwr k m
  rw [hl, hc] at this
  exact this

/-- C22, append session: the old points stay, with their number. -/
theorem crash_append {env : Env} {today : BitVec 16 × BitVec 16} {b : List Byte} {ps : List (List Byte)}
    (hpr : Produced env today b ps) {r : Reader} (hr : Reader.make env today (IStream.onFile b) = .ok r)
    {w w' : Writer} (hmk : Writer.make env (OStream.onFile b) r.hdr = .ok w)
    (pts : List (List Byte)) (hlen : ∀ p ∈ pts, p.length = r.hdr.dataRecordLength) (hwr : w.writePoints pts = .ok w')
    (k m : Nat) :
    CrashSafe env today (crashed w.ofs.buf (w'.ofs.log.drop w.ofs.log.length) k m) ps.length
      r.hdr.dataOffset.toNat r.hdr.dataRecordLength (ps ++ pts.take k) w'.close.buf := by
  obtain ⟨h, f1, f2, f3⟩ := produced_inv hpr
  obtain ⟨r', r1, r2, -⟩ := f1.read today
  rw [hr] at r1
  injection r1 with r1
  subst r1
  obtain ⟨v, w1, w2, -, -, -, w6, -⟩ := f1.append f2 f3 r2
  rw [hmk] at w1
  injection w1 with w1
  subst w1
  have := crash_safe today w2 pts (by rw [w6]; exact hlen) hwr k m
  rw [w6] at this
  have hc : r.hdr.pointCount.toNat = ps.length := by
    obtain ⟨srs, sch, e, -⟩ := r2.hdr
    rw [e]; exact f1.count
  rw [hc] at this
  exact this

/-- The log of a writer holds what its session wrote: replaying it on the file as it was at opening gives the file
now. So the crash states above are those of the writes the session made. -/
theorem log_is_history {env : Env} {b : List Byte} {h : Header} {w w' : Writer} (pts : List (List Byte))
    (h0 : 0 < w.hdr.dataRecordLength) (hf : w.ofs.fail = false) (hp : ∀ p ∈ pts, w.hdr.dataRecordLength ≤ p.length)
    (_ : Writer.make env (OStream.onFile b) h = .ok w) (hwr : w.writePoints pts = .ok w') :
    w'.ofs.buf = replay w.ofs.buf (w'.ofs.log.drop w.ofs.log.length) ∧
    w'.ofs.log.drop w.ofs.log.length = writesAt w.ofs.pos (pts.map fun p => p.take w.hdr.dataRecordLength) := by
  obtain ⟨v', e1, e2, e3, e4, e5, e6, e7⟩ := writePoints_ok pts w h0 hf hp
  rw [hwr] at e1; injection e1 with e1; subst e1
  rw [e7, List.drop_left' rfl]
  exact ⟨by rw [replay_writesAt]; exact e5, rfl⟩

/-- The hypotheses of C22 are met: three points written, then a crash in the middle of the second. -/
example : ∃ w, Writer.make plainEnv (OStream.onFile []) sampleHeader = .ok w ∧
    ∃ w', w.writePoints [List.replicate 28 1#8, List.replicate 28 2#8, List.replicate 28 3#8] = .ok w' ∧
      (crashed w.ofs.buf (w'.ofs.log.drop w.ofs.log.length) 1 10).length = 227 + 57 + 38 := by
  obtain ⟨w, h1, h2⟩ := Outcome.exists_of_check (x := Writer.make plainEnv (OStream.onFile []) sampleHeader)
    (P := fun w => (w.writePoints [List.replicate 28 1#8, List.replicate 28 2#8, List.replicate 28 3#8]).check
      (fun w' => decide ((crashed w.ofs.buf (w'.ofs.log.drop w.ofs.log.length) 1 10).length = 227 + 57 + 38)) = true)
    (by decide +kernel)
  exact ⟨w, h1, Outcome.exists_of_check h2⟩

end LibLAS
