import Verif.Model.SpatialRef
import Verif.Props.Records
import Verif.Props.MakeNew
import Verif.Lemmas.IndexHead
/-
C93. Coordinate systems, in a build without GDAL and libgeotiff.
-/
namespace LibLAS
open Spec

theorem isGeo_same {v w : VLR} (h : SameRecord v w) : w.isGeo = v.isGeo := by
  rw [Bool.eq_iff_iff, isGeo_iff, isGeo_iff]
  unfold recordName
  rw [h.2.1, h.2.2.2.2.1]

theorem filter_same {p : VLR → Bool} (hp : ∀ v w, SameRecord v w → p w = p v) {vs ws : List VLR}
    (h : List.Forall₂ SameRecord vs ws) : List.Forall₂ SameRecord (vs.filter p) (ws.filter p) := by
  induction h with
  | nil => exact List.Forall₂.nil
  | @cons v w vs ws hvw _ ih =>
    rw [List.filter_cons, List.filter_cons, hp v w hvw]
    split
    · exact List.Forall₂.cons hvw ih
    · exact ih

/-- The records of references: whatever is done to one, it holds only records that describe a coordinate system. -/
inductive Reference : SRS → Prop where
  | new : Reference SRS.new
  | ofRecords (vs) : Reference (SRS.ofRecords vs)
  | copy {s} : Reference s → Reference s.copy
  | addVLR {s} (v) : Reference s → Reference (s.addVLR v)
  | clearVLRs {s} (k) : Reference s → Reference (s.clearVLRs k)
  | setWKT {s} (t) : Reference s → Reference (s.setWKT t).1
  | setProj4 {s} (t) : Reference s → Reference (s.setProj4 t).1

theorem wktRecord_isGeo (t : List Byte) : (SRS.wktRecord t).isGeo = true := by
  have : (SRS.wktRecord t).isGeo = (SRS.wktRecord []).isGeo := rfl
  rw [this]
  decide +kernel

theorem resetVLRs_geo (s : SRS) : ∀ v ∈ (SRS.resetVLRs s).1.vlrs, v.isGeo = true := by
  unfold SRS.resetVLRs
  split
  · simp
  · split
    · simp
    · intro v hv
      simp only [List.mem_singleton] at hv
      rw [hv]
      exact wktRecord_isGeo _

theorem Reference.geo {s : SRS} (h : Reference s) : ∀ v ∈ s.vlrs, v.isGeo = true := by
  induction h with
  | new => simp [SRS.new]
  | ofRecords vs => intro v hv; exact (List.mem_filter.1 hv).2
  | copy _ _ => intro v hv; exact (List.mem_filter.1 hv).2
  | @addVLR s v _ ih =>
    intro x hx
    unfold SRS.addVLR at hx
    split at hx
    · rcases List.mem_append.1 hx with h | h
      · exact ih x h
      · simp only [List.mem_singleton] at h; subst h; assumption
    · exact ih x hx
  | clearVLRs k _ ih => intro v hv; exact ih v (List.mem_filter.1 hv).1
  | setWKT t _ _ => exact resetVLRs_geo _
  | @setProj4 s t _ _ =>
    unfold SRS.setProj4
    have h1 := resetVLRs_geo s
    split
    · exact resetVLRs_geo _
    · exact h1

theorem Reference.copy_eq {s : SRS} (h : Reference s) : s.copy = s := by
  unfold SRS.copy
  rw [List.filter_eq_self.2 h.geo]

theorem schemaRecord_name {env : Env} {S : Schema} {v : VLR} (h : S.getVLR env = .ok v) : recordName v = (lit "liblas", 7) := by
  unfold Schema.getVLR at h
  dsimp only at h
  split at h
  · cases h
  · injection h with h
    rw [← h]
    have : cstr (padTo 16 (lit "liblas")) = lit "liblas" := by decide +kernel
    unfold recordName VLR.getUserId
    simp only [this, Bool.false_and, Bool.false_eq_true, if_false]

/-- C93: the records of the reference given to a header, and no other records of that kind, are the reference found in
the file: the same in the same order. The header may have had any other reference before. -/
theorem reference_records_kept (env : Env) (today : BitVec 16 × BitVec 16) {g : Header} {s : SRS} (hsr : Reference s)
    {w w' : Writer} {r : Reader} (hs : StorableHeader (g.setReference s))
    (hmk : Writer.make env (OStream.onFile []) (g.setReference s) = .ok w)
    (hsmall : g.headerSize.toNat + recordBytes w.hdr.vlrs + 4 < 2 ^ 31)
    (hschema : NoSchema env w.hdr.vlrs) (h0 : 0 < g.dataRecordLength)
    (pts : List (List Byte)) (hp : ∀ p ∈ pts, g.dataRecordLength ≤ p.length) (hn : pts.length < 2 ^ 32)
    (hwr : w.writePoints pts = .ok w') (hr : Reader.make env today (IStream.onFile w'.close.buf) = .ok r) :
    List.Forall₂ SameRecord s.vlrs r.reference.vlrs := by
  have hrec := written_records_partial env today hs hmk hsmall hschema h0 pts hp hn hwr hr
  obtain ⟨pad, hf⟩ := new_file (StorableHeader.good hs) hs.size hmk hsmall
  have hw := hf.writing hs (Or.inl hschema) h0 hsmall
  have hl : w.hdr.dataRecordLength = g.dataRecordLength := by rw [hf.hdr]; rfl
  obtain ⟨v', e1, e2, -⟩ := hw.finish pts (by rw [hl]; exact hp) (by simpa using hn)
  rw [hwr] at e1; injection e1 with e1; subst e1
  obtain ⟨r', r1, r2, -⟩ := e2.read today
  rw [hr] at r1; injection r1 with r1; subst r1
  have hbl : 227 ≤ w'.close.buf.length := by
    have := congrArg List.length e2.block
    rw [slice_length, headerBytes_length e2.readable.toSized e2.readable.returns] at this
    omega
  have hns : NoSchema env r.hdr.vlrs := by
    obtain ⟨srs, sch, e, -⟩ := r2.hdr
    rw [e]
    show NoSchema env (w.hdr.vlrs.map VLR.canon)
    unfold NoSchema
    rw [schemaFromVLRs_canon]
    exact hschema
  have ho := open_file hbl hr hns
  show List.Forall₂ SameRecord s.vlrs r.hdr.srs
  rw [ho.reference]
  have hfil := filter_same (p := VLR.isGeo) (fun v w h => isGeo_same h) hrec
  have hsrs : (g.setReference s).srs = s.vlrs := congrArg SRS.vlrs hsr.copy_eq
  rw [hsrs] at hfil
  have k1 : (callersRecords (g.setReference s).schema.isCustom (g.setReference s).vlrs).filter VLR.isGeo = [] := by
    rw [List.filter_eq_nil_iff]
    intro v hv
    have := (List.mem_filter.1 hv).2
    rw [isGeo_iff]
    simp only [decide_eq_true_eq, List.mem_append, not_or] at this
    exact this.1
  have k2 : (referenceRecords (g.setReference s).schema.isCustom s.vlrs).filter VLR.isGeo = s.vlrs := by
    unfold referenceRecords
    rw [List.filter_filter]
    apply List.filter_eq_self.2
    intro v hv
    have hg := hsr.geo v hv
    have hnm := (isGeo_iff v).1 hg
    have hno : recordName v ∉ ownNames (g.setReference s).schema.isCustom := by
      have hd : ∀ n ∈ geoNames, n ∉ ownNames true ∧ n ∉ ownNames false := by decide +kernel
      cases (g.setReference s).schema.isCustom
      · exact (hd _ hnm).2
      · exact (hd _ hnm).1
    simp [hg, hno]
  have k3 : (schemaRecords env (g.setReference s).schema).filter VLR.isGeo = [] := by
    rw [List.filter_eq_nil_iff]
    intro v hv
    unfold schemaRecords at hv
    split at hv
    · split at hv
      · rename_i x hx
        simp only [List.mem_singleton] at hv
        subst hv
        have hnm := schemaRecord_name hx
        rw [isGeo_iff, hnm]
        decide +kernel
      · simp at hv
    · simp at hv
  rw [List.filter_append, List.filter_append, k1, k2, k3, List.nil_append, List.append_nil] at hfil
  exact hfil

/-- C93: a text set as coordinate system is kept in one record, with a zero byte at its end. -/
theorem wkt_stored (s : SRS) {t : List Byte} (h0 : t ≠ []) (hz : 0#8 ∉ t) (hl : t.length < 65535) :
    ∃ v, s.setWKT t = (⟨[v], t⟩, .ok ()) ∧ recordName v = (lit "liblas", 2112) ∧ v.data = t ++ [0] ∧ StorableRecord v := by
  have hc : cstr t = t := by
    have := Index.cstr_append_zero hz []
    rw [← cstr_append_zeros t 1]; exact this
  refine ⟨SRS.wktRecord t, ?_, ?_, ?_, ?_⟩
  · unfold SRS.setWKT SRS.resetVLRs
    simp only
    rw [if_neg h0, if_neg (by rw [hc]; omega)]
  · show recordName (SRS.wktRecord []) = _
    decide +kernel
  · show cstr t ++ [0] = _
    rw [hc]
  · refine ⟨?_, ?_, ?_⟩
    · show (padTo 16 (lit "liblas")).length = 16; decide +kernel
    · show (padTo 32 (lit "OGR variant of OpenGIS WKT SRS")).length = 32; decide +kernel
    · show (BitVec.ofNat 16 ((cstr t).length + 1)).toNat = (cstr t ++ [0]).length
      rw [hc, BitVec.toNat_ofNat, Nat.mod_eq_of_lt (by omega)]
      simp

/-- C93 refuted: the record comes back, but the text of the coordinate system read from a file is empty, whatever text was
set. -/
theorem wkt_not_read (env : Env) (today : BitVec 16 × BitVec 16) {g : Header} {s : SRS} (t : List Byte) (h0 : t ≠ [])
    (hz : 0#8 ∉ t) (hl : t.length < 65535)
    {w w' : Writer} {r : Reader} (hs : StorableHeader (g.setReference (s.setWKT t).1))
    (hmk : Writer.make env (OStream.onFile []) (g.setReference (s.setWKT t).1) = .ok w)
    (hsmall : g.headerSize.toNat + recordBytes w.hdr.vlrs + 4 < 2 ^ 31)
    (hschema : NoSchema env w.hdr.vlrs) (h1 : 0 < g.dataRecordLength)
    (pts : List (List Byte)) (hp : ∀ p ∈ pts, g.dataRecordLength ≤ p.length) (hn : pts.length < 2 ^ 32)
    (hwr : w.writePoints pts = .ok w') (hr : Reader.make env today (IStream.onFile w'.close.buf) = .ok r)
    (hsr : Reference s) :
    (s.setWKT t).1.getWKT = t ∧ r.reference.getWKT = [] ∧ r.reference.vlrs.map VLR.data = [t ++ [0]] := by
  obtain ⟨v, e, -, hd, -⟩ := wkt_stored s h0 hz hl
  have hk := reference_records_kept env today (Reference.setWKT t hsr) hs hmk hsmall hschema h1 pts hp hn hwr hr
  refine ⟨by rw [e]; rfl, rfl, ?_⟩
  rw [e] at hk
  generalize r.reference.vlrs = l at hk
  cases hk with
  | cons hvw hrest =>
    cases hrest
    simp only [List.map_cons, List.map_nil, hvw.2.2.2.1, hd]

/-- C93 refuted: setting a coordinate system by a PROJ.4 text reports nothing, sets nothing and discards the records
that were there. -/
theorem proj4_discards (s : SRS) (t : List Byte) (h : s.wkt = []) : s.setProj4 t = (⟨[], []⟩, .ok ()) := by
  unfold SRS.setProj4 SRS.resetVLRs
  rw [if_pos h]
  simp [h]

/-- Setting a vertical system reports nothing and does nothing; setting one by user input and comparing two references
are refused. -/
theorem others_refused (s u : SRS) (t : List Byte) (a b c : BitVec 32) :
    s.setVerticalCS a t b c = (s, .ok ()) ∧ s.setFromUserInput t = (s, .throw .runtimeError) ∧
    s.equal u = .throw .runtimeError := ⟨rfl, rfl, rfl⟩

/-- Clearing one kind of records removes exactly these and keeps the others in order. -/
theorem cleared {s : SRS} (h : Reference s) (k : SRS.Kind) :
    (s.clearVLRs k).vlrs = s.vlrs.filter fun v =>
      decide (recordName v ∈ if k = .ogrWKT then geoNames.drop 1 else geoNames.take 1) := by
  unfold SRS.clearVLRs
  apply List.filter_congr
  intro v hv
  have hg := (isGeo_iff v).1 (h.geo v hv)
  have hu : cstr (v.getUserId true) = (recordName v).1 := by
    unfold recordName VLR.getUserId
    dsimp only
    split
    · rw [cstr_padTo, cstr_cstr]; simp
    · rw [cstr_cstr]; simp
  have hi : v.recordId = (recordName v).2 := rfl
  unfold SRS.wiped
  rw [hi, hu]
  generalize recordName v = n at hg ⊢
  have hd : ∀ n ∈ geoNames, ∀ k : SRS.Kind, (!(match k with
      | .ogrWKT => n.2 == 2112#16 && n.1 == lit "liblas"
      | .geoTIFF => n.2 == 34735#16 || n.2 == 34736#16 || n.2 == 34737#16)) =
      decide (n ∈ if k = .ogrWKT then geoNames.drop 1 else geoNames.take 1) := by
    intro n hn k
    cases k
    · revert n; decide +kernel
    · revert n; decide +kernel
  exact hd n hg k

/-- A reference for the example. -/
def sampleReference : SRS := (SRS.new.setWKT (lit "GEOGCS")).1

/-- The hypotheses of `reference_records_kept` and `wkt_not_read` are met. -/
example : Reference sampleReference ∧ StorableHeader (sampleHeader.setReference sampleReference) ∧
    ∃ w, Writer.make plainEnv (OStream.onFile []) (sampleHeader.setReference sampleReference) = .ok w ∧
      sampleHeader.headerSize.toNat + recordBytes w.hdr.vlrs + 4 < 2 ^ 31 ∧ w.hdr.vlrs.length = 2 ∧
      w.hdr.vlrs.find? VLR.isSchema = none ∧ 0 < sampleHeader.dataRecordLength := by
  refine ⟨Reference.setWKT _ Reference.new, ⟨?_, ?_, ?_, ?_, ?_, ?_, ?_, ?_, ?_⟩, Outcome.exists_of_check (by decide +kernel)⟩
  iterate 8 decide +kernel
  show ∀ v ∈ (sampleHeader.setReference sampleReference).vlrs ++ (sampleHeader.setReference sampleReference).srs,
    v.userId.length = 16 ∧ v.description.length = 32 ∧ v.recordSize.toNat = v.data.length
  decide +kernel

end LibLAS
