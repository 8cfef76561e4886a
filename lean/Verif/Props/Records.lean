import Verif.Spec.Records
import Verif.Props.WriteRead
/-
C49.
-/
namespace LibLAS
open Spec

theorem same_iff (n : List Byte) (i : BitVec 16) (v : VLR) : VLR.same n i v = decide (recordName v = (n, i)) := by
  unfold VLR.same recordName
  rw [Bool.eq_iff_iff]
  simp

theorem geoVLRs_eq (h : Header) : geoVLRs h = (h.vlrs.filter fun v => decide (recordName v ∉ geoNames)) ++ h.srs := by
  unfold geoVLRs
  simp only [Header.deleteVLRs, List.filter_filter]
  congr 1
  apply List.filter_congr
  intro v _
  rw [Bool.eq_iff_iff]
  simp only [same_iff, geoNames, Bool.and_eq_true, Bool.not_eq_true', decide_eq_false_iff_not, decide_eq_true_eq, List.mem_cons, List.not_mem_nil]
  tauto

/-- The records of a new file: the caller's, the reference's and the schema's. -/
theorem newVLRs_eq {env : Env} {h : Header} {l : List VLR} (e : newVLRs env h = .ok l) :
    l = callersRecords h.schema.isCustom h.vlrs ++ referenceRecords h.schema.isCustom h.srs ++ schemaRecords env h.schema := by
  have hc := (newVLRs_ok e).1
  unfold newVLRs at e
  dsimp only at e
  rw [geoVLRs_eq] at e
  unfold schemaRecords callersRecords referenceRecords
  by_cases hcu : h.schema.isCustom = true
  · rw [hcu]
    simp only [hcu, if_true] at e ⊢
    cases hv : h.schema.getVLR env with
    | throw e' => rw [hv] at e; simp at e
    | ub => rw [hv] at e; simp at e
    | ok v =>
      have hn : recordName v = (lit "liblas", 7) := by
        have := (getVLR_ok hv).2.2
        unfold VLR.isSchema at this
        simp only [Bool.and_eq_true, beq_iff_eq] at this
        exact Prod.ext this.1 this.2
      rw [hv] at e
      simp [hc] at e
      rw [← e]
      have hne : ¬ recordName v = (lit "laszip encoded", 22204#16) := by rw [hn]; decide
      rw [List.append_assoc]
      refine congr_arg₂ (· ++ ·) ?_ (congr_arg₂ (· ++ ·) ?_ ?_)
      · apply List.filter_congr
        intro w _
        rw [Bool.eq_iff_iff]
        simp only [same_iff, ownNames, Bool.and_eq_true, Bool.not_eq_true', decide_eq_false_iff_not, decide_eq_true_eq, List.mem_append,
          List.mem_cons, List.not_mem_nil, if_true]
        tauto
      · apply List.filter_congr
        intro w _
        rw [Bool.eq_iff_iff]
        simp only [same_iff, ownNames, Bool.and_eq_true, Bool.not_eq_true', decide_eq_false_iff_not, decide_eq_true_eq, List.mem_cons, List.not_mem_nil, if_true]
        tauto
      · rw [List.filter_cons, same_iff]; simp [hne]
  · have hcu' : h.schema.isCustom = false := by simpa using hcu
    rw [hcu']
    simp [hc, hcu'] at e
    rw [← e]
    have h2 : ∀ vs : List VLR, (vs.filter fun a => !VLR.same (lit "laszip encoded") 22204#16 a) =
        vs.filter fun v => decide (recordName v ∉ ownNames false) := by
      intro vs
      apply List.filter_congr
      intro w _
      rw [Bool.eq_iff_iff]
      simp [same_iff, ownNames]
    have h3 : (h.vlrs.filter fun v => decide (recordName v ∉ geoNames ++ ownNames false)) =
        (h.vlrs.filter fun v => decide (recordName v ∉ geoNames)).filter fun v => decide (recordName v ∉ ownNames false) := by
      rw [List.filter_filter]
      apply List.filter_congr
      intro w _
      rw [Bool.eq_iff_iff]
      simp only [List.mem_append, decide_eq_true_eq, Bool.and_eq_true]
      tauto
    rw [h3, ← h2, ← h2]
    simp [List.filter_filter]

/-- C49, exactly: writing any number of points with a header and reading the file back gives, unchanged and in this order,
the caller's records that the library does not claim, the records of the header's spatial reference object, and the
record of a custom schema. -/
theorem written_records_partial (env : Env) (today : BitVec 16 × BitVec 16) {h : Header} {w w' : Writer} {r : Reader}
    (hs : StorableHeader h) (hmk : Writer.make env (OStream.onFile []) h = .ok w)
    (hsmall : h.headerSize.toNat + recordBytes w.hdr.vlrs + 4 < 2 ^ 31)
    (hschema : NoSchema env w.hdr.vlrs) (h0 : 0 < h.dataRecordLength)
    (pts : List (List Byte)) (hp : ∀ p ∈ pts, h.dataRecordLength ≤ p.length) (hn : pts.length < 2 ^ 32)
    (hwr : w.writePoints pts = .ok w') (hr : Reader.make env today (IStream.onFile w'.close.buf) = .ok r) :
    List.Forall₂ SameRecord (callersRecords h.schema.isCustom h.vlrs ++ referenceRecords h.schema.isCustom h.srs ++
      schemaRecords env h.schema) r.hdr.vlrs := by
  obtain ⟨pad, hf⟩ := new_file (StorableHeader.good hs) hs.size hmk hsmall
  have := header_round_trip_partial env today hs hmk hsmall hschema h0 pts hp hn hwr hr
  rw [← newVLRs_eq hf.vlrs]
  tauto

/-- C49 holds for headers without spatial reference and custom schema whose records the library does not claim. -/
theorem records_kept_partial (env : Env) (today : BitVec 16 × BitVec 16) {h : Header} {w w' : Writer} {r : Reader}
    (hs : StorableHeader h) (hmk : Writer.make env (OStream.onFile []) h = .ok w)
    (hsmall : h.headerSize.toNat + recordBytes w.hdr.vlrs + 4 < 2 ^ 31)
    (hschema : NoSchema env w.hdr.vlrs) (h0 : 0 < h.dataRecordLength)
    (hsrs : h.srs = []) (hc : h.schema.isCustom = false) (hname : ∀ v ∈ h.vlrs, recordName v ∉ geoNames ++ ownNames false)
    (pts : List (List Byte)) (hp : ∀ p ∈ pts, h.dataRecordLength ≤ p.length) (hn : pts.length < 2 ^ 32)
    (hwr : w.writePoints pts = .ok w') (hr : Reader.make env today (IStream.onFile w'.close.buf) = .ok r) :
    List.Forall₂ SameRecord h.vlrs r.hdr.vlrs := by
  have := written_records_partial env today hs hmk hsmall hschema h0 pts hp hn hwr hr
  have e : callersRecords false h.vlrs = h.vlrs := List.filter_eq_self.2 fun v hv => by simpa using hname v hv
  rw [hc, hsrs, e] at this
  simpa [referenceRecords, schemaRecords, hc] using this

/-- A record for the examples. -/
def sampleRecord (user : String) (id : BitVec 16) : VLR :=
  { VLR.new with
    data := [1, 2, 3]
    recordSize := 3
    recordId := id
    userId := padTo 16 (lit user) }

/-- A header with three records, the second one a GeoTIFF key directory. -/
def geoSample : Header :=
  { Header.new 1 2000 with
    recordsCount := 3
    vlrs := [sampleRecord "me" 1, sampleRecord "LASF_Projection" 34735, sampleRecord "me" 2] }

theorem geoSample_storable (l : List VLR) (h : l = [] ∨ l = [sampleRecord "LASF_Projection" 34735]) :
    StorableHeader { geoSample with srs := l } :=
  ⟨(by decide +kernel : geoSample.signature = lit "LASF"), (by decide +kernel : geoSample.guid.length = 16),
    (by decide +kernel : geoSample.systemId.length = 32), (by decide +kernel : geoSample.softwareId.length = 32),
    (by decide +kernel : geoSample.verMajor = 1), (by decide +kernel : geoSample.verMinor.toNat ≤ 3),
    (by decide +kernel : 227 ≤ geoSample.headerSize.toNat), (by decide +kernel : geoSample.schema.fmt ∈ [PointFormat.f0, .f1, .f2, .f3]), by
      rcases h with rfl | rfl
      · show ∀ v ∈ geoSample.vlrs ++ [], v.userId.length = 16 ∧ v.description.length = 32 ∧ v.recordSize.toNat = v.data.length
        decide +kernel
      · show ∀ v ∈ geoSample.vlrs ++ [sampleRecord "LASF_Projection" 34735],
          v.userId.length = 16 ∧ v.description.length = 32 ∧ v.recordSize.toNat = v.data.length
        decide +kernel⟩

/-- C49 refuted: a caller's GeoTIFF record that is not also in the header's spatial reference object is not written. -/
theorem geo_record_dropped : ∃ h, StorableHeader h ∧ ∃ g, headerBack plainEnv h = .ok g ∧
    h.vlrs.map VLR.recordId = [1, 34735, 2] ∧ g.vlrs.map VLR.recordId = [1, 2] :=
  ⟨{ geoSample with srs := [] }, geoSample_storable _ (Or.inl rfl), Outcome.exists_of_check (by decide +kernel)⟩

/-- C49 refuted, order: with the record in the reference object, as after reading a file, it moves to the end. -/
theorem geo_record_moved : ∃ h, StorableHeader h ∧ ∃ g, headerBack plainEnv h = .ok g ∧
    h.vlrs.map VLR.recordId = [1, 34735, 2] ∧ g.vlrs.map VLR.recordId = [1, 2, 34735] :=
  ⟨{ geoSample with srs := [sampleRecord "LASF_Projection" 34735] }, geoSample_storable _ (Or.inr rfl),
    Outcome.exists_of_check (by decide +kernel)⟩

/-- The hypotheses of `records_kept_partial` are met by a header with two records. -/
example : ∃ w, Writer.make plainEnv (OStream.onFile []) { sampleHeader with
      recordsCount := 2
      vlrs := [sampleRecord "me" 1, sampleRecord "LASF_Projection" 5] } = .ok w ∧ w.hdr.vlrs.length = 2 ∧
    w.hdr.vlrs.find? VLR.isSchema = none ∧
    ∀ v ∈ w.hdr.vlrs, recordName v ∉ geoNames ++ ownNames false :=
  Outcome.exists_of_check (by decide +kernel)

end LibLAS
