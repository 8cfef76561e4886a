import Verif.Lemmas.Make
import Verif.Lemmas.Open
import Verif.Props.Records
import Verif.Props.WriteRead
/-
C66: when a writer can be made from a header, in particular from one read from a file.
-/
namespace LibLAS
open Spec HeaderWriter

/-- The records of a writable header are those of the specification. -/
theorem Spec.Writable.newVLRs {env : Env} {h : Header} (hw : Writable env h) : newVLRs env h = .ok (outputRecords env h) := by
  have : ∃ l, LibLAS.newVLRs env h = .ok l := by
    unfold LibLAS.newVLRs
    by_cases hc : h.schema.isCustom = true
    · have hv : ∃ v, h.schema.getVLR env = .ok v := by
        unfold Schema.getVLR
        rw [if_neg (by have := hw.schemaText hc; omega)]
        exact ⟨_, rfl⟩
      obtain ⟨v, hv⟩ := hv
      simp [hc, hv, hw.plain]
    · simp [hc, hw.plain]
  obtain ⟨l, hl⟩ := this
  rw [hl, newVLRs_eq hl]
  rfl

/-- C66, exactly: on an empty stream the constructor succeeds, and the file gets the records of the specification, if at most two
filler bytes are asked for; otherwise its behaviour is undefined (the filler is copied from a literal of two bytes). -/
theorem new_writer_exactly (env : Env) {h : Header} (hw : Writable env h)
    (hsmall : h.headerSize.toNat + recordBytes (outputRecords env h) + 4 < 2 ^ 31) (hoff : h.dataOffset.toNat < 2 ^ 31)
    (hpad : h.headerSize.toNat + recordBytes (outputRecords env h) ≤ h.dataOffset.toNat → h.padding.toNat < 2 ^ 31) :
    (fillerBytes h (h.headerSize.toNat + recordBytes (outputRecords env h)) ≤ 2 →
      ∃ w, Writer.make env (OStream.onFile []) h = .ok w ∧ w.hdr.vlrs = outputRecords env h) ∧
    (2 < fillerBytes h (h.headerSize.toNat + recordBytes (outputRecords env h)) →
      Writer.make env (OStream.onFile []) h = .ub) := by
  have := make_new hw.newVLRs hw.returns (by rw [← recordBytes_eq]; exact hsmall) hoff hpad
  rw [← recordBytes_eq] at this
  constructor
  · intro hf; rwa [if_pos hf] at this
  · intro hf; rwa [if_neg (by omega)] at this

/-- Where the points of the new file begin: behind the records and the filler; version 1.0 keeps at least two bytes for its
signature. -/
theorem new_writer_offset (env : Env) {h : Header} {w : Writer} (hw : Writable env h)
    (hsmall : h.headerSize.toNat + recordBytes (outputRecords env h) + 4 < 2 ^ 31) (hoff : h.dataOffset.toNat < 2 ^ 31)
    (hpad : h.headerSize.toNat + recordBytes (outputRecords env h) ≤ h.dataOffset.toNat → h.padding.toNat < 2 ^ 31) (e : Writer.make env (OStream.onFile []) h = .ok w) :
    w.hdr.dataOffset.toNat = h.headerSize.toNat + recordBytes (outputRecords env h) +
      (let n := fillerBytes h (h.headerSize.toNat + recordBytes (outputRecords env h))
       if h.verMinor = 0 ∧ n < 2 then n + 2 else n) := by
  obtain ⟨hex, hub⟩ := new_writer_exactly env hw hsmall hoff hpad
  by_cases hf : fillerBytes h (h.headerSize.toNat + recordBytes (outputRecords env h)) ≤ 2
  swap
  · rw [hub (by omega)] at e; cases e
  obtain ⟨w', e', hv⟩ := hex hf
  rw [e] at e'
  injection e' with e'
  subst e'
  obtain ⟨pad, hn⟩ := new_file (StorableHeader.good hw.storable) hw.storable.size e (by rw [hv, ← recordBytes_eq]; exact hsmall)
  have hpn : pad = fillerBytes h (h.headerSize.toNat + recordBytes (outputRecords env h)) := by
    have h1 := make_padding hw.newVLRs (by rw [← recordBytes_eq]; exact hsmall) hoff hpad e
    rw [hn.hdr] at h1
    simp only [BitVec.toNat_ofNat] at h1
    have := hn.pad_le
    rw [Nat.mod_eq_of_lt (by omega)] at h1
    rw [h1, recordBytes_eq]
  rw [hn.dataOffset, hv, ← recordBytes_eq]
  dsimp only
  rw [← hpn]
  split <;> omega

/-- A header read from a file without readable schema record, whose size field leaves room for the public header block, is one a
file can be made from. -/
theorem read_header_writable {env : Env} {today : BitVec 16 × BitVec 16} {b : List Byte} {r : Reader} (hb : 227 ≤ b.length)
    (e : Reader.make env today (IStream.onFile b) = .ok r) (hv : NoSchema env r.hdr.vlrs) (hs : 227 ≤ r.hdr.headerSize.toNat)
    (ht : r.hdr.schema.isCustom = true → (env.xml r.hdr.schema).length ≤ 65535) : Writable env r.hdr := by
  have ho := open_file hb e hv
  refine ⟨⟨ho.text.1, ?_, ho.text.2.2.1, ho.text.2.2.2, ?_, ?_, hs, ?_, ?_⟩, ho.plain, ho.returns, ht⟩
  · rw [ho.text.2.1, slice_length_of_le (by omega)]
  · rw [ho.version.1, ho.major]
  · rw [ho.version.2]; exact ho.minor
  · have := ho.std
    generalize r.hdr.schema.fmt = f at this ⊢
    cases f <;> first | (exact absurd this (by decide)) | decide
  · intro v hm
    rw [List.mem_append, ho.reference] at hm
    have : v ∈ r.hdr.vlrs := by
      rcases hm with hm | hm
      · exact hm
      · exact List.mem_of_mem_filter hm
    exact ho.wf v this

theorem isGeo_iff (v : VLR) : v.isGeo = true ↔ recordName v ∈ geoNames := by
  have : cstr (v.getUserId true) = v.getUserId false := by
    unfold VLR.getUserId
    dsimp only
    simp only [Bool.false_and]
    have hall : ∀ x ∈ cstr v.userId, (x != 0#8) = true := by
      have := List.all_takeWhile (p := (· != 0#8)) (l := v.userId)
      rwa [List.all_eq_true] at this
    generalize cstr v.userId = t at hall
    have hidem : cstr t = t := by
      unfold cstr
      have := List.takeWhile_append_of_pos (l₂ := []) hall
      simpa using this
    split
    · unfold padTo
      simp only [Bool.false_eq_true, if_false]
      unfold cstr
      rw [List.takeWhile_append_of_pos hall]
      simp
    · simpa using hidem
  unfold VLR.isGeo recordName geoNames
  rw [this]
  simp only [Bool.or_eq_true, Bool.and_eq_true, beq_iff_eq, List.mem_cons, Prod.mk.injEq, List.not_mem_nil, or_false]
  tauto

/-- The records of a header with standard schema, read from a file, are written again, those of the spatial reference last. -/
theorem read_records_kept {env : Env} {today : BitVec 16 × BitVec 16} {b : List Byte} {r : Reader} (hb : 227 ≤ b.length)
    (e : Reader.make env today (IStream.onFile b) = .ok r) (hv : NoSchema env r.hdr.vlrs) (hc : r.hdr.schema.isCustom = false)
    (hz : ∀ v ∈ r.hdr.vlrs, recordName v ≠ (lit "laszip encoded", 22204)) :
    outputRecords env r.hdr = r.hdr.vlrs.filter (fun v => decide (recordName v ∉ geoNames)) ++
      r.hdr.vlrs.filter (fun v => decide (recordName v ∈ geoNames)) := by
  have ho := open_file hb e hv
  unfold outputRecords callersRecords referenceRecords schemaRecords ownNames
  rw [hc, ho.reference, List.filter_filter]
  simp only [Bool.false_eq_true, if_false, List.append_nil]
  congr 1
  · apply List.filter_congr
    intro v hm
    have hzz : ¬ recordName v = (lit "laszip encoded", 22204#16) := hz v hm
    simp [hzz]
  · apply List.filter_congr
    intro v hm
    have := isGeo_iff v
    have hzz : ¬ recordName v = (lit "laszip encoded", 22204#16) := hz v hm
    simp only [List.mem_singleton, hzz]
    by_cases hg : recordName v ∈ geoNames
    · rw [this.2 hg]; simp [hg]; exact hzz
    · have h2 : v.isGeo = false := by rw [← Bool.not_eq_true]; exact fun h => hg (this.1 h)
      rw [h2]; simp [hg]

theorem recordBytes_split (p : VLR → Bool) (vs : List VLR) :
    recordBytes (vs.filter (fun v => !(p v)) ++ vs.filter p) = recordBytes vs := by
  unfold recordBytes
  induction vs with
  | nil => rfl
  | cons v vs ih =>
    cases hp : p v <;> simp [hp] at ih ⊢ <;> omega

/-- A file opened by libLAS and its header handed to a writer on a new file: with at most two filler bytes between variable records
and points this works, with more the behaviour is undefined. -/
theorem copy_header_exactly (env : Env) (today : BitVec 16 × BitVec 16) {b : List Byte} {r : Reader} (hb : 227 ≤ b.length)
    (e : Reader.make env today (IStream.onFile b) = .ok r) (hv : NoSchema env r.hdr.vlrs) (hs : 227 ≤ r.hdr.headerSize.toNat)
    (hc : r.hdr.schema.isCustom = false) (hz : ∀ v ∈ r.hdr.vlrs, recordName v ≠ (lit "laszip encoded", 22204))
    (hsmall : r.hdr.headerSize.toNat + recordBytes r.hdr.vlrs + 4 < 2 ^ 31) (hoff : r.hdr.dataOffset.toNat < 2 ^ 31) :
    let gap := r.hdr.dataOffset.toNat - (r.hdr.headerSize.toNat + recordBytes r.hdr.vlrs)
    (gap ≤ 2 → ∃ w, Writer.make env (OStream.onFile []) r.hdr = .ok w ∧ w.hdr.vlrs = outputRecords env r.hdr) ∧
      (2 < gap → Writer.make env (OStream.onFile []) r.hdr = .ub) := by
  have ho := open_file hb e hv
  have hw := read_header_writable hb e hv hs (by rw [hc]; simp)
  have hr : recordBytes (outputRecords env r.hdr) = recordBytes r.hdr.vlrs := by
    rw [read_records_kept hb e hv hc hz]
    have := recordBytes_split (fun v => decide (recordName v ∈ geoNames)) r.hdr.vlrs
    simpa [decide_not] using this
  obtain ⟨v, hvb, hp⟩ := ho.filler
  have hcount : r.hdr.recordsCount.toNat = r.hdr.vlrs.length := by rw [ho.numbered, ho.records]
  have hpad : r.hdr.headerSize.toNat + recordBytes r.hdr.vlrs ≤ r.hdr.dataOffset.toNat →
      r.hdr.padding.toNat = r.hdr.dataOffset.toNat - (r.hdr.headerSize.toNat + recordBytes r.hdr.vlrs) := by
    intro hle
    rw [vlrBlockSize_ok hcount] at hvb
    injection hvb with hvb
    rw [hp, ← hvb, ← recordBytes_eq]
    have h1 : (BitVec.ofNat 32 (recordBytes r.hdr.vlrs)).toNat = recordBytes r.hdr.vlrs := by
      rw [BitVec.toNat_ofNat]; exact Nat.mod_eq_of_lt (by omega)
    have h2 : (r.hdr.headerSize.setWidth 32).toNat = r.hdr.headerSize.toNat := by
      rw [BitVec.toNat_setWidth]; exact Nat.mod_eq_of_lt (by have := r.hdr.headerSize.isLt; omega)
    have h3 : (r.hdr.headerSize.setWidth 32 + BitVec.ofNat 32 (recordBytes r.hdr.vlrs)).toNat =
        r.hdr.headerSize.toNat + recordBytes r.hdr.vlrs := by
      rw [BitVec.toNat_add, h1, h2, Nat.mod_eq_of_lt (by omega)]
    rw [BitVec.toNat_sub, h3]
    omega
  obtain ⟨hex, hub⟩ := new_writer_exactly env hw (by rw [hr]; exact hsmall) hoff
    (by rw [hr]; intro hle; rw [hpad hle]; omega)
  rw [hr] at hex hub
  have hfill : fillerBytes r.hdr (r.hdr.headerSize.toNat + recordBytes r.hdr.vlrs) =
      r.hdr.dataOffset.toNat - (r.hdr.headerSize.toNat + recordBytes r.hdr.vlrs) := by
    unfold fillerBytes
    by_cases hle : r.hdr.headerSize.toNat + recordBytes r.hdr.vlrs ≤ r.hdr.dataOffset.toNat
    · rw [if_pos hle]
      dsimp only
      rw [hpad hle, if_pos (le_refl _)]
    · rw [if_neg hle]
      have := ho.offsetOk
      rw [← ho.headerSize, ← ho.dataOffset] at this
      omega
  rw [hfill] at hex hub
  exact ⟨hex, hub⟩

end LibLAS
