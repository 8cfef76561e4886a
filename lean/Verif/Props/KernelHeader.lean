import Verif.Lemmas.KernelHeader
import Verif.Props.MakeNew
import Verif.Props.Las2las
/-
C67: the header options of the applications.
-/
namespace LibLAS
open Spec

/-- Records of which none is called (liblas, 7) hold no schema. -/
theorem noSchema_of_names {env : Env} {vs : List VLR} (h : ∀ v ∈ vs, recordName v ≠ (lit "liblas", 7)) : NoSchema env vs := by
  apply noSchema_none
  rw [List.find?_eq_none]
  intro v hv hs
  apply h v hv
  unfold VLR.isSchema at hs
  simp only [Bool.and_eq_true, beq_iff_eq] at hs
  unfold recordName
  rw [hs.1, hs.2]
  rfl

section
variable {env : Env} {today : BitVec 16 × BitVec 16} {f : List Byte} {r : Reader}

theorem Spec.OrdinaryFile.noSchema (h : OrdinaryFile env today f r) : NoSchema env r.hdr.vlrs :=
  noSchema_of_names fun v hv => (h.names v hv).1

theorem Spec.OrdinaryFile.opened (h : OrdinaryFile env today f r) : Opened f r := open_file h.long h.opens h.noSchema

theorem Spec.OrdinaryFile.standard (h : OrdinaryFile env today f r) : StdSchema r.hdr.schema := (h.opened.standard h.record).1

theorem Spec.OrdinaryFile.padding (h : OrdinaryFile env today f r) : r.hdr.padding.toNat = gap r.hdr := by
  obtain ⟨v, hvb, hp⟩ := h.opened.filler
  have hcount : r.hdr.recordsCount.toNat = r.hdr.vlrs.length := by rw [h.opened.numbered, h.opened.records]
  have hle := h.layout
  have hsm := h.small
  rw [vlrBlockSize_ok hcount] at hvb
  injection hvb with hvb
  unfold gap
  rw [hp, ← hvb, ← recordBytes_eq]
  have h1 : (BitVec.ofNat 32 (recordBytes r.hdr.vlrs)).toNat = recordBytes r.hdr.vlrs := by
    rw [BitVec.toNat_ofNat]; exact Nat.mod_eq_of_lt (by omega)
  have h2 : (r.hdr.headerSize.setWidth 32).toNat = r.hdr.headerSize.toNat := by
    rw [BitVec.toNat_setWidth]; exact Nat.mod_eq_of_lt (by have := r.hdr.headerSize.isLt; omega)
  have h3 : (r.hdr.headerSize.setWidth 32 + BitVec.ofNat 32 (recordBytes r.hdr.vlrs)).toNat =
      r.hdr.headerSize.toNat + recordBytes r.hdr.vlrs := by
    rw [BitVec.toNat_add, h1, h2, Nat.mod_eq_of_lt (by omega)]
  rw [BitVec.toNat_sub, h3]
  omega

/-- Such a file is an input las2las can work on. -/
theorem Spec.OrdinaryFile.input (h : OrdinaryFile env today f r) {o : Las2las.Opts} {ps : List (List Byte)}
    (hp : delivers ((r.setFilters o.filters).setTransforms o.transforms) ps) (hs : OrdinaryScaling r.hdr.toP)
    (hl : ∀ t ∈ o.transforms, ∀ p : List Byte, (t p).length = p.length) : Las2las.Input env today o f r ps :=
  ⟨h.opens, hp, h.long, h.noSchema, hs, by rw [h.record], hl⟩

end

namespace Kernel

/-- C67, the header: a well-formed request is carried out, exactly. -/
theorem edit_header (env : Env) (today : BitVec 16 × BitVec 16) {files : List Byte → Option (List Byte)} {o : HeaderOpts}
    {q : HeaderRequest} (hq : q.Asked files o) {h : Header} (hs : StdSchema h.schema) (hsw : h.softwareId.length = 32)
    (hsy : h.systemId.length = 32) :
    ∃ h', editHeader env today files o h = .ok h' ∧ q.Made h h' ∧ StdSchema h'.schema ∧ h'.softwareId.length = 32 ∧
      h'.systemId.length = 32 ∧ h'.compressed = h.compressed ∧ h'.signature = h.signature := by
  unfold editHeader
  rw [editOffset_eq hq, Outcome.bind_ok, editScale_eq hq, Outcome.bind_ok, editVersion_eq hq, Outcome.bind_ok]
  obtain ⟨s, e1, hs', hf⟩ := editFormat_eq hq (h := { h with
    offset := q.offset.getD h.offset
    scale := q.scale.getD h.scale
    verMinor := (q.version.map (BitVec.ofNat 8)).getD h.verMinor }) hs
  rw [e1, Outcome.bind_ok, hq.padHeader]
  show ∃ h', ((editCreation today o.fileCreation _ >>= _) = .ok h') ∧ _
  rw [editCreation_eq today hq, Outcome.bind_ok, hq.addSchema]
  show ∃ h', ((editDelete o.deleteVlr _ >>= _) = .ok h') ∧ _
  obtain ⟨c1, e2⟩ := editDelete_eq hq { h with
    offset := q.offset.getD h.offset
    scale := q.scale.getD h.scale
    verMinor := (q.version.map (BitVec.ofNat 8)).getD h.verMinor
    schema := s
    doy := (q.date.map fun d => BitVec.ofNat 16 d.1).getD h.doy
    year := (q.date.map fun d => BitVec.ofNat 16 d.2).getD h.year }
  rw [e2, Outcome.bind_ok]
  obtain ⟨new, c2, e3, hnew⟩ := editAdd_eq hq { h with
    offset := q.offset.getD h.offset
    scale := q.scale.getD h.scale
    verMinor := (q.version.map (BitVec.ofNat 8)).getD h.verMinor
    schema := s
    doy := (q.date.map fun d => BitVec.ofNat 16 d.1).getD h.doy
    year := (q.date.map fun d => BitVec.ofNat 16 d.2).getD h.year
    vlrs := h.vlrs.filter fun v => decide ((v.getUserId false, v.recordId.toNat) ∉ q.delete)
    recordsCount := c1 }
  rw [e3, Outcome.bind_ok]
  obtain ⟨t1, e4, l1, k1⟩ := editSoftware_eq hq { h with
    offset := q.offset.getD h.offset
    scale := q.scale.getD h.scale
    verMinor := (q.version.map (BitVec.ofNat 8)).getD h.verMinor
    schema := s
    doy := (q.date.map fun d => BitVec.ofNat 16 d.1).getD h.doy
    year := (q.date.map fun d => BitVec.ofNat 16 d.2).getD h.year
    vlrs := (h.vlrs.filter fun v => decide ((v.getUserId false, v.recordId.toNat) ∉ q.delete)) ++ new
    recordsCount := c2 } hsw
  rw [e4, Outcome.bind_ok]
  obtain ⟨t2, e5, l2, k2⟩ := editSystem_eq hq { h with
    offset := q.offset.getD h.offset
    scale := q.scale.getD h.scale
    verMinor := (q.version.map (BitVec.ofNat 8)).getD h.verMinor
    schema := s
    doy := (q.date.map fun d => BitVec.ofNat 16 d.1).getD h.doy
    year := (q.date.map fun d => BitVec.ofNat 16 d.2).getD h.year
    vlrs := (h.vlrs.filter fun v => decide ((v.getUserId false, v.recordId.toNat) ∉ q.delete)) ++ new
    recordsCount := c2
    softwareId := t1 } hsy
  rw [e5]
  refine ⟨_, rfl, ⟨rfl, rfl, ?_, hf, ?_, ?_, ?_, ?_, ?_, ⟨new, rfl, hnew⟩, rfl, ?_⟩, hs', l1, l2, rfl, rfl⟩
  · show ((q.version.map (BitVec.ofNat 8)).getD h.verMinor).toNat = _
    have := hq.version
    cases hv : q.version with
    | none => rfl
    | some m =>
      rw [hv] at this
      show (BitVec.ofNat 8 m).toNat = m
      rw [BitVec.toNat_ofNat]; exact Nat.mod_eq_of_lt (by have := this.1; omega)
  · show s.dataRecordLength = _
    rw [hs'.byteSize.2, hf]
  · show ((q.date.map fun d => BitVec.ofNat 16 d.1).getD h.doy).toNat = _
    have := hq.date
    cases hv : q.date with
    | none => rfl
    | some d =>
      rw [hv] at this
      show (BitVec.ofNat 16 d.1).toNat = d.1
      rw [BitVec.toNat_ofNat]; exact Nat.mod_eq_of_lt (by have := this.1; omega)
  · show ((q.date.map fun d => BitVec.ofNat 16 d.2).getD h.year).toNat = _
    have := hq.date
    cases hv : q.date with
    | none => rfl
    | some d =>
      rw [hv] at this
      show (BitVec.ofNat 16 d.2).toNat = d.2
      rw [BitVec.toNat_ofNat]; exact Nat.mod_eq_of_lt (by have := this.2.1; omega)
  · exact k1
  · exact k2
  · exact ⟨rfl, rfl, rfl, rfl, rfl, rfl, rfl, rfl, rfl, rfl, rfl⟩

end Kernel

private theorem recordBytes_append (a b : List VLR) : recordBytes (a ++ b) = recordBytes a + recordBytes b := by
  unfold recordBytes; simp

private theorem recordBytes_filter (p : VLR → Bool) (vs : List VLR) : recordBytes (vs.filter p) ≤ recordBytes vs := by
  unfold recordBytes
  induction vs with
  | nil => simp
  | cons v vs ih => cases hp : p v <;> simp [hp] at ih ⊢ <;> omega

private theorem recordBytes_zero (vs : List VLR) : recordBytes vs = 0 ∨ 54 ≤ recordBytes vs := by
  unfold recordBytes
  cases vs with
  | nil => exact Or.inl rfl
  | cons v vs => right; simp only [List.map_cons, List.sum_cons]; omega

private theorem recordBytes_parts (p q : VLR → Bool) (vs : List VLR) (h : ∀ v, ¬ (p v = true ∧ q v = true)) :
    recordBytes (vs.filter p) + recordBytes (vs.filter q) ≤ recordBytes vs := by
  unfold recordBytes
  induction vs with
  | nil => simp
  | cons v vs ih =>
    have := h v
    cases hp : p v <;> cases hq : q v <;> simp [hp, hq] at ih this ⊢ <;> omega

section
variable {env : Env} {today : BitVec 16 × BitVec 16} {input : List Byte} {r₀ : Reader} {q : HeaderRequest}
  {files : List Byte → Option (List Byte)} {ho : Kernel.HeaderOpts}

private theorem made_names (hf : OrdinaryFile env today input r₀) (hfree : HeaderRequest.Free q) {h' : Header} (hm : q.Made r₀.hdr h') :
    ∀ v ∈ h'.vlrs, (recordName v ≠ (lit "liblas", 7) ∧ recordName v ≠ (lit "laszip encoded", 22204)) ∧ StorableRecord v := by
  obtain ⟨new, hn, hadd⟩ := hm.records
  intro v hv
  rw [hn, List.mem_append] at hv
  rcases hv with hv | hv
  · exact ⟨hf.names v (List.mem_of_mem_filter hv), hf.opened.wf v (List.mem_of_mem_filter hv)⟩
  · cases hq : q.add with
    | none => rw [hq] at hadd; simp only at hadd; rw [hadd] at hv; cases hv
    | some n =>
      rw [hq] at hadd
      obtain ⟨v', hv', his⟩ := hadd
      rw [hv', List.mem_singleton] at hv
      subst hv
      have := hfree n hq
      rw [← his.1, ← his.2.1] at this
      refine ⟨⟨?_, ?_⟩, his.2.2.2.2⟩
      · intro e
        apply this.1
        unfold recordName at e
        rw [Prod.mk.injEq] at e ⊢
        exact ⟨e.1, by rw [e.2]; rfl⟩
      · intro e
        apply this.2
        unfold recordName at e
        rw [Prod.mk.injEq] at e ⊢
        exact ⟨e.1, by rw [e.2]; rfl⟩

private theorem made_output (hf : OrdinaryFile env today input r₀) (hfree : HeaderRequest.Free q) {h' : Header} (hm : q.Made r₀.hdr h')
    (hs : StdSchema h'.schema) : outputRecords env h' = editedRecords r₀.hdr h' := by
  have hn := made_names hf hfree hm
  have ho := hf.opened
  unfold outputRecords callersRecords referenceRecords schemaRecords ownNames editedRecords
  rw [hs.plain, hm.reference, ho.reference, List.filter_filter]
  simp only [Bool.false_eq_true, if_false, List.append_nil]
  congr 1
  · apply List.filter_congr
    intro v hv
    have hzz : ¬ recordName v = (lit "laszip encoded", 22204#16) := (hn v hv).1.2
    simp [hzz]
  · apply List.filter_congr
    intro v hv
    have := isGeo_iff v
    have hzz : ¬ recordName v = (lit "laszip encoded", 22204#16) := (hf.names v hv).2
    simp only [List.mem_singleton, hzz]
    by_cases hg : recordName v ∈ geoNames
    · rw [this.2 hg]; simp [hg]; exact hzz
    · have h2 : v.isGeo = false := by rw [← Bool.not_eq_true]; exact fun h => hg (this.1 h)
      rw [h2]; simp [hg]

private theorem made_bytes (hf : OrdinaryFile env today input r₀) (hq : q.Asked files ho) {h' : Header} (hm : q.Made r₀.hdr h') :
    h'.headerSize.toNat + recordBytes (editedRecords r₀.hdr h') + 4 < 2 ^ 31 := by
  obtain ⟨new, hn, hadd⟩ := hm.records
  have hnew : recordBytes new ≤ 54 + 65535 := by
    have hqa := hq.add
    cases hqq : q.add with
    | none => rw [hqq] at hadd; simp only at hadd; rw [hadd]; simp [recordBytes]
    | some n =>
      rw [hqq] at hadd hqa
      obtain ⟨v', hv', his⟩ := hadd
      rw [hv']
      have : v'.data.length ≤ 65535 := by rw [his.2.2.2.1]; exact hqa.2.2.2.1
      simp only [recordBytes, List.map_cons, List.map_nil, List.sum_cons, List.sum_nil]
      omega
  unfold editedRecords
  rw [hn, List.filter_append, recordBytes_append, recordBytes_append, List.filter_filter, hm.rest.2.2.2.2.1]
  have h1 := recordBytes_filter (fun v => decide (recordName v ∉ geoNames)) new
  have h2 := recordBytes_parts (fun a => decide (recordName a ∉ geoNames) && decide ((a.getUserId false, a.recordId.toNat) ∉ q.delete))
    (fun v => decide (recordName v ∈ geoNames)) r₀.hdr.vlrs (by
      intro v
      simp only [Bool.and_eq_true, decide_eq_true_eq]
      tauto)
  have := hf.layout
  have := hf.small
  omega

private theorem made_writable (hf : OrdinaryFile env today input r₀) (hq : q.Asked files ho) (hfree : HeaderRequest.Free q)
    {h' : Header} (hm : q.Made r₀.hdr h') (hs : StdSchema h'.schema) (hsw : h'.softwareId.length = 32)
    (hsy : h'.systemId.length = 32) (hc : h'.compressed = r₀.hdr.compressed) (hsig : h'.signature = r₀.hdr.signature) :
    Writable env h' := by
  have ho := hf.opened
  have h0 := read_header_writable hf.long hf.opens hf.noSchema hf.size (by rw [hf.standard.plain]; simp)
  obtain ⟨-, -, hguid, hmaj, hsize, -, -, -, hby, -⟩ := hm.rest
  refine ⟨⟨by rw [hsig]; exact ho.text.1, by rw [hguid]; exact h0.storable.guid, hsy, hsw, by rw [hmaj]; exact h0.storable.major,
    ?_, by rw [hsize]; exact hf.size, ?_, ?_⟩, by rw [hc]; exact ho.plain, by rw [hby]; exact ho.returns,
    by rw [hs.plain]; simp⟩
  · rw [hm.version]
    have := hq.version
    cases hv : q.version with
    | none => exact h0.storable.minor
    | some m => rw [hv] at this; show m ≤ 3; have := this.1; omega
  · have := hs.1
    generalize h'.schema.fmt = f at this ⊢
    cases f <;> first | (exact absurd this (by decide)) | decide
  · intro v hv
    rw [List.mem_append, hm.reference] at hv
    rcases hv with hv | hv
    · exact (made_names hf hfree hm v hv).2
    · exact h0.storable.records v (by simp [hv])

/-- C67: las2las with header options on an ordinary file. The header is changed as asked and in nothing else; the raw records of
the points are kept (cut to the new format if that is shorter; longer formats are excluded, `Las2las.longer_output_ub`). The run
succeeds exactly if the header then leaves at most two bytes between its variable records and its points. -/
theorem Kernel.header_options_partial {b : Build} {o : Las2las.Opts} {ps : List (List Byte)} (hf : OrdinaryFile env today input r₀)
    (hp : delivers ((r₀.setFilters o.filters).setTransforms o.transforms) ps) (hsc : OrdinaryScaling r₀.hdr.toP)
    (hl : ∀ t ∈ o.transforms, ∀ p : List Byte, (t p).length = p.length) (hq : q.Asked files ho) (hfree : HeaderRequest.Free q)
    (hfmt : formatSize (q.format.getD r₀.hdr.schema.fmt) ≤ formatSize r₀.hdr.schema.fmt)
    (hmin : o.minOffset = false) (hmb : o.splitMb = 0) (hpts : o.splitPts = 0) :
    ∃ h', Kernel.editHeader env today files ho r₀.hdr = .ok h' ∧ q.Made r₀.hdr h' ∧
      (let n := fillerBytes h' (h'.headerSize.toNat + recordBytes (editedRecords r₀.hdr h'))
       (n ≤ 2 → ∃ f r, Las2las.main env today b o (Kernel.editHeader env today files ho) input = .ok [f] ∧
          FileWith env today h' (editedRecords r₀.hdr h') f ps r ∧
          (ps ≠ [] → ∀ as, ps.map (fun p => Point.observe b ⟨p, r₀.hdr.toP⟩) = as.map .ok → Describes r₀.hdr.toP as r.hdr)) ∧
       (2 < n → Las2las.main env today b o (Kernel.editHeader env today files ho) input = .ub)) := by
  have hopen := hf.opened
  obtain ⟨h', he, hm, hs, hsw, hsy, hc, hsig⟩ := Kernel.edit_header env today hq hf.standard hopen.text.2.2.2 hopen.text.2.2.1
  refine ⟨h', he, hm, ?_⟩
  have hw := made_writable hf hq hfree hm hs hsw hsy hc hsig
  have hout := made_output hf hfree hm hs
  have hsmall := made_bytes hf hq hm
  have hh : h' = { h' with compressed := false } := by
    have := hw.plain
    cases h'
    simp only at this
    subst this
    rfl
  obtain ⟨-, -, -, -, hsize, hoff, hpad, -, -, -⟩ := hm.rest
  have hex := new_writer_exactly env hw (by rw [hout]; exact hsmall) (by rw [hoff]; have := hf.small; omega) (by
    intro _
    rw [hpad, hf.padding]
    have := hf.small
    unfold gap
    omega)
  rw [hout] at hex
  refine ⟨fun hn => ?_, fun hn => ?_⟩
  · obtain ⟨w, hmk, hv⟩ := hex.1 hn
    have hO : Las2las.Output env r₀ h' w := by
      refine ⟨⟨hw.storable, hmk, by rw [hv]; exact hsmall, ?_, ?_, ?_⟩, ?_⟩
      · rw [hv]
        apply noSchema_of_names
        intro v hvm
        unfold editedRecords at hvm
        rcases List.mem_append.1 hvm with hvm | hvm
        · exact (made_names hf hfree hm v (List.mem_of_mem_filter hvm)).1.1
        · exact (hf.names v (List.mem_of_mem_filter hvm)).1
      · rw [hm.recordLength]; cases q.format.getD r₀.hdr.schema.fmt <;> simp [formatSize]
      · rw [hs.byteSize.1]; cases h'.schema.fmt <;> simp [formatSize]
      · rw [hm.recordLength, hf.record]; exact hfmt
    obtain ⟨f, r, e1, e2, e3, -⟩ := Las2las.copy_partial (b := b) (hf.input hp hsc hl) he hh hO hmin hmb hpts
    rw [hout] at e2
    exact ⟨f, r, e1, e2, e3⟩
  · have hub := hex.2 hn
    unfold Las2las.main Las2las.process
    rw [if_neg (by rw [hpts]; simp)]
    simp only [Kernel.fetchHeader, hf.opens, Outcome.bind_ok, Outcome.pure_eq, he]
    simp only [Las2las.chooseOffset, hmin, Bool.false_eq_true, if_false, Outcome.bind_ok, ← hh, hub]
    rfl

/-- C67: where nothing is deleted and the file has at most two filler bytes, the options work. -/
theorem Kernel.header_options_kept_partial {b : Build} {o : Las2las.Opts} {ps : List (List Byte)} (hf : OrdinaryFile env today input r₀)
    (hp : delivers ((r₀.setFilters o.filters).setTransforms o.transforms) ps) (hsc : OrdinaryScaling r₀.hdr.toP)
    (hl : ∀ t ∈ o.transforms, ∀ p : List Byte, (t p).length = p.length) (hq : q.Asked files ho) (hfree : HeaderRequest.Free q)
    (hfmt : formatSize (q.format.getD r₀.hdr.schema.fmt) ≤ formatSize r₀.hdr.schema.fmt)
    (hmin : o.minOffset = false) (hmb : o.splitMb = 0) (hpts : o.splitPts = 0) (hdel : q.delete = []) (hgap : gap r₀.hdr ≤ 2) :
    ∃ h' f r, q.Made r₀.hdr h' ∧ Las2las.main env today b o (Kernel.editHeader env today files ho) input = .ok [f] ∧
      FileWith env today h' (editedRecords r₀.hdr h') f ps r ∧
      (ps ≠ [] → ∀ as, ps.map (fun p => Point.observe b ⟨p, r₀.hdr.toP⟩) = as.map .ok → Describes r₀.hdr.toP as r.hdr) := by
  obtain ⟨h', -, hm, hok, -⟩ := Kernel.header_options_partial (b := b) hf hp hsc hl hq hfree hfmt hmin hmb hpts
  obtain ⟨f, r, h1, h2, h3⟩ := hok (by
    obtain ⟨-, -, -, -, hsize, hoff, hpad, -, -, -⟩ := hm.rest
    obtain ⟨new, hn, -⟩ := hm.records
    have hpp := hf.padding
    have hlay := hf.layout
    have hsz := hf.opened.offsetOk
    rw [← hf.opened.headerSize, ← hf.opened.dataOffset] at hsz
    have hge : recordBytes (editedRecords r₀.hdr h') = recordBytes r₀.hdr.vlrs ∨
        recordBytes r₀.hdr.vlrs + 54 ≤ recordBytes (editedRecords r₀.hdr h') := by
      have hnew := recordBytes_zero (new.filter fun v => decide (recordName v ∉ geoNames))
      unfold editedRecords
      rw [hn, hdel, List.filter_append, recordBytes_append, recordBytes_append]
      have := recordBytes_split (fun v => decide (recordName v ∈ geoNames)) r₀.hdr.vlrs
      rw [recordBytes_append] at this
      simp only [List.not_mem_nil, not_false_eq_true, decide_true, List.filter_true]
      have h2 : (fun v => decide (recordName v ∉ geoNames)) = fun v => !decide (recordName v ∈ geoNames) := by
        funext v; simp
      rw [h2] at hnew ⊢
      omega
    unfold fillerBytes
    dsimp only
    rw [hsize, hoff, hpad, hpp]
    unfold gap at hgap ⊢
    split
    · split <;> omega
    · omega)
  exact ⟨h', f, r, hm, h1, h2, h3⟩

/-- C61, C67 refuted: las2las on an ordinary file with more than two bytes between variable records and points is undefined,
whatever is asked for, unless records are added or deleted. -/
theorem Kernel.filler_ub {b : Build} {o : Las2las.Opts} {ps : List (List Byte)} (hf : OrdinaryFile env today input r₀)
    (hp : delivers ((r₀.setFilters o.filters).setTransforms o.transforms) ps) (hsc : OrdinaryScaling r₀.hdr.toP)
    (hl : ∀ t ∈ o.transforms, ∀ p : List Byte, (t p).length = p.length) (hq : q.Asked files ho)
    (hfmt : formatSize (q.format.getD r₀.hdr.schema.fmt) ≤ formatSize r₀.hdr.schema.fmt)
    (hmin : o.minOffset = false) (hmb : o.splitMb = 0) (hpts : o.splitPts = 0) (hadd : q.add = none) (hdel : q.delete = [])
    (hgap : 2 < gap r₀.hdr) : Las2las.main env today b o (Kernel.editHeader env today files ho) input = .ub := by
  obtain ⟨h', -, hm, -, hub⟩ := Kernel.header_options_partial (b := b) hf hp hsc hl hq
    (by intro n hn; rw [hadd] at hn; cases hn) hfmt hmin hmb hpts
  apply hub
  obtain ⟨-, -, -, -, hsize, hoff, hpad, -, -, -⟩ := hm.rest
  obtain ⟨new, hn, hnew⟩ := hm.records
  rw [hadd] at hnew
  simp only at hnew
  have hsame : recordBytes (editedRecords r₀.hdr h') = recordBytes r₀.hdr.vlrs := by
    unfold editedRecords
    rw [hn, hnew, hdel]
    have := recordBytes_split (fun v => decide (recordName v ∈ geoNames)) r₀.hdr.vlrs
    simpa [decide_not] using this
  have := hf.layout
  have hpp := hf.padding
  unfold fillerBytes
  dsimp only
  rw [hsize, hoff, hpad, hsame, hpp, if_pos (by omega)]
  unfold gap at hgap ⊢
  split <;> omega

/-- C67 refuted: `--delete-vlr` of a record the file has (other than one of the spatial reference) is undefined, for every
ordinary file: the deleted bytes have to be filled, with more than the two bytes there are. -/
theorem Kernel.delete_vlr_ub {b : Build} {o : Las2las.Opts} {ps : List (List Byte)} (hf : OrdinaryFile env today input r₀)
    (hp : delivers ((r₀.setFilters o.filters).setTransforms o.transforms) ps) (hsc : OrdinaryScaling r₀.hdr.toP)
    (hl : ∀ t ∈ o.transforms, ∀ p : List Byte, (t p).length = p.length) (hq : q.Asked files ho)
    (hfmt : formatSize (q.format.getD r₀.hdr.schema.fmt) ≤ formatSize r₀.hdr.schema.fmt)
    (hmin : o.minOffset = false) (hmb : o.splitMb = 0) (hpts : o.splitPts = 0) (hadd : q.add = none) {v : VLR}
    (hv : v ∈ r₀.hdr.vlrs) (hgeo : recordName v ∉ geoNames) (hdel : (v.getUserId false, v.recordId.toNat) ∈ q.delete) :
    Las2las.main env today b o (Kernel.editHeader env today files ho) input = .ub := by
  obtain ⟨h', -, hm, -, hub⟩ := Kernel.header_options_partial (b := b) hf hp hsc hl hq
    (by intro n hn; rw [hadd] at hn; cases hn) hfmt hmin hmb hpts
  apply hub
  obtain ⟨-, -, -, -, hsize, hoff, hpad, -, -, -⟩ := hm.rest
  obtain ⟨new, hn, hnew⟩ := hm.records
  rw [hadd] at hnew
  simp only at hnew
  have hless : recordBytes (editedRecords r₀.hdr h') + 54 ≤ recordBytes r₀.hdr.vlrs := by
    unfold editedRecords
    rw [hn, hnew, List.append_nil, recordBytes_append, List.filter_filter]
    generalize r₀.hdr.vlrs = vs at hv
    induction vs with
    | nil => cases hv
    | cons u vs ih =>
      rcases List.mem_cons.1 hv with rfl | hv
      · have := recordBytes_parts (fun a => decide (recordName a ∉ geoNames) && decide ((a.getUserId false, a.recordId.toNat) ∉ q.delete))
          (fun v => decide (recordName v ∈ geoNames)) vs (by
            intro v
            simp only [Bool.and_eq_true, decide_eq_true_eq]
            tauto)
        rw [List.filter_cons_of_neg (by simp [hdel]), List.filter_cons_of_neg (by simp [hgeo])]
        unfold recordBytes at this ⊢
        rw [List.map_cons, List.sum_cons]
        omega
      · have := ih hv
        unfold recordBytes at this ⊢
        rw [List.map_cons, List.sum_cons, List.filter_cons, List.filter_cons]
        by_cases hg : recordName u ∈ geoNames
        · simp only [hg, not_true_eq_false, decide_false, Bool.false_and, decide_true, Bool.false_eq_true, if_false, if_true,
            List.map_cons, List.sum_cons]
          omega
        · simp only [hg, not_false_eq_true, decide_false, Bool.true_and, decide_true, Bool.false_eq_true, if_false]
          split
          · rw [List.map_cons, List.sum_cons]; omega
          · omega
  have := hf.layout
  unfold fillerBytes
  dsimp only
  rw [hsize, hoff, if_pos (by omega)]
  split <;> omega

/-- C67 refuted: deleting a record of the spatial reference has no effect; the output still has it. -/
theorem Kernel.delete_reference_ignored {b : Build} {o : Las2las.Opts} {ps : List (List Byte)} (hf : OrdinaryFile env today input r₀)
    (hp : delivers ((r₀.setFilters o.filters).setTransforms o.transforms) ps) (hsc : OrdinaryScaling r₀.hdr.toP)
    (hl : ∀ t ∈ o.transforms, ∀ p : List Byte, (t p).length = p.length) (hq : q.Asked files ho)
    (hfree : HeaderRequest.Free q) (hfmt : formatSize (q.format.getD r₀.hdr.schema.fmt) ≤ formatSize r₀.hdr.schema.fmt)
    (hmin : o.minOffset = false) (hmb : o.splitMb = 0) (hpts : o.splitPts = 0) {f : List Byte} {fs : List (List Byte)} {r : Reader}
    (hrun : Las2las.main env today b o (Kernel.editHeader env today files ho) input = .ok (f :: fs))
    (hr : Reader.make env today (IStream.onFile f) = .ok r) {v : VLR} (hv : v ∈ r₀.hdr.vlrs) (hgeo : recordName v ∈ geoNames) :
    shown v ∈ r.hdr.vlrs.map shown := by
  obtain ⟨h', -, hm, hok, hub⟩ := Kernel.header_options_partial (b := b) hf hp hsc hl hq hfree hfmt hmin hmb hpts
  by_cases hn : fillerBytes h' (h'.headerSize.toNat + recordBytes (editedRecords r₀.hdr h')) ≤ 2
  swap
  · rw [hub (by omega)] at hrun; cases hrun
  obtain ⟨f', r', e1, e2, -⟩ := hok hn
  rw [hrun] at e1
  injection e1 with e1
  injection e1 with e1 _
  subst e1
  have e3 := e2.opens
  rw [hr] at e3
  injection e3 with e3
  subst e3
  rw [e2.records]
  apply List.mem_map_of_mem
  unfold editedRecords
  rw [List.mem_append]
  right
  exact List.mem_filter.2 ⟨hv, by simpa using hgeo⟩

/-- C67 refuted: a record of the spatial reference cannot be added either. -/
theorem Kernel.add_reference_ignored {b : Build} {o : Las2las.Opts} {ps : List (List Byte)} (hf : OrdinaryFile env today input r₀)
    (hp : delivers ((r₀.setFilters o.filters).setTransforms o.transforms) ps) (hsc : OrdinaryScaling r₀.hdr.toP)
    (hl : ∀ t ∈ o.transforms, ∀ p : List Byte, (t p).length = p.length) (hq : q.Asked files ho)
    (hfmt : formatSize (q.format.getD r₀.hdr.schema.fmt) ≤ formatSize r₀.hdr.schema.fmt)
    (hmin : o.minOffset = false) (hmb : o.splitMb = 0) (hpts : o.splitPts = 0) (hdel : q.delete = []) {n : NewRecord}
    (hadd : q.add = some n) (hgeo : (n.name, n.id) ∈ geoNames.map fun p => (p.1, p.2.toNat)) {f : List Byte} {fs : List (List Byte)} {r : Reader}
    (hrun : Las2las.main env today b o (Kernel.editHeader env today files ho) input = .ok (f :: fs))
    (hr : Reader.make env today (IStream.onFile f) = .ok r) : r.hdr.vlrs.length = r₀.hdr.vlrs.length := by
  obtain ⟨h', -, hm, hok, hub⟩ := Kernel.header_options_partial (b := b) hf hp hsc hl hq (by
    intro n' hn'
    rw [hadd] at hn'
    injection hn' with hn'
    subst hn'
    constructor <;> intro e <;> rw [e] at hgeo <;> revert hgeo <;> decide +kernel) hfmt hmin hmb hpts
  by_cases hn : fillerBytes h' (h'.headerSize.toNat + recordBytes (editedRecords r₀.hdr h')) ≤ 2
  swap
  · rw [hub (by omega)] at hrun; cases hrun
  obtain ⟨f', r', e1, e2, -⟩ := hok hn
  rw [hrun] at e1
  injection e1 with e1
  injection e1 with e1 _
  subst e1
  have e3 := e2.opens
  rw [hr] at e3
  injection e3 with e3
  subst e3
  have hlen := congrArg List.length e2.records
  rw [List.length_map, List.length_map] at hlen
  rw [hlen]
  obtain ⟨new, hnn, hnew⟩ := hm.records
  rw [hadd] at hnew
  obtain ⟨v, hv, his⟩ := hnew
  have hvg : recordName v ∈ geoNames := by
    obtain ⟨p, hp1, hp2⟩ := List.mem_map.1 hgeo
    have : recordName v = p := by
      unfold recordName
      rw [Prod.mk.injEq] at hp2
      obtain ⟨p1, p2⟩ := p
      rw [his.1, ← hp2.1]
      congr 1
      apply BitVec.eq_of_toNat_eq
      rw [his.2.1, ← hp2.2]
    rw [this]; exact hp1
  unfold editedRecords
  rw [hnn, hdel, hv, List.filter_append, List.length_append, List.length_append]
  simp only [List.not_mem_nil, not_false_eq_true, decide_true, List.filter_true]
  rw [List.filter_cons_of_neg (by simp [hvg])]
  have : ∀ l : List VLR, (l.filter fun v => decide (recordName v ∉ geoNames)).length +
      (l.filter fun v => decide (recordName v ∈ geoNames)).length = l.length := by
    intro l
    induction l with
    | nil => rfl
    | cons u l ih => by_cases hg : recordName u ∈ geoNames <;> simp [hg] at ih ⊢ <;> omega
  simpa using this r₀.hdr.vlrs

/-- C67 refuted: `--pad-header`, whose purpose is to leave room before the points, is undefined for every ordinary file if it asks
for more than two bytes of room. -/
theorem Kernel.pad_header_ub {b : Build} {o : Las2las.Opts} (hf : OrdinaryFile env today input r₀) {n : BitVec 32}
    (hmin : o.minOffset = false) (hpts : o.splitPts = 0)
    (hroom : r₀.hdr.headerSize.toNat + recordBytes r₀.hdr.vlrs + 2 < n.toNat) (hn : n.toNat < 2 ^ 31) :
    Las2las.main env today b o (Kernel.editHeader env today files { padHeader := some n }) input = .ub := by
  have hopen := hf.opened
  have he : Kernel.editHeader env today files { padHeader := some n } r₀.hdr = .ok { r₀.hdr with dataOffset := n } := by
    unfold Kernel.editHeader
    simp only [Kernel.editOffset, Kernel.editScale, Kernel.editVersion, Kernel.editFormat, Kernel.editPad, Outcome.bind_ok]
    rw [if_neg (by rintro rfl; simp at hroom)]
    rfl
  have h0 := read_header_writable hf.long hf.opens hf.noSchema hf.size (by rw [hf.standard.plain]; simp)
  have hw : Writable env { r₀.hdr with dataOffset := n } :=
    ⟨⟨h0.storable.signature, h0.storable.guid, h0.storable.systemId, h0.storable.softwareId, h0.storable.major, h0.storable.minor,
      h0.storable.size, h0.storable.format, h0.storable.records⟩, h0.plain, h0.returns, h0.schemaText⟩
  have hr : recordBytes (outputRecords env { r₀.hdr with dataOffset := n }) = recordBytes r₀.hdr.vlrs := by
    show recordBytes (outputRecords env r₀.hdr) = _
    rw [read_records_kept hf.long hf.opens hf.noSchema hf.standard.plain fun v hv => (hf.names v hv).2]
    have := recordBytes_split (fun v => decide (recordName v ∈ geoNames)) r₀.hdr.vlrs
    simpa [decide_not] using this
  have hlay := hf.layout
  have hsm := hf.small
  have hex := new_writer_exactly env hw (by rw [hr]; show r₀.hdr.headerSize.toNat + _ + 4 < _; omega) hn (by
    intro _
    show r₀.hdr.padding.toNat < _
    rw [hf.padding]
    unfold gap
    omega)
  have hub := hex.2 (by
    rw [hr]
    unfold fillerBytes
    dsimp only
    rw [if_pos (by omega)]
    split <;> omega)
  have hh : ({ r₀.hdr with dataOffset := n } : Header) = { r₀.hdr with
      dataOffset := n
      compressed := false } := by rw [← hopen.plain]
  unfold Las2las.main Las2las.process
  rw [if_neg (by rw [hpts]; simp)]
  simp only [Kernel.fetchHeader, hf.opens, Outcome.bind_ok, Outcome.pure_eq, he]
  simp only [Las2las.chooseOffset, hmin, Bool.false_eq_true, if_false, Outcome.bind_ok]
  rw [← hh, hub]
  rfl

end

end LibLAS
