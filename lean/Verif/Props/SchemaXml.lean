import Verif.Lemmas.SchemaText
import Verif.Lemmas.ResetRun
import Verif.Props.MakeNew
import Verif.Props.Reading
import Verif.Props.Schema
/-
C87-C90: the XML text of a schema record.
-/
namespace LibLAS.Xml
open LibLAS.Spec PTree

/-- C87: what the XML writer makes of a property tree, the XML parser turns back into the same tree: same element names, same
texts, same order, whatever characters the texts consist of (markup characters and runs of blanks included). -/
theorem xml_round_trip (ks : List (List Byte × PTree)) (hks : StorableKids ks) :
    readXml (writeXml (.node [] ks)) = .ok (.node [] ks) := read_write ks hks

/-- The hypotheses of C87 are met by a tree with markup characters, blanks, an empty text and nesting. -/
example : StorableKids [(lit "a", .node (lit "<&\"'>x ") [(lit "b", .node [] []), (lit "b", .node (lit "   ") [])]), (lit "c", .node [] [])] := by
  refine ⟨by decide +kernel, ⟨by decide +kernel, by decide +kernel, ⟨by decide, trivial⟩, by decide +kernel, ⟨by decide +kernel, trivial⟩, trivial⟩,
    by decide +kernel, ⟨by decide, trivial⟩, trivial⟩

/-- A zero byte does not survive: the parser sees a C string. -/
theorem zero_byte_lost : ¬ ∃ t, readXml (writeXml (.node [] [(lit "a", .node [0#8] [])])) = .ok t := by
  rintro ⟨t, h⟩
  have : (match readXml (writeXml (.node [] [(lit "a", .node [0#8] [])])) with | .ok _ => true | _ => false) = false := by
    decide +kernel
  rw [h] at this
  cases this

/-- C88: whatever bytes a schema record holds, making a schema from them ends with a schema or a `std::runtime_error`: no
undefined behaviour, no endless loop, no other exception. -/
theorem schema_bytes_safe (dbl : List Byte → Bool) (bytes : List Byte) :
    (∃ s, parseSchema dbl bytes = .ok s) ∨ parseSchema dbl bytes = .throw .runtimeError := by
  have h := parseSchema_fine dbl bytes
  cases e : parseSchema dbl bytes with
  | ok s => exact Or.inl ⟨s, rfl⟩
  | throw x => rw [e] at h; simp only [Fine] at h; exact Or.inr (by rw [h])
  | ub => rw [e] at h; exact absurd h (by simp [Fine])

/-- The same for the XML parser alone. -/
theorem xml_bytes_safe (bytes : List Byte) : (∃ t, readXml bytes = .ok t) ∨ readXml bytes = .throw .runtimeError := by
  have h := readXml_fine bytes
  cases e : readXml bytes with
  | ok s => exact Or.inl ⟨s, rfl⟩
  | throw x => rw [e] at h; simp only [Fine] at h; exact Or.inr (by rw [h])
  | ub => rw [e] at h; exact absurd h (by simp [Fine])

theorem withFormat_ok (n : Nat) : (∃ S, withFormat (formatOf n) = .ok S ∧ S.fmt = formatOf n ∧ (formatOf n).std = true) ∨
    withFormat (formatOf n) = .throw .runtimeError := by
  have : formatOf n = .f0 ∨ formatOf n = .f1 ∨ formatOf n = .f2 ∨ formatOf n = .f3 ∨ formatOf n = .f4 := by
    unfold formatOf; split <;> simp
  rcases this with h | h | h | h | h <;> rw [h]
  · exact Or.inl (Outcome.exists_of_check (by decide +kernel))
  · exact Or.inl (Outcome.exists_of_check (by decide +kernel))
  · exact Or.inl (Outcome.exists_of_check (by decide +kernel))
  · exact Or.inl (Outcome.exists_of_check (by decide +kernel))
  · exact Or.inr (by decide +kernel)

/-- A parsed schema has one of the point formats 0 to 3. -/
theorem parsed_format {dbl : List Byte → Bool} {bytes : List Byte} {S : Schema} (h : parseSchema dbl bytes = .ok S) :
    S.fmt.std = true := by
  unfold parseSchema at h
  obtain ⟨t, -, h⟩ := bind_eq_ok h
  obtain ⟨⟨m, s⟩, h1, h⟩ := bind_eq_ok h
  unfold loadDimensions at h1
  obtain ⟨_, -, h1⟩ := bind_eq_ok h1
  obtain ⟨_, -, h1⟩ := bind_eq_ok h1
  obtain ⟨pf, -, h1⟩ := bind_eq_ok h1
  obtain ⟨_, -, h1⟩ := bind_eq_ok h1
  obtain ⟨s', h2, h1⟩ := bind_eq_ok h1
  have e1 : s' = s := by
    have := Outcome.ok.inj h1
    exact (Prod.mk.inj this).2
  have e2 : Schema.calculateSizes { s with dims := m } = S := Outcome.ok.inj h
  rcases withFormat_ok pf with ⟨S0, e, f, g⟩ | e
  · rw [e] at h2
    have e3 : S0 = s' := Outcome.ok.inj h2
    rw [← e2, ← e1, ← e3]
    show S0.fmt.std = true
    rw [f]; exact g
  · rw [e] at h2; cases h2

theorem getDimension_isSome (s : Schema) (n : String) : (s.getDimension n).isSome = true ↔ n ∈ s.dims.map Dim.name := by
  unfold Schema.getDimension IndexMap.named
  rw [List.find?_isSome]
  simp

theorem calculateSizes_names (s : Schema) : s.calculateSizes.dims.map Dim.name = s.dims.map Dim.name := by
  unfold Schema.calculateSizes
  simp only [List.map_map]
  apply List.map_congr_left
  intro e _
  show ((List.find? _ _).getD e).name = e.name
  cases h : List.find? (fun d => d.name == e.name) (Schema.sizeLoop ⟨0, 0, 0, 0⟩ (IndexMap.byPosition s.dims)).1 with
  | none => rfl
  | some d => simpa using List.find?_some h

theorem readd_names {s : Schema} {n : String} {d : Dim} (h : s.getDimension n = some d) :
    (s.addDimension d).dims.map Dim.name = s.dims.map Dim.name := by
  have hd : d.name = n := by simpa using List.find?_some h
  have hn : s.dims.named d.name = some d := by rw [hd]; exact h
  unfold Schema.addDimension
  dsimp only
  rw [hn]
  dsimp only
  rw [calculateSizes_names]
  unfold IndexMap.replaceNamed
  split
  · rfl
  · rw [List.map_map]
    apply List.map_congr_left
    intro e _
    show (if e.name == d.name then d else e).name = e.name
    split
    · rename_i h; simpa using (by simpa using h : e.name = d.name).symm
    · rfl

theorem readd_some {s : Schema} {n : String} {d : Dim} (h : s.getDimension n = some d) (k : String) :
    (s.addDimension d).getDimension k = none ↔ s.getDimension k = none := by
  have h1 := getDimension_isSome (s.addDimension d) k
  have h2 := getDimension_isSome s k
  rw [readd_names h] at h1
  rw [← Option.not_isSome_iff_eq_none, ← Option.not_isSome_iff_eq_none, h1, h2]

/-- A header object can take a schema, exactly: X, Y and Z must be there. Without X it throws and keeps the schema; with X but
without Y or Z the behaviour is undefined. -/
theorem setSchema_exactly (h : LibLAS.Header) (S : Schema) :
    (S.getDimension "X" = none → h.setSchema S = ({ h with schema := S }, .throw .liblasError)) ∧
    (S.getDimension "X" ≠ none → (S.getDimension "Y" = none ∨ S.getDimension "Z" = none) → (h.setSchema S).2 = .ub) ∧
    (S.getDimension "X" ≠ none → S.getDimension "Y" ≠ none → S.getDimension "Z" ≠ none → (h.setSchema S).2 = .ok ()) := by
  unfold Header.setSchema
  cases hx : S.getDimension "X" with
  | none => simp
  | some x =>
    have hxy := readd_some hx "Y"
    have hxz := readd_some hx "Z"
    dsimp only
    cases hy : (S.addDimension x).getDimension "Y" with
    | none => rw [hy] at hxy; simp [hxy.1 rfl]
    | some y =>
      have hyz := readd_some hy "Z"
      have hny : S.getDimension "Y" ≠ none := fun e => by rw [hxy.2 e] at hy; cases hy
      dsimp only
      cases hz : ((S.addDimension x).addDimension y).getDimension "Z" with
      | none =>
        have : S.getDimension "Z" = none := hxz.1 (hyz.1 hz)
        simp [this]
      | some z =>
        have hnz : S.getDimension "Z" ≠ none := fun e => by rw [hyz.2 (hxz.2 e)] at hz; cases hz
        simp [hny, hnz]

theorem defaultSchema_ok {h : LibLAS.Header} (hf : h.schema.fmt.std = true) : ∃ h', HeaderReader.defaultSchema h = .ok h' := by
  obtain ⟨s, k1, k2, -, k4⟩ := make_std h.schema.fmt hf
  unfold HeaderReader.defaultSchema
  rw [k1]
  simp only [Outcome.bind_ok]
  obtain ⟨s', a1, -⟩ := k2.setSchema (by omega) h
  rw [a1]
  exact ⟨_, rfl⟩

/-- C88, exactly: taking the schema from the records of a file of point format 0 to 3 succeeds (with the recorded schema or
the default one) unless the first schema record is well formed and lists X but not both Y and Z; then the behaviour is
undefined. -/
theorem adopt_exactly (notes : Notes) (dbl : List Byte → Bool) (junk : Byte) (h : LibLAS.Header) (hf : h.schema.fmt.std = true) :
    (¬ HalfSchema dbl h.vlrs → ∃ h', HeaderReader.adoptSchema (env notes dbl junk) h = .ok h') ∧
    (HalfSchema dbl h.vlrs → HeaderReader.adoptSchema (env notes dbl junk) h = .ub) := by
  unfold HeaderReader.adoptSchema HeaderReader.schemaFromVLRs
  cases hv : h.vlrs.find? VLR.isSchema with
  | none =>
    refine ⟨fun _ => ?_, ?_⟩
    · simpa [Exc.isRuntime] using defaultSchema_ok hf
    · rintro ⟨v, S, e, -⟩; rw [hv] at e; cases e
  | some v =>
    dsimp only [env]
    rcases schema_bytes_safe dbl v.data with ⟨S, e⟩ | e
    · rw [e]
      dsimp only
      obtain ⟨x1, x2, x3⟩ := setSchema_exactly h S
      constructor
      · intro hn
        by_cases hx : S.getDimension "X" = none
        · rw [x1 hx]
          simpa [Exc.isRuntime] using defaultSchema_ok (h := { h with schema := S }) (parsed_format e)
        · have hy : S.getDimension "Y" ≠ none := fun hy => hn ⟨v, S, hv, e, hx, Or.inl hy⟩
          have hz : S.getDimension "Z" ≠ none := fun hz => hn ⟨v, S, hv, e, hx, Or.inr hz⟩
          have := x3 hx hy hz
          generalize h.setSchema S = p at this
          obtain ⟨h', o⟩ := p
          cases this
          exact ⟨h', rfl⟩
      · rintro ⟨v', S', e1, e2, e3, e4⟩
        rw [hv] at e1; cases e1
        rw [e] at e2; cases e2
        have := x2 e3 e4
        generalize h.setSchema S = p at this
        obtain ⟨h', o⟩ := p
        cases this
        rfl
    · rw [e]
      refine ⟨fun _ => ?_, ?_⟩
      · simpa [Exc.isRuntime] using defaultSchema_ok hf
      · rintro ⟨v', S', e1, e2, -⟩; rw [hv] at e1; cases e1; rw [e] at e2; cases e2

/-- C89, refuted for the round trip of a schema: no schema record the library writes can be read by the library. The writer
puts the text "1.0" where the reader expects a whole number. -/
theorem own_schema_refused (notes : Notes) (dbl : List Byte → Bool) (s : Schema) (hs : Texts notes s) :
    parseSchema dbl (writeXml (schemaTree notes s)) = .throw .runtimeError := by
  have e : schemaTree notes s = versioned notes s (lit "1.0") := schemaTree_eq notes s
  unfold parseSchema
  rw [e, read_versioned hs (by decide +kernel)]
  simp only [Outcome.bind_ok]
  rw [loadDimensions_version (walk_version notes s (lit "1.0")) (by decide +kernel)]
  rfl

theorem isSchema_name (v : VLR) : v.isSchema = true ↔ recordName v = (lit "liblas", 7) := by
  unfold VLR.isSchema recordName
  simp

/-- The schema record of a new file is the library's own; there is one exactly when the schema is a custom one. -/
theorem new_file_noSchema {notes : Notes} {dbl : List Byte → Bool} {junk : Byte} {h : LibLAS.Header} (hs : Texts notes h.schema)
    (hc : h.schema.isCustom = true ∨ ∀ v ∈ h.vlrs ++ h.srs, v.isSchema = false) :
    NoSchema (env notes dbl junk) (outputRecords (env notes dbl junk) h) := by
  unfold NoSchema HeaderReader.schemaFromVLRs
  cases hf : (outputRecords (env notes dbl junk) h).find? VLR.isSchema with
  | none => exact ⟨.runtimeError, rfl, rfl⟩
  | some v =>
    have h1 : v.isSchema = true := by simpa using List.find?_some hf
    have h2 := List.mem_of_find?_eq_some hf
    refine ⟨.runtimeError, ?_, rfl⟩
    have hn := (isSchema_name v).1 h1
    unfold outputRecords at h2
    rw [List.mem_append, List.mem_append] at h2
    have hmem : ¬ (v ∈ callersRecords h.schema.isCustom h.vlrs ∨ v ∈ referenceRecords h.schema.isCustom h.srs) := by
      unfold callersRecords referenceRecords
      rw [List.mem_filter, List.mem_filter]
      rcases hc with hc | hc
      · rw [hc, hn]
        rintro (⟨-, h⟩ | ⟨-, h⟩) <;> revert h <;> decide +kernel
      · rintro (⟨h, -⟩ | ⟨h, -⟩)
        · rw [hc v (List.mem_append_left _ h)] at h1; cases h1
        · rw [hc v (List.mem_append_right _ h)] at h1; cases h1
    have h3 : v ∈ schemaRecords (env notes dbl junk) h.schema := by tauto
    unfold schemaRecords at h3
    split at h3
    · unfold Schema.getVLR at h3
      dsimp only at h3
      split at h3
      · rename_i hv
        split at hv
        · cases hv
        · have hv := Outcome.ok.inj hv
          rw [List.mem_singleton] at h3
          rw [h3, ← hv]
          exact own_schema_refused notes dbl h.schema hs
      · cases h3
    · cases h3

/-- C89, what remains: a file the library itself wrote from a header with any schema is read back with every point, in order,
cut to the record length; and the reader knows no dimension beyond the standard ones except possibly "extra": the names of
custom dimensions are lost. -/
theorem custom_schema_lost (notes : Notes) (dbl : List Byte → Bool) (junk : Byte) (today : BitVec 16 × BitVec 16)
    {h : LibLAS.Header} {w : Writer} (hst : StorableHeader h) (hs : Texts notes h.schema)
    (hc : h.schema.isCustom = true ∨ ∀ v ∈ h.vlrs ++ h.srs, v.isSchema = false)
    (hmk : Writer.make (env notes dbl junk) (OStream.onFile []) h = .ok w)
    (hsmall : h.headerSize.toNat + recordBytes w.hdr.vlrs + 4 < 2 ^ 31) (h0 : 0 < h.dataRecordLength)
    (pts : List (List Byte)) (hp : ∀ p ∈ pts, h.dataRecordLength ≤ p.length) (hn : pts.length < 2 ^ 32) :
    ∃ w' r, w.writePoints pts = .ok w' ∧ Reader.make (env notes dbl junk) today (IStream.onFile w'.close.buf) = .ok r ∧
      r.hdr.pointCount.toNat = pts.length ∧ delivers r (pts.map fun p => p.take h.dataRecordLength) ∧
      r.hdr.schema.fmt = h.schema.fmt ∧ r.hdr.dataRecordLength = h.dataRecordLength ∧
      ∀ d ∈ r.hdr.schema.dims, d.required = false → d.name = "extra" := by
  obtain ⟨pad, hf⟩ := new_file (StorableHeader.good hst) hst.size hmk hsmall
  have ev : w.hdr.vlrs = outputRecords (env notes dbl junk) h := newVLRs_eq hf.vlrs
  have hns : NoSchema (env notes dbl junk) w.hdr.vlrs := by rw [ev]; exact new_file_noSchema hs hc
  have hw := hf.writing hst (Or.inl hns) h0 hsmall
  have hl : w.hdr.dataRecordLength = h.dataRecordLength := by rw [hf.hdr]; rfl
  obtain ⟨w', e1, e2, -⟩ := hw.finish pts (by rw [hl]; exact hp) (by simpa using hn)
  obtain ⟨r, r1, r2, r3⟩ := e2.read today
  obtain ⟨srs, sch, eh, ef⟩ := r2.hdr
  have hv : r.hdr.vlrs = w.hdr.vlrs.map VLR.canon := by rw [eh]
  have ns : NoSchema (env notes dbl junk) r.hdr.vlrs := by
    unfold NoSchema at hns ⊢
    rw [hv, schemaFromVLRs_canon]
    exact hns
  have hlen : 227 ≤ w'.close.buf.length := by
    have hb := congrArg List.length e2.block
    rw [slice_length, headerBytes_length e2.readable.toLegible.toSized e2.readable.returns] at hb
    omega
  have hrl : r.hdr.dataRecordLength = h.dataRecordLength := by
    rw [r2.recordLength]
    exact hl
  obtain ⟨f, -, hre⟩ := open_reread hlen r1 ns (by rw [hrl]; exact h0)
  refine ⟨w', r, e1, r1, ?_, ?_, ?_, hrl, ?_⟩
  · have := e2.count
    rw [eh]
    show w'.count.toNat = _
    simpa [cutTo] using this
  · rw [List.nil_append, hl] at r3; exact r3
  · rw [eh]
    show sch.fmt = _
    rw [ef hns]
    show w.hdr.schema.fmt = _
    rw [hf.hdr]
  · intro d hd hq
    have hm : d ∈ (IndexMap.byPosition r.hdr.schema.dims).filter fun d => !d.required := by
      rw [List.mem_filter]
      exact ⟨mem_byPosition.2 hd, by simp [hq]⟩
    rcases hre.user with hu | ⟨d', hu, hu2, -⟩
    · rw [hu] at hm; cases hm
    · rw [hu, List.mem_singleton] at hm; rw [hm]; exact hu2

theorem put_version (notes : Notes) (s : Schema) (v : List Byte) :
    (schemaTree notes s).put [lit "LASSchema", lit "version"] v = versioned notes s v := by
  rw [schemaTree_eq]
  unfold PTree.put versioned
  rw [change, kids, changeKid_hit, change, kids]
  unfold dimsKids tailKids
  by_cases he : s.dims.byPosition = []
  · rw [if_pos he, List.nil_append, changeKid_hit]; rfl
  · rw [if_neg he, List.cons_append, List.nil_append, changeKid, if_neg (by decide +kernel), changeKid_hit]; rfl

theorem formatOf_code {f : PointFormat} (hf : f.std = true) : formatOf f.code.toNat = f ∧ f.code.toNat < 2 ^ 32 := by
  cases f <;> revert hf <;> decide

theorem withFormat_std {f : PointFormat} (hf : f.std = true) :
    ∃ S, withFormat f = .ok S ∧ S.fmt = f ∧ S.nextPos = (Schema.stdL f).length := by
  cases f <;> revert hf <;> first | (intro h; exact absurd h (by decide)) | (intro _; exact Outcome.exists_of_check (by decide +kernel))

theorem walk_dims (notes : Notes) (s : Schema) (v : List Byte) (hne : s.dims.byPosition ≠ []) :
    walk [lit "LASSchema", lit "dimensions"] (versioned notes s v) =
      some (.node [] (s.dims.byPosition.map fun d => (lit "dimension", .node [] (dimKids (notes d.name) d)))) := by
  have h1 : ∀ (t : PTree) (r : List (List Byte × PTree)) k, find k ((k, t) :: r) = some t := by
    intro t r k; rw [find, if_pos rfl]
  unfold versioned dimsKids
  rw [walk, kids, h1]
  dsimp only
  rw [walk, kids, if_neg hne, List.cons_append, h1]
  rfl

theorem walk_format (notes : Notes) (s : Schema) (v : List Byte) :
    walk [lit "LASSchema", lit "formatid"] (versioned notes s v) = some (.node (num s.fmt.code.toNat) []) := by
  have h1 : ∀ (t : PTree) (r : List (List Byte × PTree)) k, find k ((k, t) :: r) = some t := by
    intro t r k; rw [find, if_pos rfl]
  unfold versioned dimsKids tailKids
  rw [walk, kids, h1]
  dsimp only
  rw [walk, kids]
  by_cases he : s.dims.byPosition = []
  · rw [if_pos he, List.nil_append, find, if_neg (by decide +kernel), find, if_neg (by decide +kernel), h1]; rfl
  · rw [if_neg he, List.cons_append, List.nil_append, find, if_neg (by decide +kernel), find, if_neg (by decide +kernel), find,
      if_neg (by decide +kernel), h1]; rfl

theorem parse_versioned {notes : Notes} {dbl : List Byte → Bool} {s : Schema} {v : List Byte} {u : Nat} (hs : Texts notes s)
    (hv : NoZero v) (hu : getUnsigned 16 v = some u) (hf : s.fmt.std = true) (hr : Recordable notes dbl s)
    (hn : (s.dims.map Dim.name).Nodup) (hp : (s.dims.map Dim.position).Nodup) (hne : s.dims ≠ []) :
    ∃ S0 : Schema, S0.fmt = s.fmt ∧ S0.nextPos = (Schema.stdL s.fmt).length ∧
      parseSchema dbl (writeXml (versioned notes s v)) =
        .ok (Schema.calculateSizes { S0 with dims := s.dims.byPosition.map fun d => { d with byteOffset := 0, bitOffset := 0 } }) := by
  have hperm := List.perm_insertionSort (fun a b : Dim => a.position ≤ b.position) s.dims
  have hne' : s.dims.byPosition ≠ [] := fun e => hne (List.Perm.eq_nil (by
    unfold IndexMap.byPosition at e
    rw [e] at hperm
    exact hperm.symm))
  obtain ⟨S0, w1, w2, w3⟩ := withFormat_std hf
  refine ⟨S0, w2, w3, ?_⟩
  unfold parseSchema
  rw [read_versioned hs hv]
  simp only [Outcome.bind_ok]
  have hload : loadDimensions dbl (versioned notes s v) =
      .ok (s.dims.byPosition.map fun d => { d with byteOffset := 0, bitOffset := 0 }, S0) := by
    unfold loadDimensions
    unfold getChild
    rw [walk_dims notes s v hne']
    simp only [Outcome.bind_ok]
    have := loadDims_dims (dbl := dbl) (notes := notes) s.dims.byPosition []
      (fun d hd => by
        have h1 := hs d (mem_byPosition.1 hd)
        have h2 := hr d (mem_byPosition.1 hd)
        exact ⟨h1.1, h2.1, h2.2.1, h2.2.2.1, h2.2.2.2⟩)
      (by rw [List.nil_append]; exact (hperm.map Dim.name).nodup_iff.2 hn)
      (by rw [List.nil_append]; exact (hperm.map Dim.position).nodup_iff.2 hp)
    rw [PTree.kids, this]
    simp only [Outcome.bind_ok]
    rw [get_ok (walk_format notes s v) (getUnsigned_num (formatOf_code hf).2)]
    simp only [Outcome.bind_ok]
    rw [get_ok (walk_version notes s v) hu]
    simp only [Outcome.bind_ok]
    rw [(formatOf_code hf).1, w1]
    rfl
  rw [hload]
  rfl

/-- C90: a schema record like the library's, but with a version the library can read, is read completely: every dimension is
found under its name with position, size, offsets and flags unchanged, the dimensions are in position order, and the record
sizes and the point format are the same. The next free position, however, is that after the standard dimensions, whatever
the record lists. -/
theorem foreign_schema_loads {notes : Notes} {dbl : List Byte → Bool} {s : Schema} {v : List Byte} {u : Nat} (hs : Texts notes s)
    (hv : NoZero v) (hu : getUnsigned 16 v = some u) (hf : s.fmt ∈ [PointFormat.f0, .f1, .f2, .f3]) (hr : Recordable notes dbl s)
    (hn : (s.dims.map Dim.name).Nodup) (hp : (s.dims.map Dim.position).Nodup) (hne : s.dims ≠ []) (hc : s.calculateSizes = s) :
    ∃ S b, parseSchema dbl (writeXml ((schemaTree notes s).put [lit "LASSchema", lit "version"] v)) = .ok S ∧
      (∀ n, S.getDimension n = s.getDimension n) ∧ S.dims.map Dim.name = s.getDimensionNames ∧ S.fmt = s.fmt ∧
      S.byteSize = s.byteSize ∧ S.baseByteSize = s.baseByteSize ∧
      Schema.make s.fmt = .ok b ∧ S.nextPos = b.nextPos := by
  have hf' : s.fmt.std = true := by revert hf; cases s.fmt <;> decide
  obtain ⟨S0, f1, f2, e⟩ := parse_versioned hs hv hu hf' hr hn hp hne
  obtain ⟨b, b1, -, -, b4⟩ := Schema.make_laid s.fmt hf'
  have e : parseSchema dbl (writeXml (versioned notes s v)) =
      .ok (Schema.calculateSizes { S0 with dims := s.dims.byPosition.map Dim.core }) := e
  rw [put_version, e]
  have hperm := Schema.byPosition_perm s.dims
  have hn' : (s.dims.byPosition.map Dim.name).Nodup := (hperm.map Dim.name).nodup_iff.2 hn
  have hp' : (s.dims.byPosition.map Dim.position).Nodup := (hperm.map Dim.position).nodup_iff.2 hp
  have hsort : Schema.Sorted s.dims.byPosition := by
    have h1 := Schema.byPosition_pairwise s.dims
    have h2 : s.dims.byPosition.Pairwise fun a b => a.position ≠ b.position := List.pairwise_map.1 hp'
    exact (h1.and h2).imp fun h => Nat.lt_of_le_of_ne h.1 h.2
  have hcore : (s.dims.byPosition.map Dim.core).map Dim.core = s.dims.byPosition.map Dim.core := by
    rw [List.map_map]; rfl
  have hS := Schema.calculateSizes_sorted { S0 with dims := s.dims.byPosition.map Dim.core }
    (Schema.sorted_congr hcore hsort) (by rw [Schema.map_core_name hcore]; exact hn')
  rw [Schema.sizeLoop_congr _ hcore] at hS
  have hb : s.bitSize = (Schema.sizeLoop ⟨0, 0, 0, 0⟩ s.dims.byPosition).2.total ∧
      s.baseBitSize = (Schema.sizeLoop ⟨0, 0, 0, 0⟩ s.dims.byPosition).2.base ∧
      s.dims = s.dims.map fun e => ((Schema.sizeLoop ⟨0, 0, 0, 0⟩ s.dims.byPosition).1.find? fun d => d.name == e.name).getD e := by
    have h1 := congrArg Schema.bitSize hc
    have h2 := congrArg Schema.baseBitSize hc
    have h3 := congrArg Schema.dims hc
    exact ⟨h1.symm, h2.symm, h3.symm⟩
  refine ⟨_, b, rfl, ?_, ?_, ?_, ?_, ?_, b1, ?_⟩
  · intro n
    unfold Schema.getDimension
    have hd : (Schema.calculateSizes { S0 with dims := s.dims.byPosition.map Dim.core }).dims =
        (Schema.sizeLoop ⟨0, 0, 0, 0⟩ s.dims.byPosition).1 := by rw [hS]
    show IndexMap.named (Schema.calculateSizes { S0 with dims := s.dims.byPosition.map Dim.core }).dims n = _
    rw [hd]
    have hnames := Schema.sizeLoop_names ⟨0, 0, 0, 0⟩ s.dims.byPosition
    generalize (Schema.sizeLoop ⟨0, 0, 0, 0⟩ s.dims.byPosition).1 = ds at *
    unfold IndexMap.named
    cases hx : s.dims.find? fun e => e.name == n with
    | none =>
      rw [List.find?_eq_none] at hx ⊢
      intro d hd hh
      have : d.name ∈ ds.map Dim.name := List.mem_map_of_mem hd
      rw [hnames, (hperm.map Dim.name).mem_iff] at this
      obtain ⟨e, he, hee⟩ := List.mem_map.1 this
      exact hx e he (by simpa [hee] using hh)
    | some e =>
      have hen : e.name = n := by simpa using List.find?_some hx
      have hem := List.mem_of_find?_eq_some hx
      have hfind : ∃ d, ds.find? (fun d => d.name == n) = some d := by
        rw [← Option.isSome_iff_exists, List.find?_isSome]
        have : n ∈ ds.map Dim.name := by
          rw [hnames, (hperm.map Dim.name).mem_iff, ← hen]
          exact List.mem_map_of_mem hem
        obtain ⟨d, hd, hdn⟩ := List.mem_map.1 this
        exact ⟨d, hd, by simpa using hdn⟩
      obtain ⟨d, hd⟩ := hfind
      rw [hd]
      have hdn : d.name = n := by simpa using List.find?_some hd
      have hdm : d ∈ s.dims := by
        rw [hb.2.2]
        refine List.mem_map.2 ⟨e, hem, ?_⟩
        rw [hen, hd]
        rfl
      exact congrArg some (List.inj_on_of_nodup_map hn hdm hem (hdn.trans hen.symm))
  · rw [hS]
    exact Schema.sizeLoop_names _ _
  · rw [hS]
    exact f1
  · rw [hS]
    unfold Schema.byteSize
    rw [hb.1]
  · rw [hS]
    unfold Schema.baseByteSize
    rw [hb.2.1]
  · rw [hS, b4]
    exact f2

/-- A custom schema: point format 1 and two user dimensions, with markup characters in a name. -/
def sampleSchema : Schema :=
  match Schema.withDims .f1 [{ name := "R&D <1>", bitSize := 16, active := true }, { name := "amplitude", bitSize := 32 }] with
  | .ok s => s
  | _ => ⟨.f0, 0, 0, 0, []⟩

/-- The text of a range can be any decimal. -/
def sampleNotes : Notes := fun n => if n == "X" then { description := lit "x & y", integer := true, range := some (lit "-1.5", lit "7") } else {}

theorem sample_texts : Texts sampleNotes sampleSchema := by
  have h : ∀ d ∈ sampleSchema.dims, ∀ c ∈ d.name.toList, 0 < c.toNat ∧ c.toNat < 256 := by decide +kernel
  intro d hd
  refine ⟨h d hd, ?_⟩
  unfold sampleNotes
  split
  · refine ⟨by decide +kernel, ?_⟩
    intro lo hi e
    simp only [Option.some.injEq, Prod.mk.injEq] at e
    rw [← e.1, ← e.2]
    decide +kernel
  · exact ⟨by simp [NoZero], fun lo hi e => by cases e⟩

/-- The hypotheses of C89 and C90 are met by a custom schema. -/
example : sampleSchema.isCustom = true ∧ sampleSchema.fmt ∈ [PointFormat.f0, .f1, .f2, .f3] ∧
    (∀ d ∈ sampleSchema.dims, d.bitSize ≠ 0 ∧ d.bitSize < 2 ^ 32 ∧ d.position < 2 ^ 32) ∧
    (sampleSchema.dims.map Dim.name).Nodup ∧ (sampleSchema.dims.map Dim.position).Nodup ∧ sampleSchema.dims ≠ [] ∧
    sampleSchema.calculateSizes = sampleSchema ∧ getUnsigned 16 (lit "1") = some 1 := by decide +kernel

/-- A header with the custom schema. -/
def customHeader : LibLAS.Header := { sampleHeader with schema := sampleSchema }

theorem customHeader_storable : StorableHeader customHeader := by
  have h := sampleHeader_storable
  exact ⟨h.signature, h.guid, h.systemId, h.softwareId, h.major, h.minor, h.size, by decide +kernel, h.records⟩

/-- The other hypotheses of `custom_schema_lost` are met; the schema record is there. -/
example : ∃ w, Writer.make (env sampleNotes (fun _ => true) 0#8) (OStream.onFile []) customHeader = .ok w ∧
    customHeader.headerSize.toNat + recordBytes w.hdr.vlrs + 4 < 2 ^ 31 ∧ (w.hdr.vlrs.filter VLR.isSchema).length = 1 ∧
    customHeader.dataRecordLength = 34 ∧ customHeader.schema.isCustom = true :=
  Outcome.exists_of_check (by decide +kernel)

/-- A dimension as another program might record it. -/
def foreignDim (name : String) (size position : Nat) : List Byte × PTree :=
  (lit "dimension", .node [] [(lit "size", .node (num size) []), (lit "name", .node (lit name) []), (lit "description", .node [] []),
    (lit "signed", .node (lit "true") []), (lit "integer", .node (lit "1") []), (lit "active", .node (lit "1") []),
    (lit "required", .node (lit "1") []), (lit "position", .node (num position) [])])

/-- A header of point format 0 whose caller has put a schema record with the given dimensions among the records. -/
def foreignHeader (ds : List (List Byte × PTree)) : LibLAS.Header :=
  let data := writeXml (.node [] [(lit "LASSchema", .node [] [(lit "dimensions", .node [] ds), (lit "version", .node (lit "1") []),
    (lit "formatid", .node (lit "0") [])])])
  { Header.new 1 2000 with
    schema := match Schema.make .f0 with
      | .ok s => s
      | _ => (Header.new 1 2000).schema
    recordsCount := 1
    vlrs := [{ VLR.new with data := data, recordSize := BitVec.ofNat 16 data.length, recordId := 7, userId := padTo 16 (lit "liblas") }] }

/-- A file of two points of 20 bytes with such a record. -/
def foreignFile (ds : List (List Byte × PTree)) : List Byte :=
  match session plainEnv [] (foreignHeader ds) [List.replicate 20 1#8, List.replicate 20 2#8] with
  | .ok b => b
  | _ => []

/-- The library's environment without notes, reading every range. -/
def libEnv : Env := env (fun _ => {}) (fun _ => true) 0#8

/-- C88, refuted for whole files: a schema record that lists X but not Y makes opening the file undefined (an empty
`boost::optional` is dereferenced). -/
theorem half_schema_crashes : Reader.make libEnv (1, 2000) (IStream.onFile (foreignFile [foreignDim "X" 32 0])) = .ub := by
  have h : (match Reader.make libEnv (1, 2000) (IStream.onFile (foreignFile [foreignDim "X" 32 0])) with
    | .ub => true | _ => false) = true := by decide +kernel
  cases e : Reader.make libEnv (1, 2000) (IStream.onFile (foreignFile [foreignDim "X" 32 0])) with
  | ub => rfl
  | ok r => rw [e] at h; cases h
  | throw x => rw [e] at h; cases h

/-- A record that lists X, Y, Z and the other bytes is read. -/
theorem whole_schema_read : ∃ r, Reader.make libEnv (1, 2000)
      (IStream.onFile (foreignFile [foreignDim "X" 32 0, foreignDim "Y" 32 1, foreignDim "Z" 32 2, foreignDim "rest" 64 9])) = .ok r ∧
    r.hdr.dataRecordLength = 20 ∧ r.hdr.schema.getDimensionNames = ["X", "Y", "Z", "rest"] ∧
    r.readNext.1.readNext.1.point = List.replicate 20 2#8 :=
  Outcome.exists_of_check (by decide +kernel)

/-- C90, refuted for the record length: where the position the library gives to "extra" is taken by a recorded dimension, the
missing bytes are not made up for. The file says 20 bytes per record, the reader takes 19 and delivers as the second point
bytes of both. -/
theorem record_length_lost : ∃ r, Reader.make libEnv (1, 2000)
      (IStream.onFile (foreignFile [foreignDim "X" 32 0, foreignDim "Y" 32 1, foreignDim "Z" 32 2, foreignDim "rest" 56 15])) = .ok r ∧
    r.hdr.dataRecordLength = 19 ∧ r.readNext.1.readNext.1.point = 1#8 :: List.replicate 18 2#8 :=
  Outcome.exists_of_check (by decide +kernel)

/-- With that position free the length is made up for. -/
example : ∃ r, Reader.make libEnv (1, 2000)
      (IStream.onFile (foreignFile [foreignDim "X" 32 0, foreignDim "Y" 32 1, foreignDim "Z" 32 2, foreignDim "rest" 56 9])) = .ok r ∧
    r.hdr.dataRecordLength = 20 ∧ r.readNext.1.readNext.1.point = List.replicate 20 2#8 :=
  Outcome.exists_of_check (by decide +kernel)

end LibLAS.Xml
