import Verif.Lemmas.HeaderXml
import Verif.Props.SummaryXml
import Verif.Props.ProjectId
/-
C102: the XML text of a header and of a point.
-/
namespace LibLAS.Xml
open LibLAS.Spec PTree

/-- A header object with texts that C strings can hold, five counts by return and the right number of variable records. -/
structure Describable (notes : Notes) (h : LibLAS.Header) : Prop where
  signature : NoZero h.signature
  guid : h.guid.length = 16
  returns : 5 ≤ h.byReturn.length
  records : h.recordsCount.toNat = h.vlrs.length
  texts : Texts notes h.schema

theorem noZero_upToZero (l : List Byte) : NoZero (upToZero l) := by
  intro b hb
  have := List.mem_takeWhile_imp hb
  simpa using this

theorem noZero_print {id : List Byte} (h : id.length = 16) : NoZero (ProjectId.print id) := by
  have := ProjectId.print_cstr h
  rw [← this]
  exact noZero_upToZero _

theorem noZero_joined (a c : Nat) {m : Byte} (hm : m ≠ 0#8) : NoZero (joined a m c) :=
  noZero_append (noZero_num a) (noZero_cons hm (noZero_num c))

theorem noZero_message (s : SRS) : NoZero (srsMessage s) := by
  unfold srsMessage
  split
  · decide +kernel
  · split <;> decide +kernel

theorem storable_vec {real : Fl → List Byte} (hreal : ∀ x, NoZero (real x)) (v : Vec3 (BitVec 64)) : StorableKids (vecKids real v) := by
  apply storable_leaves
  simp only [List.forall_mem_cons]
  exact ⟨⟨by decide +kernel, hreal _⟩, ⟨by decide +kernel, hreal _⟩, ⟨by decide +kernel, hreal _⟩, by simp⟩

theorem storable_header {notes : Notes} {real : Fl → List Byte} (hreal : ∀ x, NoZero (real x)) {m : List Byte} (hm : NoZero m)
    {h : LibLAS.Header} (hd : Describable notes h) : StorableKids (headerKids notes real m h) := by
  unfold headerKids beforeRecords
  apply storableKids_append
  · apply storableKids_append
    · apply storableKids_append
      · apply storableKids_append
        · apply storable_leaves
          simp only [firstTexts, List.forall_mem_cons]
          exact ⟨⟨by decide +kernel, hd.signature⟩, ⟨by decide +kernel, noZero_print hd.guid⟩, ⟨by decide +kernel, noZero_upToZero _⟩,
            ⟨by decide +kernel, noZero_upToZero _⟩, ⟨by decide +kernel, noZero_joined _ _ (by decide)⟩, ⟨by decide +kernel, noZero_num _⟩,
            ⟨by decide +kernel, noZero_num _⟩, by simp⟩
        · refine ⟨by decide +kernel, ⟨by decide, ?_⟩, trivial⟩
          apply storable_leaves
          simp only [List.forall_mem_cons]
          exact ⟨⟨by decide +kernel, hm⟩, ⟨by decide +kernel, hm⟩, ⟨by decide +kernel, hm⟩, ⟨by decide +kernel, hm⟩,
            ⟨by decide +kernel, hm⟩, ⟨by decide +kernel, hm⟩, by simp⟩
      · apply storable_leaves
        simp only [moreTexts, List.forall_mem_cons]
        exact ⟨⟨by decide +kernel, noZero_joined _ _ (by decide)⟩, ⟨by decide +kernel, noZero_num _⟩, ⟨by decide +kernel, noZero_num _⟩,
          ⟨by decide +kernel, noZero_num _⟩, ⟨by decide +kernel, noZero_num _⟩, ⟨by decide +kernel, noZero_num _⟩,
          ⟨by decide +kernel, noZero_num _⟩, ⟨by decide +kernel, noZero_word _⟩, by simp⟩
    · refine ⟨by decide +kernel, ⟨by decide, ?_⟩, by decide +kernel, ⟨by decide, storable_vec hreal _⟩, by decide +kernel,
        ⟨by decide, storable_vec hreal _⟩, by decide +kernel, ⟨by decide, storable_vec hreal _⟩, by decide +kernel,
        ⟨by decide, storable_vec hreal _⟩, trivial⟩
      unfold returnKids
      generalize (h.byReturn.take 5).zipIdx = l
      induction l with
      | nil => exact trivial
      | cons e l ih => exact ⟨by decide +kernel, ⟨by decide, storable_countFs e.2 e.1⟩, ih⟩
  · apply storableKids_append
    · refine storable_group (by decide +kernel) ?_
      unfold recordKids
      generalize h.vlrs = l
      induction l with
      | nil => exact trivial
      | cons v l ih =>
        refine ⟨by decide +kernel, ⟨by decide, ?_⟩, ih⟩
        apply storable_leaves
        simp only [List.forall_mem_cons]
        exact ⟨⟨by decide +kernel, noZero_upToZero _⟩, ⟨by decide +kernel, noZero_upToZero _⟩, ⟨by decide +kernel, noZero_num _⟩,
          ⟨by decide +kernel, noZero_num _⟩, ⟨by decide +kernel, noZero_num _⟩, by simp⟩
    · refine ⟨by decide +kernel, ?_, trivial⟩
      rw [schemaTree_eq]
      have := storable_versioned (v := lit "1.0") hd.texts (by decide +kernel)
      exact ⟨by decide, this⟩

theorem num_inj {a c : Nat} (h : num a = num c) : a = c := by
  rw [← (num_spec a).2.2, h, (num_spec c).2.2]

theorem takeWhile_num (a : Nat) {m : Byte} (hm : isDec m = false) (r : List Byte) : (num a ++ m :: r).takeWhile isDec = num a := by
  rw [List.takeWhile_append_of_pos (num_spec a).2.1, List.takeWhile_cons, hm]
  simp

theorem joined_inj {a c a' c' : Nat} {m : Byte} (hm : isDec m = false) (h : joined a m c = joined a' m c') : a = a' ∧ c = c' := by
  unfold joined at h
  have h1 := congrArg (List.takeWhile isDec) h
  rw [takeWhile_num a hm, takeWhile_num a' hm] at h1
  rw [h1] at h
  exact ⟨num_inj h1, num_inj (List.cons.inj (List.append_cancel_left h)).2⟩

theorem saysPair_joined {t : PTree} {path : List String} {a c : Nat} {m : Byte} (h : (element t path).map PTree.data = some (joined a m c)) :
    SaysPair t path a m c := ⟨Las2txt.natText a, Las2txt.natText c, h, Las2txt.showsNat a, Las2txt.showsNat c⟩

theorem find_append_ne {k : List Byte} : ∀ (ks r : List (List Byte × PTree)), k ∉ ks.map Prod.fst → find k (ks ++ r) = find k r
  | [], _, _ => rfl
  | (k', t) :: ks, r, h => by
    rw [List.map_cons, List.mem_cons, not_or] at h
    rw [List.cons_append, find_ne _ _ (fun e => h.1 e.symm), find_append_ne ks r h.2]

def beforeKeys : List (List Byte) := firstKeys ++ [lit "srs"] ++ moreKeys ++ [lit "returns", lit "scale", lit "offset", lit "minimum", lit "maximum"]

theorem describes (v : VLR) : DescribesRecord v (.node [] (vlrKids v)) :=
  ⟨rfl, rfl, saysInt_num rfl, saysInt_num rfl, saysInt_num rfl⟩

theorem element_one (t : PTree) (k : String) : element t [k] = find (lit k) t.kids := by
  obtain ⟨d, ks⟩ := t
  show (match find (lit k) ks with | none => none | some c => some c) = find (lit k) ks
  cases find (lit k) ks <;> rfl

theorem header_says {notes : Notes} {real : Fl → List Byte} (wkt : List Byte) {h : LibLAS.Header} (hd : Describable notes h) :
    HeaderReports real (writeXml (schemaTree notes h.schema)) wkt h
      (.node [] (headerKids notes real (srsMessage (SRS.copy ⟨h.srs, wkt⟩)) h)) where
  signature := rfl
  project := ⟨ProjectId.print h.guid, rfl, (ProjectId.text_round_trip true hd.guid).1⟩
  system := rfl
  software := rfl
  version := saysPair_joined rfl
  date := saysPair_joined rfl
  ints := by
    simp only [headerInts, List.forall_mem_cons]
    exact ⟨saysInt_num rfl, saysInt_num rfl, saysInt_num rfl, saysInt_num rfl, saysInt_num rfl, saysInt_num rfl, saysInt_num rfl,
      saysInt_num rfl, by simp⟩
  compressed := rfl
  doubles := by
    simp only [headerDoubles, List.forall_mem_cons]
    exact ⟨⟨rfl, rfl, rfl⟩, ⟨rfl, rfl, rfl⟩, ⟨rfl, rfl, rfl⟩, ⟨rfl, rfl, rfl⟩, by simp⟩
  returns := by
    refine ⟨.node [] (returnKids (h.byReturn.take 5).zipIdx), rfl, ?_⟩
    show List.Forall₂ _ _ (returnKids (h.byReturn.take 5).zipIdx)
    unfold returnKids
    rw [List.forall₂_map_right_iff, List.forall₂_same]
    intro c _
    exact ⟨rfl, saysInt_num rfl, saysInt_num rfl⟩
  records := by
    have hk : ∀ t, find (lit "vlrs") (headerKids notes real t h) =
        if recordKids h.vlrs = [] then none else some (.node [] (recordKids h.vlrs)) := by
      intro t
      unfold headerKids
      rw [find_append_ne _ _ (by show lit "vlrs" ∉ beforeKeys; decide +kernel), find_group_eq, find_ne _ _ (by decide +kernel)]
      rfl
    split
    · rename_i he
      rw [element_one]
      show find _ (headerKids _ _ _ _) = _
      rw [hk, he]
      rfl
    · rename_i he
      refine ⟨.node [] (recordKids h.vlrs), ?_, ?_⟩
      · rw [element_one]
        show find _ (headerKids _ _ _ _) = _
        rw [hk, if_neg (by simpa [recordKids] using he)]
      · show List.Forall₂ _ _ (recordKids h.vlrs)
        unfold recordKids
        rw [List.forall₂_map_right_iff, List.forall₂_same]
        intro v _
        exact ⟨rfl, describes v⟩
  reference := by
    have e : ∀ m, SaysText (.node [] (headerKids notes real m h)) ["srs", "wkt"] (lit "None") ↔ m = lit "None" := by
      intro m
      exact ⟨fun e => Option.some.inj e, fun e => congrArg some e⟩
    rw [e]
    unfold srsMessage SRS.copy
    dsimp only
    by_cases h1 : h.srs.filter VLR.isGeo = []
    · by_cases h2 : wkt = []
      · simp [h1, h2]
      · have hl : wkt.length > 0 := List.length_pos_iff.2 h2
        rw [h1, if_neg (by simp), if_pos hl]
        refine ⟨fun e => absurd e.2 h2, fun e => absurd e (by decide +kernel)⟩
    · have hl : (h.srs.filter VLR.isGeo).length > 0 := List.length_pos_iff.2 h1
      refine ⟨fun e => absurd e.1 h1, fun e => ?_⟩
      by_cases h2 : wkt.length = 0
      · rw [if_pos ⟨hl, h2⟩] at e
        exact absurd e (by decide +kernel)
      · rw [if_neg (by tauto), if_pos (by omega)] at e
        exact absurd e (by decide +kernel)
  schema := by
    refine ⟨schemaTree notes h.schema, ?_, ?_⟩
    · rw [element_one]
      show find _ (headerKids _ _ _ _) = _
      unfold headerKids
      rw [find_append_ne _ _ (by show lit "schema" ∉ beforeKeys; decide +kernel), find_group_ne _ _ (by decide +kernel), find_eq]
    · rw [schemaTree_eq]
      exact read_versioned hd.texts (by decide +kernel)

theorem find_vlrs (notes : Notes) (real : Fl → List Byte) (m : List Byte) (h : LibLAS.Header) :
    find (lit "vlrs") (headerKids notes real m h) = if recordKids h.vlrs = [] then none else some (.node [] (recordKids h.vlrs)) := by
  unfold headerKids
  rw [find_append_ne _ _ (by show lit "vlrs" ∉ beforeKeys; decide +kernel), find_group_eq, find_ne _ _ (by decide +kernel)]
  rfl

theorem writeXml_read {notes : Notes} {real : Fl → List Byte} (hreal : ∀ x, NoZero (real x)) (wkt : List Byte) {h : LibLAS.Header}
    (hd : Describable notes h) : readXml (writeXml (.node [] (headerKids notes real (srsMessage (SRS.copy ⟨h.srs, wkt⟩)) h))) =
      .ok (.node [] (headerKids notes real (srsMessage (SRS.copy ⟨h.srs, wkt⟩)) h)) :=
  read_write _ (storable_header hreal (noZero_message _) hd)

/-- `LASHeader_GetXML` on a header object: a text that an XML parser reads, and what it reads says everything about the header: texts,
numbers, the doubles, the counts by return, the variable records in order, and the document of the schema. The errors stay as they were. -/
theorem header_xml_partial {notes : Notes} {real : Fl → List Byte} (hreal : ∀ x, NoZero (real x)) (wkt : List Byte) (st : CApi.Errors)
    {h : LibLAS.Header} (hd : Describable notes h) :
    ∃ text tree, headerXml notes real wkt st (some (some h)) = .ok (some text, st) ∧ readXml text = .ok tree ∧
      HeaderReports real (writeXml (schemaTree notes h.schema)) wkt h tree := by
  refine ⟨cstr (writeXml (.node [] (headerKids notes real (srsMessage (SRS.copy ⟨h.srs, wkt⟩)) h))), (.node [] (headerKids notes real (srsMessage (SRS.copy ⟨h.srs, wkt⟩)) h)),
    ?_, ?_, header_says wkt hd⟩
  · unfold headerXml
    dsimp only
    rw [headerTree_eq notes real wkt h hd.returns hd.records, Outcome.bind_ok]
    rfl
  · rw [readXml_cstr]
    exact read_write _ (storable_header hreal (noZero_message _) hd)

/-- Two headers with the same text agree in everything the text says about numbers, texts, identifier, counts and variable records. -/
theorem header_xml_distinguishes {notes : Notes} {real : Fl → List Byte} (hreal : ∀ x, NoZero (real x)) (wkt : List Byte) (st : CApi.Errors)
    {h g : LibLAS.Header} (hd : Describable notes h) (gd : Describable notes g)
    (he : headerXml notes real wkt st (some (some h)) = headerXml notes real wkt st (some (some g))) :
    h.signature = g.signature ∧ h.guid = g.guid ∧ upToZero h.systemId = upToZero g.systemId ∧ upToZero h.softwareId = upToZero g.softwareId ∧
    h.verMajor = g.verMajor ∧ h.verMinor = g.verMinor ∧ h.doy = g.doy ∧ h.year = g.year ∧ (∀ e ∈ headerInts, e.2 h = e.2 g) ∧
    h.compressed = g.compressed ∧ h.byReturn.take 5 = g.byReturn.take 5 ∧
    h.vlrs.map (fun v => (upToZero v.userId, upToZero v.description, v.recordSize, v.recordId, v.data.length)) =
      g.vlrs.map (fun v => (upToZero v.userId, upToZero v.description, v.recordSize, v.recordId, v.data.length)) := by
  unfold headerXml at he
  dsimp only at he
  rw [headerTree_eq notes real wkt h hd.returns hd.records, headerTree_eq notes real wkt g gd.returns gd.records, Outcome.bind_ok,
    Outcome.bind_ok] at he
  have he' := congrArg readXml (Option.some.inj (congrArg Prod.fst (Outcome.ok.inj he)))
  rw [readXml_cstr, readXml_cstr, writeXml_read hreal wkt hd, writeXml_read hreal wkt gd] at he'
  have ht := Outcome.ok.inj he'
  have path : ∀ p : List String, (element (.node [] (headerKids notes real (srsMessage (SRS.copy ⟨h.srs, wkt⟩)) h)) p).map PTree.data =
      (element (.node [] (headerKids notes real (srsMessage (SRS.copy ⟨g.srs, wkt⟩)) g)) p).map PTree.data := fun p => by rw [ht]
  have hver := joined_inj (m := 0x2E#8) (by decide) (Option.some.inj (path ["version"]))
  have hdate := joined_inj (m := 0x2F#8) (by decide) (Option.some.inj (path ["date"]))
  refine ⟨Option.some.inj (path ["filesignature"]), ?_, Option.some.inj (path ["systemid"]), Option.some.inj (path ["softwareid"]),
    BitVec.eq_of_toNat_eq hver.1, BitVec.eq_of_toNat_eq hver.2, BitVec.eq_of_toNat_eq hdate.1, BitVec.eq_of_toNat_eq hdate.2, ?_, ?_, ?_, ?_⟩
  · exact (ProjectId.text_distinguishes hd.guid gd.guid).1 (Option.some.inj (path ["projectdid"]))
  · simp only [headerInts, List.forall_mem_cons]
    exact ⟨num_inj (Option.some.inj (path ["filesourceid"])), num_inj (Option.some.inj (path ["reserved"])),
      num_inj (Option.some.inj (path ["size"])), num_inj (Option.some.inj (path ["dataoffset"])),
      num_inj (Option.some.inj (path ["header_padding"])), num_inj (Option.some.inj (path ["count"])),
      num_inj (Option.some.inj (path ["dataformatid"])), num_inj (Option.some.inj (path ["datarecordlength"])), by simp⟩
  · have hw : ∀ a c : Bool, word a = word c → a = c := by decide +kernel
    exact hw _ _ (Option.some.inj (path ["compressed"]))
  · have hk : returnKids (h.byReturn.take 5).zipIdx = returnKids (g.byReturn.take 5).zipIdx :=
      congrArg PTree.kids (Option.some.inj (congrArg (fun t => element t ["returns"]) ht))
    have : ∀ l m : List (BitVec 32 × Nat), returnKids l = returnKids m → l.map Prod.fst = m.map Prod.fst := by
      intro l
      induction l with
      | nil => intro m hm; cases m with
        | nil => rfl
        | cons => simp [returnKids] at hm
      | cons a l ih => intro m hm; cases m with
        | nil => simp [returnKids] at hm
        | cons c m =>
          simp only [returnKids, List.map_cons, List.cons.injEq, leaves, Prod.mk.injEq, PTree.node.injEq, List.map_nil, true_and, and_true] at hm
          rw [List.map_cons, List.map_cons, ih m hm.2, BitVec.eq_of_toNat_eq (num_inj hm.1.2)]
    have := this _ _ hk
    simpa using this
  · have hk : (find (lit "vlrs") (headerKids notes real (srsMessage (SRS.copy ⟨h.srs, wkt⟩)) h)).map PTree.kids =
        (find (lit "vlrs") (headerKids notes real (srsMessage (SRS.copy ⟨g.srs, wkt⟩)) g)).map PTree.kids := by
      have := congrArg (fun t => (find (lit "vlrs") (PTree.kids t)).map PTree.kids) ht
      exact this
    rw [find_vlrs, find_vlrs] at hk
    have hk : recordKids h.vlrs = recordKids g.vlrs := by
      by_cases h1 : recordKids h.vlrs = [] <;> by_cases h2 : recordKids g.vlrs = [] <;> simp [h1, h2] at hk
      · rw [h1, h2]
      · exact hk
    have : ∀ l m : List VLR, recordKids l = recordKids m →
        l.map (fun v => (upToZero v.userId, upToZero v.description, v.recordSize, v.recordId, v.data.length)) =
        m.map (fun v => (upToZero v.userId, upToZero v.description, v.recordSize, v.recordId, v.data.length)) := by
      intro l
      induction l with
      | nil => intro m hm; cases m with
        | nil => rfl
        | cons => simp [recordKids] at hm
      | cons a l ih => intro m hm; cases m with
        | nil => simp [recordKids] at hm
        | cons c m =>
          simp only [recordKids, List.map_cons, List.cons.injEq, vlrKids, leaves, Prod.mk.injEq, PTree.node.injEq, List.map_nil, true_and,
            and_true] at hm
          obtain ⟨⟨a1, a2, a3, a4, a5⟩, hm⟩ := hm
          have b5 := num_inj a5
          rw [List.map_cons, List.map_cons, ih m hm, a1, a2, BitVec.eq_of_toNat_eq (num_inj a3), BitVec.eq_of_toNat_eq (num_inj a4),
            show a.data.length = c.data.length by omega]
    exact this _ _ hk

/-- `lasinfo --xml --no-check` prints a document with one outermost element that says the same. -/
theorem info_header {notes : Notes} {real : Fl → List Byte} (hreal : ∀ x, NoZero (real x)) (wkt : List Byte)
    {h : LibLAS.Header} (hd : Describable notes h) :
    ∃ text tree, infoHeader notes real wkt h = .ok text ∧ readXml text = .ok tree ∧ OneRoot tree ∧
      Below tree ["summary", "header"] (HeaderReports real (writeXml (schemaTree notes h.schema)) wkt h) := by
  refine ⟨writeXml (.node [] [(lit "summary", .node [] [(lit "header", .node [] (headerKids notes real (srsMessage (SRS.copy ⟨h.srs, wkt⟩)) h))])]),
    .node [] [(lit "summary", .node [] [(lit "header", .node [] (headerKids notes real (srsMessage (SRS.copy ⟨h.srs, wkt⟩)) h))])],
    ?_, ?_, rfl, ⟨_, rfl, header_says wkt hd⟩⟩
  · unfold infoHeader
    rw [headerTree_eq notes real wkt h hd.returns hd.records, Outcome.bind_ok]
    rfl
  · exact read_write _ ⟨by decide +kernel, ⟨by decide, by decide +kernel, ⟨by decide, storable_header hreal (noZero_message _) hd⟩, trivial⟩, trivial⟩

/-- Refuted: the text of `LASHeader_GetXML` is no XML document, it has more than one outermost element. -/
theorem header_xml_roots {notes : Notes} {real : Fl → List Byte} (hreal : ∀ x, NoZero (real x)) (wkt : List Byte) (st : CApi.Errors)
    {h : LibLAS.Header} (hd : Describable notes h) :
    ∃ text tree, headerXml notes real wkt st (some (some h)) = .ok (some text, st) ∧ readXml text = .ok tree ∧ ¬ OneRoot tree := by
  refine ⟨cstr (writeXml (.node [] (headerKids notes real (srsMessage (SRS.copy ⟨h.srs, wkt⟩)) h))), .node [] (headerKids notes real (srsMessage (SRS.copy ⟨h.srs, wkt⟩)) h), ?_, ?_, ?_⟩
  · unfold headerXml
    dsimp only
    rw [headerTree_eq notes real wkt h hd.returns hd.records, Outcome.bind_ok]
    rfl
  · rw [readXml_cstr]
    exact read_write _ (storable_header hreal (noZero_message _) hd)
  · show ¬ (headerKids notes real _ h).length = 1
    unfold headerKids beforeRecords
    simp only [List.length_append, List.length_cons]
    omega

/-- Refuted: with a record count larger than the number of variable records (`SetRecordsCount` takes any) records beyond the end are
read. -/
theorem header_xml_count_undefined (notes : Notes) (real : Fl → List Byte) (wkt : List Byte) (st : CApi.Errors) {h : LibLAS.Header}
    (h5 : 5 ≤ h.byReturn.length) (hc : h.vlrs.length < h.recordsCount.toNat) : headerXml notes real wkt st (some (some h)) = .ub := by
  unfold headerXml headerTree
  dsimp only
  rw [returnsTree_eq _ 5 h5, Outcome.bind_ok, addVlrs_ub _ _ _ hc]
  rfl

/-- A NULL handle is refused; refuted for a handle without a header, which is followed. -/
theorem header_xml_null (notes : Notes) (real : Fl → List Byte) (wkt : List Byte) (st : CApi.Errors) :
    (∃ e, headerXml notes real wkt st none = .ok (none, e :: st)) ∧ headerXml notes real wkt st (some none) = .ub := ⟨⟨_, rfl⟩, rfl⟩

theorem point_says (real : Fl → List Byte) (sc off : Vec3 Fl) (a : Attrs) : PointReports real sc off a (.node [] (pointKids real sc off a)) where
  attributes := by
    simp only [attributeElements, List.forall_mem_cons]
    refine ⟨saysInt_signed rfl, saysInt_signed rfl, saysInt_signed rfl, saysInt_num rfl, saysInt_num rfl, saysInt_num rfl, saysInt_num rfl,
      saysInt_signed rfl, saysInt_num rfl, saysInt_num rfl, saysInt_num rfl, ?_, saysInt_num rfl, saysInt_num rfl, saysInt_num rfl, by simp⟩
    have h : SaysInt (.node [] (pointKids real sc off a)) ["classification", "id"] ((a.classification.flags.toNat % 32 : Nat) : Int) := saysInt_num rfl
    rw [Int.natCast_mod] at h
    exact h
  coordinates := by
    simp only [coordinateElements, List.forall_mem_cons]
    exact ⟨rfl, rfl, rfl, by simp⟩
  time := rfl
  className := rfl
  withheld := by
    have : a.classification.isWithheld = a.classification.flags.getLsbD 7 := rfl
    show some (word a.classification.isWithheld) = _
    rw [this]; rfl
  keypoint := by
    have : a.classification.isKeyPoint = a.classification.flags.getLsbD 6 := rfl
    show some (word a.classification.isKeyPoint) = _
    rw [this]; rfl
  synthetic := by
    have : a.classification.isSynthetic = a.classification.flags.getLsbD 5 := rfl
    show some (word a.classification.isSynthetic) = _
    rw [this]; rfl

/-- `LASPoint_GetXML` on a point whose fields can be read: what an XML parser reads in the text are its fields; but it is no XML
document (refuted: it has more than one outermost element). -/
theorem point_xml_partial {b : Build} {real : Fl → List Byte} (hreal : ∀ x, NoZero (real x)) (st : CApi.Errors) {p : Point} {a : Attrs}
    (h : Point.observe b p = .ok a) :
    ∃ text tree, pointXml b real st (some p) = .ok (some text, st) ∧ readXml text = .ok tree ∧
      PointReports real p.hdr.scale p.hdr.offset a tree ∧ ¬ OneRoot tree := by
  refine ⟨cstr (writeXml (.node [] (pointKids real p.hdr.scale p.hdr.offset a))), .node [] (pointKids real p.hdr.scale p.hdr.offset a), ?_, ?_,
    point_says real p.hdr.scale p.hdr.offset a, ?_⟩
  · unfold pointXml
    dsimp only
    rw [pointTree_eq real h, Outcome.bind_ok]
    rfl
  · rw [readXml_cstr]
    exact read_write _ (storable_point hreal _ _ _)
  · show ¬ (pointKids real p.hdr.scale p.hdr.offset a).length = 1
    simp [pointKids, leaves]

/-- A NULL point is refused. -/
theorem point_xml_null (b : Build) (real : Fl → List Byte) (st : CApi.Errors) : ∃ e, pointXml b real st none = .ok (none, e :: st) := ⟨_, rfl⟩

/-- `lasinfo --point n --xml`: for a file that has record `n` in it, one document with its fields and status 0; for a number from the
count on, status 1 and nothing printed. -/
theorem info_point {env : Env} {today : BitVec 16 × BitVec 16} {f : List Byte} {r : Reader} {b : Build} {real : Fl → List Byte}
    (hreal : ∀ x, NoZero (real x)) (hr : Reader.make env today (IStream.onFile f) = .ok r) (hs : SaneLength r) (n : Nat) :
    (∀ a, n < r.hdr.pointCount.toNat → r.hdr.dataOffset.toNat + (n + 1) * r.hdr.dataRecordLength ≤ f.length →
      Point.observe b ⟨record f r.hdr.dataOffset.toNat r.hdr.dataRecordLength n, r.hdr.toP⟩ = .ok a →
      ∃ text tree, infoPoint b real r n = .ok (0, text) ∧ readXml text = .ok tree ∧ OneRoot tree ∧
        Below tree ["points", "point"] (PointReports real r.hdr.toP.scale r.hdr.toP.offset a)) ∧
    (r.hdr.pointCount.toNat ≤ n → infoPoint b real r n = .ok (1, [])) := by
  have hm := make_made hr
  obtain ⟨h1, -, -⟩ := hm.on hs.pos hs.fits
  refine ⟨fun a hn hin ho => ?_, fun hn => ?_⟩
  · have hx : ∀ p, r.xf p = p := by
      intro p
      unfold Reader.xf
      rw [hm.xform]
    let doc : PTree := .node [] [(lit "points", .node [] [(lit "point", .node [] (pointKids real r.hdr.toP.scale r.hdr.toP.offset a))])]
    refine ⟨writeXml doc, doc, ?_, ?_, rfl, ⟨_, rfl, point_says real _ _ a⟩⟩
    · unfold infoPoint
      rw [Reader.readAt_hit h1 hn hin]
      dsimp only
      rw [hx, pointTree_eq real ho, Outcome.bind_ok]
      rfl
    · exact read_write _ ⟨by decide +kernel, ⟨by decide, by decide +kernel, ⟨by decide, storable_point hreal _ _ _⟩, trivial⟩, trivial⟩
  · unfold infoPoint
    have : r.readAt n = (r, .throw .outOfRange) := by
      unfold Reader.readAt
      rw [if_pos hn]
    rw [this]

/-! Cases. -/

/-- A file, a number and a point as `info_point` wants them. -/
example : ∃ r, Reader.make plainEnv (1, 2000) (IStream.onFile (sampleFile fivePoints)) = .ok r ∧ (0 < r.hdr.schema.byteSize ∧
    r.hdr.schema.byteSize < 2 ^ 16) ∧ 2 < r.hdr.pointCount.toNat ∧
    r.hdr.dataOffset.toNat + (2 + 1) * r.hdr.dataRecordLength ≤ (sampleFile fivePoints).length ∧
    (Point.observe ⟨.little, false⟩ ⟨record (sampleFile fivePoints) r.hdr.dataOffset.toNat r.hdr.dataRecordLength 2, r.hdr.toP⟩).isOk = true :=
  Outcome.exists_of_check (by decide +kernel)

/-- A header with a variable record and counts. -/
def describedHeader : LibLAS.Header :=
  { sampleHeader with guid := ProjectId.sampleId, recordsCount := 1, vlrs := [{ VLR.new with userId := padTo 16 (lit "a & b") }], srs := [], schema := sampleSchema,
                      byReturn := [5, 4, 3, 2, 1, 0, 0], pointCount := 15 }

theorem described : Describable sampleNotes describedHeader :=
  ⟨by decide +kernel, by decide +kernel, by decide +kernel, by decide +kernel, sample_texts⟩

example : ∃ text tree, headerXml sampleNotes (fun _ => lit "0.5") [] [] (some (some describedHeader)) = .ok (some text, []) ∧
    readXml text = .ok tree ∧ SaysText tree ["projectdid"] (lit "8388f1b8-aa1b-4108-bca3-6bc68e7b062e") ∧
    SaysText tree ["vlrs", "vlr", "userid"] (lit "a & b") ∧ SaysText tree ["count"] (lit "15") := by
  have hreal : ∀ x : Fl, NoZero ((fun _ => lit "0.5") x) := fun _ => by show NoZero (lit "0.5"); decide +kernel
  refine ⟨cstr (writeXml (.node [] (headerKids sampleNotes (fun _ => lit "0.5") (srsMessage (SRS.copy ⟨describedHeader.srs, []⟩)) describedHeader))),
    .node [] (headerKids sampleNotes (fun _ => lit "0.5") (srsMessage (SRS.copy ⟨describedHeader.srs, []⟩)) describedHeader), ?_, ?_, ?_, ?_, ?_⟩
  · unfold headerXml
    dsimp only
    rw [headerTree_eq _ _ _ _ described.returns described.records, Outcome.bind_ok]
    rfl
  · rw [readXml_cstr]
    exact writeXml_read hreal [] described
  · show some _ = some _
    decide +kernel
  · show some _ = some _
    decide +kernel
  · show some _ = some _
    decide +kernel

end LibLAS.Xml
