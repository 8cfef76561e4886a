import Verif.Model.HeaderXml
import Verif.Spec.HeaderXml
import Verif.Lemmas.SummaryXmlSays
import Verif.Lemmas.ProjectId
/-
The tree of a header in closed form.
-/
namespace LibLAS.Xml
open LibLAS.Spec PTree

theorem addChild_here (d : List Byte) (ks : List (List Byte × PTree)) (k : List Byte) (c : PTree) :
    (PTree.node d ks).addChild [] k c = .node d (ks ++ [(k, c)]) := rfl

def vlrKids (v : VLR) : List (List Byte × PTree) :=
  leaves [(lit "userid", upToZero v.userId), (lit "description", upToZero v.description),
    (lit "length", num v.recordSize.toNat), (lit "id", num v.recordId.toNat), (lit "total_length", num (54 + v.data.length))]

theorem vlrTree_eq (v : VLR) : vlrTree v = .node [] (vlrKids v) := by
  unfold vlrTree
  rw [PTree.empty, putAll_new _ _ _ (by
    show [lit "userid", lit "description", lit "length", lit "id", lit "total_length"].Nodup; decide +kernel)]
  rfl

def srsKids (m : List Byte) : List (List Byte × PTree) :=
  leaves [(lit "proj4", m), (lit "prettywkt", m), (lit "wkt", m), (lit "compoundwkt", m), (lit "prettycompoundwkt", m), (lit "gtiff", m)]

theorem srsTree_eq (s : SRS) : srsTree s = .node [] (srsKids (srsMessage s)) := by
  unfold srsTree
  dsimp only
  rw [PTree.empty, putAll_new _ _ _ (by
    show [lit "proj4", lit "prettywkt", lit "wkt", lit "compoundwkt", lit "prettycompoundwkt", lit "gtiff"].Nodup; decide +kernel)]
  rfl

theorem headerReturn_eq (i : Nat) (c : BitVec 32) : headerReturn i c = .node [] (leaves [(lit "id", num i), (lit "count", num c.toNat)]) := by
  unfold headerReturn
  rw [PTree.empty, putAll_new _ _ _ (by show [lit "id", lit "count"].Nodup; decide +kernel)]
  rfl

def returnKids (l : List (BitVec 32 × Nat)) : List (List Byte × PTree) :=
  l.map fun e => (lit "return", .node [] (leaves [(lit "id", num e.2), (lit "count", num e.1.toNat)]))

theorem returnsTree_eq (counts : List (BitVec 32)) : ∀ n, n ≤ counts.length →
    returnsTree counts n = .ok (.node [] (returnKids (counts.take n).zipIdx))
  | 0, _ => rfl
  | n + 1, h => by
    have hn : n < counts.length := h
    have ht : counts.take (n + 1) = counts.take n ++ [counts[n]] := by
      rw [List.take_succ, List.getElem?_eq_getElem hn]
      rfl
    rw [returnsTree, returnsTree_eq counts n (by omega), Outcome.bind_ok, List.getElem?_eq_getElem hn]
    dsimp only
    rw [headerReturn_eq, addChild_here, ht, List.zipIdx_append]
    simp [returnKids, List.length_take, Nat.min_eq_left (Nat.le_of_lt hn)]

def recordKids (vs : List VLR) : List (List Byte × PTree) := vs.map fun v => (lit "vlr", .node [] (vlrKids v))

theorem addVlrs_eq (vs : List VLR) (d : List Byte) (ks : List (List Byte × PTree)) (hk : lit "vlrs" ∉ ks.map Prod.fst) :
    ∀ n, n ≤ vs.length → addVlrs vs (.node d ks) n = .ok (.node d (ks ++ groupOf (lit "vlrs") (recordKids (vs.take n))))
  | 0, _ => by simp [addVlrs, groupOf, recordKids]
  | n + 1, h => by
    have hn : n < vs.length := h
    have ht : vs.take (n + 1) = vs.take n ++ [vs[n]] := by
      rw [List.take_succ, List.getElem?_eq_getElem hn]
      rfl
    rw [addVlrs, addVlrs_eq vs d ks hk n (by omega), Outcome.bind_ok, List.getElem?_eq_getElem hn]
    dsimp only
    rw [vlrTree_eq, addChild_group _ _ _ _ _ _ hk, ht]
    unfold recordKids
    rw [List.map_append]
    rfl

theorem addVlrs_total (vs : List VLR) (t : PTree) : ∀ n, (∃ t', addVlrs vs t n = .ok t') ∨ addVlrs vs t n = .ub
  | 0 => .inl ⟨_, rfl⟩
  | n + 1 => by
    rw [addVlrs]
    rcases addVlrs_total vs t n with ⟨t', h⟩ | h <;> rw [h]
    · rw [Outcome.bind_ok]
      cases vs[n]? with
      | none => exact .inr rfl
      | some v => exact .inl ⟨_, rfl⟩
    · exact .inr rfl

theorem addVlrs_ub (vs : List VLR) (t : PTree) : ∀ n, vs.length < n → addVlrs vs t n = .ub
  | 0, h => absurd h (by omega)
  | n + 1, h => by
    rw [addVlrs]
    rcases addVlrs_total vs t n with ⟨t', e⟩ | e <;> rw [e]
    · rw [Outcome.bind_ok, List.getElem?_eq_none (by omega)]
    · rfl

theorem putVec_eq (real : Fl → List Byte) (d : List Byte) (ks : List (List Byte × PTree)) (k : List Byte) (v : Vec3 (BitVec 64))
    (h : k ∉ ks.map Prod.fst) : putVec real (.node d ks) k v =
      .node d (ks ++ [(k, .node [] (leaves [(lit "x", real (Fl.ofBits v.x)), (lit "y", real (Fl.ofBits v.y)), (lit "z", real (Fl.ofBits v.z))]))]) := by
  unfold putVec
  have h1 := put2_group d ks k (lit "x") (real (Fl.ofBits v.x)) [] h (by simp)
  have h2 := put2_group d ks k (lit "y") (real (Fl.ofBits v.y)) [(lit "x", real (Fl.ofBits v.x))] h (by show lit "y" ∉ [lit "x"]; decide +kernel)
  have h3 := put2_group d ks k (lit "z") (real (Fl.ofBits v.z)) [(lit "x", real (Fl.ofBits v.x)), (lit "y", real (Fl.ofBits v.y))] h
    (by show lit "z" ∉ [lit "x", lit "y"]; decide +kernel)
  have e0 : groupOf k (leaves []) = [] := rfl
  have e1 : groupOf k (leaves [(lit "x", real (Fl.ofBits v.x))]) = [(k, .node [] (leaves [(lit "x", real (Fl.ofBits v.x))]))] := by
    unfold groupOf; rw [if_neg (by simp [leaves])]
  have e2 : groupOf k (leaves [(lit "x", real (Fl.ofBits v.x)), (lit "y", real (Fl.ofBits v.y))]) =
      [(k, .node [] (leaves [(lit "x", real (Fl.ofBits v.x)), (lit "y", real (Fl.ofBits v.y))]))] := by
    unfold groupOf; rw [if_neg (by simp [leaves])]
  rw [e0, List.append_nil, List.nil_append] at h1
  rw [e1] at h2
  rw [e2] at h3
  rw [h1, h2]
  exact h3

/-- The texts before the coordinate system. -/
def firstTexts (h : LibLAS.Header) : List (List Byte × List Byte) :=
  [(lit "filesignature", h.signature), (lit "projectdid", ProjectId.print h.guid),
    (lit "systemid", h.getSystemId false), (lit "softwareid", h.getSoftwareId false),
    (lit "version", joined h.verMajor.toNat 0x2E#8 h.verMinor.toNat), (lit "filesourceid", num h.sourceId.toNat),
    (lit "reserved", num h.reserved.toNat)]

/-- The texts after it. -/
def moreTexts (h : LibLAS.Header) : List (List Byte × List Byte) :=
  [(lit "date", joined h.doy.toNat 0x2F#8 h.year.toNat), (lit "size", num h.headerSize.toNat),
    (lit "dataoffset", num h.dataOffset.toNat), (lit "header_padding", num h.padding.toNat), (lit "count", num h.pointCount.toNat),
    (lit "dataformatid", num h.schema.fmt.code.toNat), (lit "datarecordlength", num h.dataRecordLength),
    (lit "compressed", word h.compressed)]

def vecKids (real : Fl → List Byte) (v : Vec3 (BitVec 64)) : List (List Byte × PTree) :=
  leaves [(lit "x", real (Fl.ofBits v.x)), (lit "y", real (Fl.ofBits v.y)), (lit "z", real (Fl.ofBits v.z))]

def beforeRecords (real : Fl → List Byte) (m : List Byte) (h : LibLAS.Header) : List (List Byte × PTree) :=
  leaves (firstTexts h) ++ [(lit "srs", .node [] (srsKids m))] ++ leaves (moreTexts h) ++
    [(lit "returns", .node [] (returnKids (h.byReturn.take 5).zipIdx)), (lit "scale", .node [] (vecKids real h.scale)),
     (lit "offset", .node [] (vecKids real h.offset)), (lit "minimum", .node [] (vecKids real h.min)),
     (lit "maximum", .node [] (vecKids real h.max))]

def headerKids (notes : Notes) (real : Fl → List Byte) (m : List Byte) (h : LibLAS.Header) : List (List Byte × PTree) :=
  beforeRecords real m h ++ (groupOf (lit "vlrs") (recordKids h.vlrs) ++ [(lit "schema", schemaTree notes h.schema)])

def firstKeys : List (List Byte) := [lit "filesignature", lit "projectdid", lit "systemid", lit "softwareid", lit "version",
  lit "filesourceid", lit "reserved"]
def moreKeys : List (List Byte) := [lit "date", lit "size", lit "dataoffset", lit "header_padding", lit "count", lit "dataformatid",
  lit "datarecordlength", lit "compressed"]

theorem headerTree_eq (notes : Notes) (real : Fl → List Byte) (wkt : List Byte) (h : LibLAS.Header) (h5 : 5 ≤ h.byReturn.length)
    (hc : h.recordsCount.toNat = h.vlrs.length) :
    headerTree notes real wkt h = .ok (.node [] (headerKids notes real (srsMessage (SRS.copy ⟨h.srs, wkt⟩)) h)) := by
  unfold headerTree
  dsimp only
  have f1 : putAll PTree.empty (firstTexts h) = .node [] (leaves (firstTexts h)) :=
    putAll_new _ _ _ (by show firstKeys.Nodup; decide +kernel)
  unfold firstTexts at f1
  rw [f1, addChild_here, srsTree_eq]
  generalize srsMessage (SRS.copy ⟨h.srs, wkt⟩) = m
  have f2 : putAll (.node [] (leaves (firstTexts h) ++ [(lit "srs", .node [] (srsKids m))])) (moreTexts h) =
      .node [] (leaves (firstTexts h) ++ [(lit "srs", .node [] (srsKids m))] ++ leaves (moreTexts h)) :=
    putAll_new _ _ _ (by show (firstKeys ++ [lit "srs"] ++ moreKeys).Nodup; decide +kernel)
  unfold firstTexts moreTexts at f2
  rw [f2, returnsTree_eq _ 5 h5, Outcome.bind_ok, addChild_here]
  rw [putVec_eq _ _ _ _ _ (by show lit "scale" ∉ firstKeys ++ [lit "srs"] ++ moreKeys ++ [lit "returns"]; decide +kernel),
    putVec_eq _ _ _ _ _ (by show lit "offset" ∉ firstKeys ++ [lit "srs"] ++ moreKeys ++ [lit "returns"] ++ [lit "scale"]; decide +kernel),
    putVec_eq _ _ _ _ _ (by
      show lit "minimum" ∉ firstKeys ++ [lit "srs"] ++ moreKeys ++ [lit "returns"] ++ [lit "scale"] ++ [lit "offset"]; decide +kernel),
    putVec_eq _ _ _ _ _ (by
      show lit "maximum" ∉ firstKeys ++ [lit "srs"] ++ moreKeys ++ [lit "returns"] ++ [lit "scale"] ++ [lit "offset"] ++ [lit "minimum"]
      decide +kernel),
    addVlrs_eq _ _ _ (by
      show lit "vlrs" ∉ firstKeys ++ [lit "srs"] ++ moreKeys ++ [lit "returns"] ++ [lit "scale"] ++ [lit "offset"] ++ [lit "minimum"] ++ [lit "maximum"]
      decide +kernel) _ (by omega), Outcome.bind_ok, addChild_here, hc, List.take_length]
  simp only [Outcome.pure_eq, headerKids, beforeRecords, firstTexts, moreTexts, vecKids, List.append_assoc, List.cons_append, List.nil_append]

end LibLAS.Xml
