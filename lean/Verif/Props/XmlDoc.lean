import Verif.Lemmas.XmlDoc
import Verif.Lemmas.SchemaXmlSafe
/-
C95: XML documents of other programs.
-/
namespace LibLAS.Xml
open LibLAS.Spec PTree Doc

/-- C95: a well-formed document, with a byte order mark or not, with declarations, processing instructions, a document type
with nested brackets, comments, character data, attributes in either kind of quotes and character references of any
kind, is read as what it says: every element with its attributes, its text with the references replaced and its children
in order. -/
theorem xml_documents_read (d : Document) (h : d.Ok) : readXml d.write = .ok d.says := read_document d h

/-- A document with everything in it:
`<?xml version='1.0'?><!DOCTYPE s [a[>]b]> <!-- - --><s a = "&#x41;'" b='&lt;'>1&#8364;<![CDATA[<]]]]><e/><t >&amp;</t >?<?p?></s>` and a
line feed. -/
def everything : Document where
  mark := true
  nodes := [([], .instruction (ascii "xml version='1.0'")),
    ([], .doctype (ascii "s ") (some (ascii "a[>]b")) []),
    (ascii " ", .comment (ascii " - ")),
    ([], .element (ascii "s") (ascii " ")
      [⟨ascii "a", ascii " ", ascii " ", 34#8, [.hex [4, 1] false 'A', .byte 39#8], ascii " "⟩,
       ⟨ascii "b", [], [], 39#8, [.entity .lt], []⟩]
      [.text [.byte 49#8, .decimal [8, 3, 6, 4] '€'], .cdata (ascii "<]]"), .empty (ascii "e") [] [],
       .element (ascii "t") (ascii " ") [] [.text [.entity .amp]] (ascii "t") (ascii " "), .text [.byte 63#8],
       .instruction (ascii "p")]
      (ascii "s") [])]
  last := ascii "\n"

/-- The hypothesis of C95 is met by this document. -/
theorem everything_ok : everything.Ok := by
  have blank : ∀ ws : List Byte, (ws.all fun b => b == 32#8 || b == 10#8 || b == 13#8 || b == 9#8) = true → Blank ws := by
    intro ws h b hb
    simpa [or_assoc] using List.all_eq_true.1 h b hb
  have name : ∀ b : Byte, b ∉ [0#8, 32#8, 10#8, 13#8, 9#8, 47#8, 60#8, 62#8, 61#8, 63#8, 33#8] → NameText [b] := by
    intro b h
    refine ⟨by simp, fun x hx => ?_⟩
    rw [List.mem_singleton.1 hx]
    exact h
  have na : NameText (ascii "a") := name 97#8 (by decide)
  have nb : NameText (ascii "b") := name 98#8 (by decide)
  have ns : NameText (ascii "s") := name 115#8 (by decide)
  have nt : NameText (ascii "t") := name 116#8 (by decide)
  have ne : NameText (ascii "e") := name 101#8 (by decide)
  refine ⟨?_, blank _ (by decide)⟩
  intro p hp
  simp only [everything, List.mem_cons, List.not_mem_nil, or_false] at hp
  rcases hp with rfl | rfl | rfl | rfl
  · refine ⟨blank _ rfl, ?_, rfl⟩
    rw [Node.Ok]
    exact ⟨by unfold NonZero; decide, by unfold Without; decide⟩
  · refine ⟨blank _ rfl, ?_, rfl⟩
    rw [Node.Ok]
    refine ⟨by unfold NonZero; decide, by unfold NonZero; decide, by decide, fun t ht => ?_⟩
    injection ht with ht
    subst ht
    exact .char 97#8 _ (by decide) (by decide) (by decide) (.group [62#8] [98#8]
      (.char _ _ (by decide) (by decide) (by decide) .nil) (.char _ _ (by decide) (by decide) (by decide) .nil))
  · refine ⟨blank _ (by decide), ?_, rfl⟩
    rw [Node.Ok]
    exact ⟨by unfold NonZero; decide, by unfold Without; decide⟩
  · refine ⟨blank _ rfl, ?_, rfl⟩
    rw [Node.Ok]
    refine ⟨ns, blank _ (by decide), fun _ => by decide, ?_, ?_, ns, blank _ rfl⟩
    · intro a ha
      simp only [List.mem_cons, List.not_mem_nil, or_false] at ha
      rcases ha with rfl | rfl
      · refine ⟨na, blank _ (by decide), blank _ (by decide), Or.inl rfl, ?_, blank _ (by decide)⟩
        intro p hp
        simp only [List.mem_cons, List.not_mem_nil, or_false] at hp
        rcases hp with rfl | rfl
        · exact ⟨rfl, by decide⟩
        · exact ⟨by decide, by decide, by decide⟩
      · refine ⟨nb, blank _ rfl, blank _ rfl, Or.inr rfl, ?_, blank _ rfl⟩
        intro p hp
        simp only [List.mem_cons, List.not_mem_nil, or_false] at hp
        subst hp
        exact trivial
    · simp only [AllOk, Node.Ok, Node.isText]
      refine ⟨⟨by simp, ?_⟩, by simp [Node.isText], ⟨by unfold NonZero; decide, by unfold Without; decide⟩, by simp,
        ⟨ne, blank _ rfl, by simp, by simp⟩, by simp,
        ⟨nt, blank _ (by decide), by simp, by simp, ⟨⟨by simp, ?_⟩, by simp, trivial⟩, nt, blank _ (by decide)⟩, by simp,
        ⟨by simp, ?_⟩, by simp [Node.isText], ⟨by unfold NonZero; decide, by unfold Without; decide⟩, by simp, trivial⟩
      · intro p hp
        simp only [List.mem_cons, List.not_mem_nil, or_false] at hp
        rcases hp with rfl | rfl
        · exact ⟨by decide, by decide, by decide⟩
        · exact ⟨rfl, by decide⟩
      · intro p hp
        simp only [List.mem_cons, List.not_mem_nil, or_false] at hp
        subst hp
        exact trivial
      · intro p hp
        simp only [List.mem_cons, List.not_mem_nil, or_false] at hp
        subst hp
        exact ⟨by decide, by decide, by decide⟩

/-- What it says: `s` with the attributes `a` and `b`, the text `1€<]]?` and the children `e` and `t`. -/
example : readXml everything.write = .ok (.node []
    [(ascii "<xmlcomment>", .node (ascii " - ") []),
     (ascii "s", .node [49#8, 0xE2#8, 0x82#8, 0xAC#8, 60#8, 93#8, 93#8, 63#8]
       [(ascii "<xmlattr>", .node [] [(ascii "a", .node (ascii "A'") []), (ascii "b", .node (ascii "<") [])]),
        (ascii "e", .node [] []), (ascii "t", .node (ascii "&") [])])]) :=
  xml_documents_read everything everything_ok

/-- What a document says holds what it is made of: documents that say different things are told apart. -/
theorem documents_told_apart (d d' : Document) (h : d.Ok) (h' : d'.Ok) : readXml d.write = readXml d'.write ↔ d.says = d'.says := by
  rw [xml_documents_read d h, xml_documents_read d' h']
  exact ⟨Outcome.ok.inj, congrArg _⟩

/-- A document whose closing tags have the wrong names is read all the same, as if they were right (the parser never
compares them): for every element, whatever the closing tag. -/
theorem closing_names_ignored (n ws : List Byte) (as : List Attribute) (ns : List Node) (k k' ws' : List Byte) (hk : NameText k')
    (h : (Node.element n ws as ns k ws').Ok) :
    readXml (Document.write ⟨false, [([], .element n ws as ns k' ws')], []⟩) =
      readXml (Document.write ⟨false, [([], .element n ws as ns k ws')], []⟩) := by
  have ok : ∀ k, (Node.element n ws as ns k ws').Ok → Document.Ok ⟨false, [([], .element n ws as ns k ws')], []⟩ := by
    intro k h
    refine ⟨fun p hp => ?_, fun b hb => absurd hb (List.not_mem_nil)⟩
    rw [List.mem_singleton.1 hp]
    exact ⟨fun b hb => absurd hb (List.not_mem_nil), h, rfl⟩
  have h2 : (Node.element n ws as ns k' ws').Ok := by
    rw [Node.Ok] at h ⊢
    exact ⟨h.1, h.2.1, h.2.2.1, h.2.2.2.1, h.2.2.2.2.1, hk, h.2.2.2.2.2.2⟩
  rw [xml_documents_read _ (ok k' h2), xml_documents_read _ (ok k h)]
  simp only [Document.says, List.map_cons, List.map_nil, sayAll, Node.says]

/-- The negation of "ill-formed documents are refused": `<a></b>` is not matching and is read as `<a></a>`. -/
theorem ill_formed_accepted : ∃ d : Document, d.Ok ∧ ¬ AllMatching (d.nodes.map Prod.snd) ∧ d.write = ascii "<a></b>" ∧
    readXml d.write = .ok (.node [] [(ascii "a", .node [] [])]) := by
  refine ⟨⟨false, [([], .element (ascii "a") [] [] [] (ascii "b") [])], []⟩, ⟨?_, ?_⟩, ?_, rfl, rfl⟩
  · intro p hp
    rw [List.mem_singleton.1 hp]
    refine ⟨fun b hb => absurd hb (List.not_mem_nil), ?_, rfl⟩
    rw [Node.Ok]
    exact ⟨⟨by decide, by decide⟩, fun b hb => absurd hb (List.not_mem_nil), by simp, by simp, trivial,
      ⟨by decide, by decide⟩, fun b hb => absurd hb (List.not_mem_nil)⟩
  · exact fun b hb => absurd hb (List.not_mem_nil)
  · rintro ⟨h, -⟩
    exact absurd h.1 (by decide)

theorem loadDim_leaf (dbl : List Byte → Bool) (c : List Byte) : loadDim dbl (.node c []) = .throw .runtimeError := rfl

theorem loadDims_leaf (dbl : List Byte → Bool) (k c : List Byte) : ∀ (ks : List (List Byte × PTree)) (m : IndexMap),
    (k, .node c []) ∈ ks → loadDims dbl m ks = .throw .runtimeError
  | [], _, h => absurd h (List.not_mem_nil)
  | (k', v) :: ks, m, h => by
    rw [loadDims]
    rcases List.mem_cons.1 h with e | h
    · obtain ⟨rfl, rfl⟩ := Prod.mk.inj e
      rw [loadDim_leaf]
      rfl
    · have hf := loadDim_fine dbl v
      cases e : loadDim dbl v with
      | ok d => exact loadDims_leaf dbl k c ks _ h
      | throw x => rw [e] at hf; simp only [Fine] at hf; rw [hf]; rfl
      | ub => rw [e] at hf; exact absurd hf (by simp [Fine])

/-- Comments are not ignored where they should be: a schema text with a comment directly inside the first `<dimensions>` of the first
`<LASSchema>` is refused, whatever else it holds (the loop takes every child, the comment too, for a dimension). -/
theorem comment_spoils_schema (dbl : List Byte → Bool) (d : Document) (h : d.Ok) (t : PTree) (c : List Byte)
    (ht : walk [ascii "LASSchema", ascii "dimensions"] d.says = some t) (hc : (ascii "<xmlcomment>", .node c []) ∈ t.kids) :
    parseSchema dbl d.write = .throw .runtimeError := by
  unfold parseSchema
  rw [xml_documents_read d h]
  simp only [Outcome.bind_ok]
  have e : loadDimensions dbl d.says = .throw .runtimeError := by
    unfold loadDimensions getChild
    rw [show walk [lit "LASSchema", lit "dimensions"] d.says = some t from ht]
    simp only [Outcome.bind_ok]
    rw [loadDims_leaf dbl _ c t.kids [] hc]
    rfl
  rw [e]
  rfl

/-- `<LASSchema><dimensions><!----></dimensions></LASSchema>` meets the hypotheses. -/
example : ∃ d : Document, d.Ok ∧ ∃ t, walk [ascii "LASSchema", ascii "dimensions"] d.says = some t ∧
    (ascii "<xmlcomment>", .node [] []) ∈ t.kids := by
  refine ⟨⟨false, [([], .element (ascii "LASSchema") [] [] [.element (ascii "dimensions") [] [] [.comment []] (ascii "dimensions") []]
    (ascii "LASSchema") [])], []⟩, ⟨?_, ?_⟩, _, rfl, List.mem_singleton.2 rfl⟩
  · intro p hp
    rw [List.mem_singleton.1 hp]
    refine ⟨fun b hb => absurd hb (List.not_mem_nil), ?_, rfl⟩
    have nil : Blank [] := fun b hb => absurd hb (List.not_mem_nil)
    have n1 : NameText (ascii "LASSchema") := by constructor <;> decide
    have n2 : NameText (ascii "dimensions") := by constructor <;> decide
    simp only [Node.Ok, AllOk]
    exact ⟨n1, nil, by simp, by simp, ⟨⟨n2, nil, by simp, by simp, ⟨⟨by unfold NonZero; simp, by unfold Without; decide⟩, by simp, trivial⟩,
      n2, nil⟩, by simp, trivial⟩, n1, nil⟩
  · exact fun b hb => absurd hb (List.not_mem_nil)

end LibLAS.Xml
