import Verif.Model.SchemaXml
/-
XML documents as any program may write them, their texts, and what they say. Nothing here refers to the parser.
Bytes: 9, 10, 13, 32 blanks, 33 `!`, 34 `"`, 38 `&`, 39 `'`, 47 `/`, 60 `<`, 61 `=`, 62 `>`, 63 `?`, 91 `[`, 93 `]`.
-/
namespace LibLAS.Spec.Doc
open LibLAS.Xml (PTree)

/-- A string as the bytes of its characters (ASCII). -/
def ascii (s : String) : List Byte := s.toList.map fun c => BitVec.ofNat 8 c.toNat

/-- White space. -/
def Blank (ws : List Byte) : Prop := ∀ b ∈ ws, b = 32#8 ∨ b = 10#8 ∨ b = 13#8 ∨ b = 9#8

/-- The predefined entities. -/
inductive Entity where
  | lt | gt | amp | quot | apos

/-- How an entity is written. -/
def Entity.text : Entity → List Byte
  | .lt => ascii "&lt;"
  | .gt => ascii "&gt;"
  | .amp => ascii "&amp;"
  | .quot => ascii "&quot;"
  | .apos => ascii "&apos;"

/-- The character an entity stands for. -/
def Entity.value : Entity → Byte
  | .lt => 60#8 | .gt => 62#8 | .amp => 38#8 | .quot => 34#8 | .apos => 39#8

/-- A piece of a text: a byte that stands for itself, an entity, or a reference to a character by its number. -/
inductive Piece where
  | byte (b : Byte)
  | entity (e : Entity)
  | decimal (digits : List (Fin 10)) (c : Char)
  | hex (digits : List (Fin 16)) (upper : Bool) (c : Char)

/-- A digit as it is written. -/
def digitByte (upper : Bool) (n : Nat) : Byte :=
  if n < 10 then BitVec.ofNat 8 (48 + n) else BitVec.ofNat 8 ((if upper then 65 else 97) + (n - 10))

/-- How a piece is written. -/
def Piece.text : Piece → List Byte
  | .byte b => [b]
  | .entity e => e.text
  | .decimal ds _ => ascii "&#" ++ ds.map (fun d => digitByte false d.val) ++ ascii ";"
  | .hex ds up _ => ascii "&#x" ++ ds.map (fun d => digitByte up d.val) ++ ascii ";"

/-- The bytes a piece stands for; characters as UTF-8. -/
def Piece.value : Piece → List Byte
  | .byte b => [b]
  | .entity e => [e.value]
  | .decimal _ c => (String.utf8EncodeChar c).map UInt8.toBitVec
  | .hex _ _ c => (String.utf8EncodeChar c).map UInt8.toBitVec

/-- The number written by digits. -/
def written (base : Nat) (ds : List Nat) : Nat := ds.foldl (fun n d => n * base + d) 0

/-- A piece that is what it says: no zero character, and in a text that ends at `stop` neither this byte nor `&` as
itself. -/
def Piece.Ok (stop : Byte) : Piece → Prop
  | .byte b => b ≠ 0#8 ∧ b ≠ 38#8 ∧ b ≠ stop
  | .entity _ => True
  | .decimal ds c => written 10 (ds.map Fin.val) = c.toNat ∧ c.toNat ≠ 0
  | .hex ds _ c => written 16 (ds.map Fin.val) = c.toNat ∧ c.toNat ≠ 0

/-- An attribute: `name = "value"`, with blanks around the equals sign and after it. -/
structure Attribute where
  name : List Byte
  beforeEq : List Byte
  afterEq : List Byte
  quote : Byte
  value : List Piece
  after : List Byte

/-- How an attribute is written. -/
def Attribute.text (a : Attribute) : List Byte :=
  a.name ++ a.beforeEq ++ [61#8] ++ a.afterEq ++ [a.quote] ++ a.value.flatMap Piece.text ++ [a.quote] ++ a.after

/-- A name: no blanks and none of `/ < > = ? !`. -/
def NameText (n : List Byte) : Prop :=
  n ≠ [] ∧ ∀ b ∈ n, b ∉ [0#8, 32#8, 10#8, 13#8, 9#8, 47#8, 60#8, 62#8, 61#8, 63#8, 33#8]

/-- A usable attribute. -/
structure Attribute.Ok (a : Attribute) : Prop where
  name : NameText a.name
  beforeEq : Blank a.beforeEq
  afterEq : Blank a.afterEq
  quote : a.quote = 34#8 ∨ a.quote = 39#8
  value : ∀ p ∈ a.value, p.Ok a.quote
  after : Blank a.after

/-- Characters in balanced brackets (the internal part of a document type). -/
inductive Balanced : List Byte → Prop where
  | nil : Balanced []
  | char (b : Byte) (l : List Byte) : b ≠ 0#8 → b ≠ 91#8 → b ≠ 93#8 → Balanced l → Balanced (b :: l)
  | group (a l : List Byte) : Balanced a → Balanced l → Balanced (91#8 :: a ++ 93#8 :: l)

/-- A node of a document. -/
inductive Node where
  /-- Text. -/
  | text (ps : List Piece)
  /-- `<![CDATA[...]]>`. -/
  | cdata (t : List Byte)
  /-- `<!--...-->`. -/
  | comment (t : List Byte)
  /-- `<?...?>`: the declaration and processing instructions. -/
  | instruction (t : List Byte)
  /-- `<!DOCTYPE a[b]c>`. -/
  | doctype (a : List Byte) (b : Option (List Byte)) (c : List Byte)
  /-- `<name attributes/>`. -/
  | empty (name blanks : List Byte) (as : List Attribute)
  /-- `<name attributes>...</name >`. -/
  | element (name blanks : List Byte) (as : List Attribute) (ns : List Node) (close blanks' : List Byte)

/-- How a document type is written inside. -/
def bracketed : Option (List Byte) → List Byte
  | none => []
  | some b => [91#8] ++ b ++ [93#8]

mutual
/-- How a node is written. -/
def Node.write : Node → List Byte
  | .text ps => ps.flatMap Piece.text
  | .cdata t => ascii "<![CDATA[" ++ t ++ ascii "]]>"
  | .comment t => ascii "<!--" ++ t ++ ascii "-->"
  | .instruction t => ascii "<?" ++ t ++ ascii "?>"
  | .doctype a b c => ascii "<!DOCTYPE " ++ a ++ bracketed b ++ c ++ [62#8]
  | .empty n ws as => [60#8] ++ n ++ ws ++ as.flatMap Attribute.text ++ [47#8, 62#8]
  | .element n ws as ns n' ws' =>
    [60#8] ++ n ++ ws ++ as.flatMap Attribute.text ++ [62#8] ++ writeAll ns ++ [60#8, 47#8] ++ n' ++ ws' ++ [62#8]
/-- How the contents of an element are written. -/
def writeAll : List Node → List Byte
  | [] => []
  | n :: ns => n.write ++ writeAll ns
end

/-- The attributes of an element are the children of a first child `<xmlattr>`. -/
def attributesSaid (as : List Attribute) : List (List Byte × PTree) :=
  if as.isEmpty then [] else [(ascii "<xmlattr>", .node [] (as.map fun a => (a.name, .node (a.value.flatMap Piece.value) [])))]

mutual
/-- What a node says: text and children for the element around it. -/
def Node.says : Node → List Byte × List (List Byte × PTree)
  | .text ps => (ps.flatMap Piece.value, [])
  | .cdata t => (t, [])
  | .comment t => ([], [(ascii "<xmlcomment>", .node t [])])
  | .instruction _ => ([], [])
  | .doctype _ _ _ => ([], [])
  | .empty n _ as => ([], [(n, .node [] (attributesSaid as))])
  | .element n _ as ns _ _ => ([], [(n, .node (sayAll ns).1 (attributesSaid as ++ (sayAll ns).2))])
/-- What the contents of an element say: all texts in order, and all children in order. -/
def sayAll : List Node → List Byte × List (List Byte × PTree)
  | [] => ([], [])
  | n :: ns => (n.says.1 ++ (sayAll ns).1, n.says.2 ++ (sayAll ns).2)
end

/-- The bytes do not hold the mark. -/
def Without (mark t : List Byte) : Prop := ¬ mark <:+: t

/-- Bytes of a document. -/
def NonZero (t : List Byte) : Prop := ∀ b ∈ t, b ≠ 0#8

/-- A node that is a text. -/
def Node.isText : Node → Bool
  | .text _ => true
  | _ => false

mutual
/-- A well-formed node; the name of the closing tag may be any (`Matching` below asks for the right one). -/
def Node.Ok : Node → Prop
  | .text ps => ps ≠ [] ∧ ∀ p ∈ ps, p.Ok 60#8
  | .cdata t => NonZero t ∧ Without (ascii "]]>") t
  | .comment t => NonZero t ∧ Without (ascii "-->") t
  | .instruction t => NonZero t ∧ Without (ascii "?>") t
  | .doctype a b c => NonZero a ∧ NonZero c ∧ (∀ x ∈ a ++ c, x ≠ 62#8 ∧ x ≠ 91#8) ∧ ∀ t, b = some t → Balanced t
  | .empty n ws as => NameText n ∧ Blank ws ∧ (as ≠ [] → ws ≠ []) ∧ ∀ a ∈ as, a.Ok
  | .element n ws as ns n' ws' => NameText n ∧ Blank ws ∧ (as ≠ [] → ws ≠ []) ∧ (∀ a ∈ as, a.Ok) ∧ AllOk ns ∧ NameText n' ∧ Blank ws'
/-- Well-formed contents: no two texts side by side (they are one text). -/
def AllOk : List Node → Prop
  | [] => True
  | n :: ns => n.Ok ∧ (n.isText = true → ∀ m ∈ ns.head?, m.isText = false) ∧ AllOk ns
end

mutual
/-- Every closing tag names its element. -/
def Node.Matching : Node → Prop
  | .element n _ _ ns n' _ => n' = n ∧ AllMatching ns
  | _ => True
/-- The same for all nodes of a list. -/
def AllMatching : List Node → Prop
  | [] => True
  | n :: ns => n.Matching ∧ AllMatching ns
end

/-- A document: perhaps a byte order mark, then nodes with blanks before each, and blanks at the end. -/
structure Document where
  mark : Bool
  nodes : List (List Byte × Node)
  last : List Byte

/-- How a document is written. -/
def Document.write (d : Document) : List Byte :=
  (if d.mark then [0xEF#8, 0xBB#8, 0xBF#8] else []) ++ (d.nodes.flatMap fun p => p.1 ++ p.2.write) ++ d.last

/-- What a document says. -/
def Document.says (d : Document) : PTree := .node (sayAll (d.nodes.map Prod.snd)).1 (sayAll (d.nodes.map Prod.snd)).2

/-- A well-formed document: no text outside elements. -/
structure Document.Ok (d : Document) : Prop where
  nodes : ∀ p ∈ d.nodes, Blank p.1 ∧ p.2.Ok ∧ p.2.isText = false
  last : Blank d.last

end LibLAS.Spec.Doc
