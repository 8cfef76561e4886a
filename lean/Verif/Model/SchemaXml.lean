import Verif.Model.Writer
import Verif.Model.Las2txt
/-
The XML text of a schema record: src/schema.cpp (`GetPTree`, `LoadPTree`, `LoadDimensions`), src/dimension.cpp
(`GetPTree`) and the bundled property tree of include/liblas/external/property_tree (ptree, XML writer, rapidxml
parser, number translator). The C++ locale is the classic one; number extraction is that of libstdc++. Not modelled: the
depth of the C++ stack.
-/
namespace LibLAS.Xml

/-- include/liblas/external/property_tree/ptree.hpp `basic_ptree<std::string, std::string>`: a text and an ordered list of
named subtrees. -/
inductive PTree where
  | node (data : List Byte) (kids : List (List Byte × PTree))

namespace PTree

/-- detail/ptree_implementation.hpp:518-530 `data()`. -/
def data : PTree → List Byte
  | node d _ => d

/-- The children, in order. -/
def kids : PTree → List (List Byte × PTree)
  | node _ k => k

/-- A new tree. -/
def empty : PTree := node [] []

/-- detail/ptree_implementation.hpp:450-457 `find`: among children of one name, the first. -/
def find (k : List Byte) : List (List Byte × PTree) → Option PTree
  | [] => none
  | (k', t) :: r => if k' = k then some t else find k r

/-- detail/ptree_implementation.hpp:861-877 `walk_path`. -/
def walk : List (List Byte) → PTree → Option PTree
  | [], t => some t
  | k :: p, t =>
    match find k t.kids with
    | none => none
    | some c => walk p c

/-- The first child named `k` changed by `f`; a new child appended when there is none. -/
def changeKid (k : List Byte) (f : PTree → PTree) : List (List Byte × PTree) → List (List Byte × PTree)
  | [] => [(k, f empty)]
  | (k', t) :: r => if k' = k then (k', f t) :: r else (k', t) :: changeKid k f r

/-- detail/ptree_implementation.hpp:879-894 `force_path`: walk the path, creating what is missing, and change the node at
its end. -/
def change : List (List Byte) → (PTree → PTree) → PTree → PTree
  | [], f, t => f t
  | k :: p, f, t => node t.data (changeKid k (change p f) t.kids)

/-- detail/ptree_implementation.hpp:812-825 `put`: the text of the node at the path, which is created when missing. -/
def put (t : PTree) (p : List (List Byte)) (v : List Byte) : PTree := change p (fun c => node v c.kids) t

/-- detail/ptree_implementation.hpp:617-626 `add_child`: a new last child `k` of the node at the path. -/
def addChild (t : PTree) (p : List (List Byte)) (k : List Byte) (c : PTree) : PTree :=
  change p (fun n => node n.data (n.kids ++ [(k, c)])) t

end PTree

open PTree

/-- What the XML text of a dimension takes from the members that `Dim` leaves out: description, integer and signed
markers and, when the dimension is numeric and has a range (src/dimension.cpp:162-169), the texts of the minimum and
the maximum. -/
structure Note where
  description : List Byte := []
  integer : Bool := false
  signed : Bool := false
  range : Option (List Byte × List Byte) := none

/-- A note for every dimension, looked up by name. -/
abbrev Notes := String → Note

/-- Decimal text of an unsigned number (stream_translator.hpp:183-190 `put_value`). -/
def num (n : Nat) : List Byte := (Las2txt.natText n).map fun c => BitVec.ofNat 8 c.toNat

/-- A flag as `static_cast<uint32_t>`. -/
def flag (b : Bool) : List Byte := num (if b then 1 else 0)

/-- src/dimension.cpp:162-169: the range of a numeric dimension. -/
def putRange (r : Option (List Byte × List Byte)) (t : PTree) : PTree :=
  match r with
  | none => t
  | some (lo, hi) => (t.put [lit "minimum"] lo).put [lit "maximum"] hi

/-- src/dimension.cpp:146-173 `Dimension::GetPTree`. -/
def dimTree (n : Note) (d : Dim) : PTree :=
  let t := PTree.empty
  let t := t.put [lit "name"] (lit d.name)
  let t := t.put [lit "description"] n.description
  let t := t.put [lit "position"] (num d.position)
  let t := t.put [lit "active"] (flag d.active)
  let t := t.put [lit "size"] (num d.bitSize)
  let t := t.put [lit "integer"] (flag n.integer)
  let t := t.put [lit "signed"] (flag n.signed)
  let t := t.put [lit "required"] (flag d.required)
  let t := t.put [lit "byteoffset"] (num d.byteOffset)
  let t := t.put [lit "bitoffset"] (num d.bitOffset)
  let t := t.put [lit "bytesize"] (num d.byteSize)
  putRange n.range t

/-- src/schema.cpp:460-478 `Schema::GetPTree`. The release name is that of include/liblas/capi/las_version.h:61. -/
def schemaTree (notes : Notes) (s : Schema) : PTree :=
  let t := s.dims.byPosition.foldl
    (fun t d => t.addChild [lit "LASSchema", lit "dimensions"] (lit "dimension") (dimTree (notes d.name) d)) PTree.empty
  let t := t.put [lit "LASSchema", lit "version"] (lit "1.0")
  let t := t.put [lit "LASSchema", lit "liblas"] (lit "1.8.2")
  t.put [lit "LASSchema", lit "formatid"] (num s.fmt.code.toNat)

/-- detail/xml_parser_utils.hpp:60-72: the entity of a character. -/
def encodeByte (b : Byte) : List Byte :=
  if b = 60#8 then lit "&lt;"
  else if b = 62#8 then lit "&gt;"
  else if b = 38#8 then lit "&amp;"
  else if b = 34#8 then lit "&quot;"
  else if b = 39#8 then lit "&apos;"
  else [b]

/-- detail/xml_parser_utils.hpp:43-76 `encode_char_entities`. -/
def encode (s : List Byte) : List Byte :=
  if s = [] then []
  else if s.all (· == 32#8) then lit "&#32;" ++ List.replicate (s.length - 1) 32#8
  else s.flatMap encodeByte

mutual
/-- detail/xml_parser_write.hpp:61-155 `write_xml_element` with `indent ≥ 0` and no indentation (`indent_count = 0`,
detail/xml_parser_writer_settings.hpp:38-46), for trees without the special keys `<xmlattr>`, `<xmlcomment>` and
`<xmltext>`, which `GetPTree` never makes. -/
def writeElement (key : List Byte) : PTree → List Byte
  | .node d ks =>
    if d.isEmpty && ks.isEmpty then [60#8] ++ key ++ lit "/>"
    else [60#8] ++ key ++ [62#8] ++ encode d ++ writeElements ks ++ lit "</" ++ key ++ [62#8]
/-- The loop over the children, detail/xml_parser_write.hpp:126-143. -/
def writeElements : List (List Byte × PTree) → List Byte
  | [] => []
  | (k, t) :: r => writeElement k t ++ writeElements r
end

/-- detail/xml_parser_write.hpp:157-171 `write_xml_internal`: declaration, then the root with `indent = -1`, which writes
its text and its children without tags. -/
def writeXml (t : PTree) : List Byte :=
  lit "<?xml version=\"1.0\" encoding=\"utf-8\"?>\n" ++ encode t.data ++ writeElements t.kids

/-- detail/rapidxml.hpp:2281-2302 `lookup_whitespace`. -/
def isWs (b : Byte) : Bool := b == 32#8 || b == 10#8 || b == 13#8 || b == 9#8

/-- detail/rapidxml.hpp:2304-2325 `lookup_node_name`: anything but whitespace, `/`, `>`, `?` (and the end). -/
def isName (b : Byte) : Bool := !(isWs b || b == 47#8 || b == 62#8 || b == 63#8)

/-- detail/rapidxml.hpp:2398-2419 `lookup_attribute_name`: anything but whitespace, `/ < > = ? !` (and the end). -/
def isAttr (b : Byte) : Bool :=
  !(isWs b || b == 47#8 || b == 60#8 || b == 62#8 || b == 61#8 || b == 63#8 || b == 33#8)

/-- `lookup_digits`: hexadecimal digits of either case (also used for decimal references). -/
def digit? (b : Byte) : Option Nat :=
  let n := b.toNat
  if 48 ≤ n ∧ n ≤ 57 then some (n - 48)
  else if 97 ≤ n ∧ n ≤ 102 then some (n - 87)
  else if 65 ≤ n ∧ n ≤ 70 then some (n - 55)
  else none

/-- detail/rapidxml.hpp:1480-1524 `insert_coded_character`: the UTF-8 bytes of a code; too large a code is a parse error. -/
def utf8 (c : Nat) : Option (List Byte) :=
  let b (n : Nat) : Byte := BitVec.ofNat 8 n
  let tail (n : Nat) : Byte := b (128 + n % 64)
  if c < 0x80 then some [b c]
  else if c < 0x800 then some [b (0xC0 + c / 64), tail c]
  else if c < 0x10000 then some [b (0xE0 + c / 4096), tail (c / 64), tail c]
  else if c < 0x110000 then some [b (0xF0 + c / 262144), tail (c / 4096), tail (c / 64), tail c]
  else none

/-- The value of the digits of a numeric reference; `unsigned long` of 64 bits. -/
def refCode (base : Nat) (ds : List Byte) : Nat := ds.foldl (fun c b => (c * base + (digit? b).getD 0) % 2 ^ 64) 0

/-- The rest of a numeric reference after `&#` or `&#x`, detail/rapidxml.hpp:1621-1653. -/
def numericRef (base : Nat) (t : List Byte) : Outcome (List Byte × List Byte) :=
  match utf8 (refCode base (t.takeWhile fun b => (digit? b).isSome)) with
  | none => .throw .runtimeError
  | some bs =>
    match t.dropWhile fun b => (digit? b).isSome with
    | 59#8 :: r => .ok (bs, r)
    | _ => .throw .runtimeError

/-- detail/rapidxml.hpp:1563-1661: the character reference a text starts with, if any: what it stands for and the rest. -/
def reference (t : List Byte) : Option (Outcome (List Byte × List Byte)) :=
  if (lit "&amp;").isPrefixOf t then some (.ok ([38#8], t.drop 5))
  else if (lit "&apos;").isPrefixOf t then some (.ok ([39#8], t.drop 6))
  else if (lit "&quot;").isPrefixOf t then some (.ok ([34#8], t.drop 6))
  else if (lit "&gt;").isPrefixOf t then some (.ok ([62#8], t.drop 4))
  else if (lit "&lt;").isPrefixOf t then some (.ok ([60#8], t.drop 4))
  else if (lit "&#x").isPrefixOf t then some (numericRef 16 (t.drop 3))
  else if (lit "&#").isPrefixOf t then some (numericRef 10 (t.drop 2))
  else none

/-- detail/rapidxml.hpp:1539-1688 `skip_and_expand_character_refs` without whitespace normalisation: the expanded text up
to a `stop` byte or the end, and the rest. The first argument bounds the number of characters. -/
def expand (stop : Byte → Bool) : Nat → List Byte → Outcome (List Byte × List Byte)
  | 0, t => .ok ([], t)
  | _ + 1, [] => .ok ([], [])
  | f + 1, b :: r =>
    if stop b then .ok ([], b :: r)
    else
      match reference (b :: r) with
      | none => (expand stop f r).bind fun p => .ok (b :: p.1, p.2)
      | some o => o.bind fun q => (expand stop f q.2).bind fun p => .ok (q.1 ++ p.1, p.2)

/-- A C string: up to the first zero (a reference such as `&#0;` can make one). -/
def cstr (t : List Byte) : List Byte := t.takeWhile (· != 0#8)

/-- What a node of the document becomes in the property tree
(detail/xml_parser_read_rapidxml.hpp:24-82 `read_xml_node`). -/
inductive Item where
  | element (name : List Byte) (t : PTree)
  | text (v : List Byte)
  | comment (v : List Byte)

/-- detail/xml_parser_read_rapidxml.hpp:24-82: a node added to its parent's text and children. -/
def Item.addTo (p : List Byte × List (List Byte × PTree)) : Item → List Byte × List (List Byte × PTree)
  | .element n t => (p.1, p.2 ++ [(n, t)])
  | .text v => (p.1 ++ v, p.2)
  | .comment v => (p.1, p.2 ++ [(lit "<xmlcomment>", .node v [])])

/-- A node, if the parser made one (detail/rapidxml.hpp:1374-1375, 2192-2193). -/
def addItem (p : List Byte × List (List Byte × PTree)) : Option Item → List Byte × List (List Byte × PTree)
  | none => p
  | some i => i.addTo p

/-- The text up to (not including) the first occurrence of `mark`, and what follows the mark; the end of the data before
that is a parse error. Used for `?>`, `-->`, `]]>` and `>`. -/
def upTo (mark : List Byte) : List Byte → Outcome (List Byte × List Byte)
  | [] => .throw .runtimeError
  | b :: r =>
    if mark.isPrefixOf (b :: r) then .ok ([], (b :: r).drop mark.length)
    else (upTo mark r).bind fun p => .ok (b :: p.1, p.2)

/-- detail/rapidxml.hpp:1783-1847 `parse_doctype`, which yields no node: up to the `>` outside brackets. `depth` counts the
open brackets. -/
def doctype : Nat → List Byte → Outcome (List Byte)
  | _, [] => .throw .runtimeError
  | 0, b :: r => if b = 62#8 then .ok r else doctype (if b = 91#8 then 1 else 0) r
  | d + 1, b :: r => doctype (if b = 91#8 then d + 2 else if b = 93#8 then d else d + 1) r

/-- One attribute, detail/rapidxml.hpp:2217-2271; the text starts with a name character. -/
def oneAttribute (t : List Byte) : Outcome ((List Byte × PTree) × List Byte) :=
  match (t.dropWhile isAttr).dropWhile isWs with
  | 61#8 :: r =>
    match r.dropWhile isWs with
    | q :: r =>
      if q == 39#8 || q == 34#8 then
        (expand (· == q) r.length r).bind fun p =>
          match p.2 with
          | [] => .throw .runtimeError
          | _ :: r => .ok ((t.takeWhile isAttr, .node (cstr p.1) []), r.dropWhile isWs)
      else .throw .runtimeError
    | [] => .throw .runtimeError
  | _ => .throw .runtimeError

/-- detail/rapidxml.hpp:2211-2273 `parse_node_attributes`. -/
def attributes : Nat → List Byte → Outcome (List (List Byte × PTree) × List Byte)
  | 0, t => .ok ([], t)
  | _ + 1, [] => .ok ([], [])
  | f + 1, b :: r =>
    if isAttr b then
      (oneAttribute (b :: r)).bind fun a => (attributes f a.2).bind fun p => .ok (a.1 :: p.1, p.2)
    else .ok ([], b :: r)

/-- detail/xml_parser_read_rapidxml.hpp:36-50: the attributes are a first child `<xmlattr>`, when there are any. -/
def attrKids (as : List (List Byte × PTree)) : List (List Byte × PTree) :=
  if as.isEmpty then [] else [(lit "<xmlattr>", .node [] as)]

/-- `<?xml ` in either case, detail/rapidxml.hpp:2059-2068; a declaration and a processing instruction are skipped alike
up to `?>`, the first from after `xml `. -/
def afterQuestion (t : List Byte) : List Byte :=
  match t with
  | x :: m :: l :: w :: r =>
    if (x == 120#8 || x == 88#8) && (m == 109#8 || m == 77#8) && (l == 108#8 || l == 76#8) && isWs w then r else t
  | _ => t

/-- Whether a text is `!DOCTYPE` and whitespace, detail/rapidxml.hpp:2110-2118. -/
def isDoctype (t : List Byte) : Bool := (lit "!DOCTYPE").isPrefixOf t && ((t.drop 8).head?.map isWs).getD false

/-- The nodes of `parse_node` other than elements, detail/rapidxml.hpp:2055-2136: `none` when the text after `<` starts an
element. -/
def otherNode (t : List Byte) : Option (Outcome (Option Item × List Byte)) :=
  match t with
  | 63#8 :: r => some ((upTo (lit "?>") (afterQuestion r)).bind fun p => .ok (none, p.2))
  | 33#8 :: r =>
    if (lit "!--").isPrefixOf t then some ((upTo (lit "-->") (t.drop 3)).bind fun p => .ok (some (.comment p.1), p.2))
    else if (lit "![CDATA[").isPrefixOf t then some ((upTo (lit "]]>") (t.drop 8)).bind fun p => .ok (some (.text p.1), p.2))
    else if isDoctype t then some ((doctype 0 (t.drop 9)).bind fun r => .ok (none, r))
    else some ((upTo [62#8] r).bind fun p => .ok (none, p.2))
  | _ => none

/-- The end of a closing tag after `</`, detail/rapidxml.hpp:2167-2186: the name is skipped, not compared. -/
def closing (t : List Byte) : Outcome (List Byte) :=
  match (t.dropWhile isName).dropWhile isWs with
  | 62#8 :: r => .ok r
  | _ => .throw .runtimeError

mutual
/-- detail/rapidxml.hpp:2047-2137 `parse_node`, the text being after `<`, and 2006-2045 `parse_element`. The first
argument bounds the number of calls (running out is impossible: Props/SchemaXml `parse_safe`). -/
def parseNode : Nat → List Byte → Outcome (Option Item × List Byte)
  | 0, _ => .ub
  | f + 1, t =>
    match otherNode t with
    | some o => o
    | none =>
      if (t.takeWhile isName).isEmpty then .throw .runtimeError
      else
        (attributes t.length ((t.dropWhile isName).dropWhile isWs)).bind fun a =>
          match a.2 with
          | 62#8 :: r =>
            (parseContents f r ([], attrKids a.1)).bind fun p =>
              .ok (some (.element (t.takeWhile isName) (.node p.1.1 p.1.2)), p.2)
          | 47#8 :: 62#8 :: r => .ok (some (.element (t.takeWhile isName) (.node [] (attrKids a.1))), r)
          | _ => .throw .runtimeError
/-- detail/rapidxml.hpp:2139-2208 `parse_node_contents` without whitespace trimming, with `parse_and_append_data`
(1907-1962): text and children so far, then the rest after the closing tag. -/
def parseContents : Nat → List Byte → List Byte × List (List Byte × PTree) →
    Outcome ((List Byte × List (List Byte × PTree)) × List Byte)
  | 0, _, _ => .ub
  | _ + 1, [], _ => .throw .runtimeError
  | f + 1, b :: r, acc =>
    if b = 60#8 then
      if r.head? = some 47#8 then (closing r.tail).bind fun r => .ok (acc, r)
      else (parseNode f r).bind fun p => parseContents f p.2 (addItem acc p.1)
    else
      (expand (· == 60#8) (r.length + 1) (b :: r)).bind fun p => parseContents f p.2 (acc.1 ++ cstr p.1, acc.2)
end

/-- detail/rapidxml.hpp:1363-1379: the loop over the nodes of the document. -/
def parseNodes : Nat → List Byte → List Byte × List (List Byte × PTree) → Outcome PTree
  | 0, _, _ => .ub
  | f + 1, t, acc =>
    match t.dropWhile isWs with
    | [] => .ok (.node acc.1 acc.2)
    | b :: r =>
      if b = 60#8 then
        (parseNode f r).bind fun p => parseNodes f p.2 (addItem acc p.1)
      else .throw .runtimeError

/-- detail/rapidxml.hpp:1684-1695 `parse_bom`. -/
def skipBom (t : List Byte) : List Byte := if [0xEF#8, 0xBB#8, 0xBF#8].isPrefixOf t then t.drop 3 else t

/-- detail/xml_parser_read_rapidxml.hpp:84-137 `read_xml_internal` (flags 0: comments are kept): the tree, or an
`xml_parser_error`, which is a `std::runtime_error`. The parser works on a zero-terminated buffer, so it sees the text up
to the first zero byte; the zeros it writes into the buffer itself end values already scanned. -/
def readXml (bytes : List Byte) : Outcome PTree :=
  let t := cstr bytes
  parseNodes (2 * t.length + 2) (skipBom t) ([], [])

/-- `isspace` of the classic locale. -/
def isSpace (b : Byte) : Bool := b == 32#8 || (9 ≤ b.toNat && b.toNat ≤ 13)

/-- A decimal digit. -/
def isDec (b : Byte) : Bool := 48 ≤ b.toNat && b.toNat ≤ 57

/-- What `num_get` accumulates for an integer: sign, digits and the rest of the stream. -/
def scanInt (t : List Byte) : Bool × List Byte × List Byte :=
  let t := t.dropWhile isSpace
  match t with
  | 45#8 :: r => (true, r.takeWhile isDec, r.dropWhile isDec)
  | 43#8 :: r => (false, r.takeWhile isDec, r.dropWhile isDec)
  | _ => (false, t.takeWhile isDec, t.dropWhile isDec)

/-- The value of decimal digits. -/
def decimal (ds : List Byte) : Nat := ds.foldl (fun n b => n * 10 + (b.toNat - 48)) 0

/-- stream_translator.hpp:158-182 `get_value`: nothing but whitespace may follow the value. -/
def onlySpace (rest : List Byte) : Bool := rest.all isSpace

/-- `stream_translator<unsigned>::get_value` for an unsigned type of `w` bits: a number that does not fit is refused, a
minus sign wraps (libstdc++). -/
def getUnsigned (w : Nat) (t : List Byte) : Option Nat :=
  let (neg, ds, rest) := scanInt t
  let v := decimal ds
  if ds.isEmpty || !(v < 2 ^ w) || !onlySpace rest then none
  else some (if neg then (2 ^ w - v) % 2 ^ w else v)

/-- The word form of a `bool`, read after a failed attempt in number form. -/
def wordBool (t : List Byte) : Option (Bool × List Byte) :=
  let t := t.dropWhile isSpace
  if (lit "true").isPrefixOf t then some (true, t.drop 4)
  else if (lit "false").isPrefixOf t then some (false, t.drop 5)
  else none

/-- stream_translator.hpp:94-113 `customize_stream<bool>::extract` and `get_value`: 0 or 1, else the word form from where the
first attempt stopped. -/
def getBool (t : List Byte) : Option Bool :=
  let (neg, ds, rest) := scanInt t
  let v := decimal ds
  if !ds.isEmpty && (v == 0 || (v == 1 && !neg)) then
    (if onlySpace rest then some (v == 1) else none)
  else
    match wordBool rest with
    | none => none
    | some (b, rest) => if onlySpace rest then some b else none

/-- `get<T>(path)`: `ptree_bad_path` or `ptree_bad_data`, both `std::runtime_error`
(detail/ptree_implementation.hpp:552-562, 633-647, 712-725). -/
def get (tr : List Byte → Option α) (p : List (List Byte)) (t : PTree) : Outcome α :=
  match walk p t with
  | none => .throw .runtimeError
  | some c =>
    match tr c.data with
    | none => .throw .runtimeError
    | some v => .ok v

/-- src/schema.cpp:423-431: minimum and maximum. A missing one is caught (`ptree_bad_path`), an unreadable one is not. The
values are not modelled; `dbl` says which texts can be read as a `double`. -/
def readRange (dbl : List Byte → Bool) (v : PTree) : Outcome Unit :=
  match walk [lit "minimum"] v with
  | none => .ok ()
  | some c =>
    if dbl c.data then
      match walk [lit "maximum"] v with
      | none => .ok ()
      | some c => if dbl c.data then .ok () else .throw .runtimeError
    else .throw .runtimeError

/-- A text as the name of a dimension. -/
def nameOf (t : List Byte) : String := String.ofList (t.map fun b => Char.ofNat b.toNat)

/-- src/schema.cpp:413-447: one dimension of the record. -/
def loadDim (dbl : List Byte → Bool) (v : PTree) : Outcome Dim := do
  let size ← get (getUnsigned 32) [lit "size"] v
  let name ← get some [lit "name"] v
  let _ ← get some [lit "description"] v
  let _ ← get getBool [lit "signed"] v
  let _ ← get getBool [lit "integer"] v
  let isactive ← get getBool [lit "active"] v
  let isrequired ← get getBool [lit "required"] v
  let position ← get (getUnsigned 32) [lit "position"] v
  readRange dbl v
  let d ← Dim.make (nameOf name) size
  pure { d with active := isactive, required := isrequired, position := position }

/-- src/schema.cpp:411-449: the loop over all children of `LASSchema.dimensions`. -/
def loadDims (dbl : List Byte → Bool) : IndexMap → List (List Byte × PTree) → Outcome IndexMap
  | m, [] => .ok m
  | m, (_, v) :: r => (loadDim dbl v).bind fun d => loadDims dbl (m.insertDim d) r

/-- `static_cast<PointFormatName>(pf)`; numbers above 3 are refused later (src/schema.cpp:337-341), as formats 4 and 5
are. -/
def formatOf (n : Nat) : PointFormat :=
  match n with
  | 0 => .f0 | 1 => .f1 | 2 => .f2 | 3 => .f3 | _ => .f4

/-- detail/ptree_implementation.hpp:537-547 `get_child`: a missing node is `ptree_bad_path`. -/
def getChild (p : List (List Byte)) (t : PTree) : Outcome PTree :=
  match walk p t with
  | none => .throw .runtimeError
  | some c => .ok c

/-- src/schema.cpp:454-455: `SetSchemaVersion`, `SetDataFormatId` and `CalculateSizes` on the object under construction,
which has no dimensions yet. Its uninitialised members are overwritten by `SetDataFormatId` (src/schema.cpp:319, 655-660)
before they are read. -/
def withFormat (f : PointFormat) : Outcome Schema :=
  match Schema.setDataFormatId ⟨.f0, 0, 0, 0, []⟩ f with
  | (s, .ok ()) => .ok s.calculateSizes
  | (_, .throw e) => .throw e
  | (_, .ub) => .ub

/-- src/schema.cpp:404-458 `LoadDimensions` on the object under construction: the dimensions, and the object with the
format set (its own dimensions are the base ones). -/
def loadDimensions (dbl : List Byte → Bool) (tree : PTree) : Outcome (IndexMap × Schema) := do
  let dims ← getChild [lit "LASSchema", lit "dimensions"] tree
  let m ← loadDims dbl [] dims.kids
  let pf ← get (getUnsigned 32) [lit "LASSchema", lit "formatid"] tree
  let _ ← get (getUnsigned 16) [lit "LASSchema", lit "version"] tree
  let s ← withFormat (formatOf pf)
  pure (m, s)

/-- src/schema.cpp:563-566, the end of `Schema(std::vector<VariableRecord> const&)` for the data of the schema record:
the loaded dimensions replace those of the format; the next position stays that after the base dimensions. -/
def parseSchema (dbl : List Byte → Bool) (bytes : List Byte) : Outcome Schema := do
  let tree ← readXml bytes
  let (m, s) ← loadDimensions dbl tree
  pure (Schema.calculateSizes { s with dims := m })

/-- The library's own XML text and parser as the environment of the file model. -/
def env (notes : Notes) (dbl : List Byte → Bool) (junk : Byte) : Env :=
  { xml := fun s => writeXml (schemaTree notes s)
    parse := parseSchema dbl
    junk := junk }

end LibLAS.Xml
