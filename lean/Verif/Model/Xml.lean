import Verif.Model.FileSystem

/-!
# XML files

`load_xml`, `save_xml` and `load_file` of `flut/prop_node_tools.cpp`, on top of the parts of rapidxml 1.13 they use:
`xml_document::parse<0>` (/repo/contrib/rapidxml-1.13/rapidxml.hpp, called R below) and printing with default flags
(/repo/contrib/rapidxml-1.13/rapidxml_print.hpp, called P below).

The parser works in place on a zero-terminated buffer. The model takes the unread characters up to the terminator; an
empty list is the terminator. Every lookahead of the parser is a chain of comparisons with non-zero characters that stops
at the first difference, so it never reads past the terminator; such chains are prefix tests here. The parser overwrites only
characters it does not read again: the decoded text is never longer than its source, and string terminators are put after the
character at that place has been read. `unsigned long` has 64 bits.
-/

namespace Flut

namespace Xml

/-- The node types that `parse<0>` creates. -/
inductive Kind where
  | element
  | data
  | cdata
  deriving DecidableEq, Repr

/-- `xml_node`: type, name, value, attributes and children. -/
inductive Node where
  | mk (kind : Kind) (name value : Str) (attrs : List (Str × Str)) (children : List Node)

namespace Node
/-- The type of a node. -/
def kind : Node → Kind | mk k _ _ _ _ => k
/-- The name of a node. -/
def name : Node → Str | mk _ n _ _ _ => n
/-- The value of a node. -/
def value : Node → Str | mk _ _ v _ _ => v
/-- The attributes of a node. -/
def attrs : Node → List (Str × Str) | mk _ _ _ a _ => a
/-- The children of a node. -/
def children : Node → List Node | mk _ _ _ _ c => c
end Node

/-! ## Character classes -/

/-- `lookup_whitespace`, R:2306-2327. -/
def isSpace (c : Byte) : Bool := c == 32 || c == 9 || c == 10 || c == 13

/-- `lookup_node_name`, R:2329-2350. -/
def isNameChar (c : Byte) : Bool := !(c == 0 || isSpace c || c == 47 || c == 62 || c == 63)

/-- `lookup_attribute_name`, R:2421-2442. -/
def isAttrChar (c : Byte) : Bool :=
  !(c == 0 || isSpace c || c == 33 || c == 47 || c == 60 || c == 61 || c == 62 || c == 63)

/-- `lookup_text`, R:2352-2373. -/
def isTextChar (c : Byte) : Bool := !(c == 0 || c == 60)

/-- `lookup_attribute_data_1` and `lookup_attribute_data_2`, R:2444-2465 and R:2490-2511, for the quote `q`. -/
def isAttrData (q c : Byte) : Bool := !(c == 0 || c == q)

/-- `lookup_digits`, R:2536-2557; 255 is `none`. -/
def digitValue (c : Byte) : Option Nat :=
  if 48 ≤ c.toNat ∧ c.toNat ≤ 57 then some (c.toNat - 48)
  else if 65 ≤ c.toNat ∧ c.toNat ≤ 70 then some (c.toNat - 55)
  else if 97 ≤ c.toNat ∧ c.toNat ≤ 102 then some (c.toNat - 87)
  else none

/-! ## Character references -/

/-- The loops over the digits of a reference, R:1651-1662 and R:1667-1676: the code and the text after the digits. Both loops
take hexadecimal digits. -/
def readCode (base : Nat) (code : Nat) : Str → Nat × Str
  | [] => (code, [])
  | c :: s => match digitValue c with
    | none => (code, c :: s)
    | some d => readCode base ((code * base + d) % 2 ^ 64) s

/-- `static_cast<unsigned char>((code | 0x80) & 0xBF)`, R:1530. -/
def contByte (code : Nat) : Byte := (UInt8.ofNat code ||| 0x80) &&& 0xBF

/-- `insert_coded_character`, R:1509-1553. -/
def codedChar (code : Nat) : Res Str :=
  if code < 0x80 then .ok [UInt8.ofNat code]
  else if code < 0x800 then .ok [UInt8.ofNat (code >>> 6) ||| 0xC0, contByte code]
  else if code < 0x10000 then
    .ok [UInt8.ofNat (code >>> 12) ||| 0xE0, contByte (code >>> 6), contByte code]
  else if code < 0x110000 then
    .ok [UInt8.ofNat (code >>> 18) ||| 0xF0, contByte (code >>> 12), contByte (code >>> 6), contByte code]
  else .throws .parseError

/-- `skip_and_expand_character_refs` with the flags 0, R:1569-1715: the decoded text and what follows it. `p` is `StopPred`.
The plain skip at R:1582 copies characters that the loop would copy too. The first argument bounds the number of
rounds. -/
def expandN (p : Byte → Bool) : Nat → Str → Res (Str × Str)
  | 0, _ => .diverges
  | _ + 1, [] => .ok ([], [])
  | n + 1, c :: s =>
    if p c then
      if c = 38 then
        if b!"amp;".isPrefixOf s then do
          let (t, r) ← expandN p n (s.drop 4)
          .ok (38 :: t, r)
        else if b!"apos;".isPrefixOf s then do
          let (t, r) ← expandN p n (s.drop 5)
          .ok (39 :: t, r)
        else if b!"quot;".isPrefixOf s then do
          let (t, r) ← expandN p n (s.drop 5)
          .ok (34 :: t, r)
        else if b!"gt;".isPrefixOf s then do
          let (t, r) ← expandN p n (s.drop 3)
          .ok (62 :: t, r)
        else if b!"lt;".isPrefixOf s then do
          let (t, r) ← expandN p n (s.drop 3)
          .ok (60 :: t, r)
        else if b!"#".isPrefixOf s then do
          let (code, s') := if b!"#x".isPrefixOf s then readCode 16 0 (s.drop 2) else readCode 10 0 (s.drop 1)
          let bytes ← codedChar code
          match s' with
          | 59 :: s'' => do
            let (t, r) ← expandN p n s''
            .ok (bytes ++ t, r)
          | _ => .throws .parseError
        else do
          let (t, r) ← expandN p n s
          .ok (c :: t, r)
      else do
        let (t, r) ← expandN p n s
        .ok (c :: t, r)
    else .ok ([], c :: s)

/-- `skip_and_expand_character_refs` with a bound that always suffices. -/
def expand (p : Byte → Bool) (s : Str) : Res (Str × Str) := expandN p (s.length + 1) s

/-! ## The parser -/

/-- The loops that look for the end of a declaration, comment, processing instruction or unknown markup: R:1743-1749,
R:1779-1785, R:1921-1927, R:2153-2159. The text after the mark. -/
def skipTo (mark : Str) : Str → Res Str
  | [] => .throws .parseError
  | c :: s => if mark.isPrefixOf (c :: s) then .ok ((c :: s).drop mark.length) else skipTo mark s

/-- The loop of `parse_cdata`, R:2013-2031: the value and the text after the mark. -/
def readCdata : Str → Res (Str × Str)
  | [] => .throws .parseError
  | c :: s =>
    if b!"]]>".isPrefixOf (c :: s) then .ok ([], (c :: s).drop 3)
    else do
      let (v, r) ← readCdata s
      .ok (c :: v, r)

/-- `parse_doctype`, R:1813-1875, after `!DOCTYPE `. `depth` is 0 outside of brackets. -/
def skipDoctype : Nat → Str → Res Str
  | _, [] => .throws .parseError
  | 0, c :: s => if c = 62 then .ok s else if c = 91 then skipDoctype 1 s else skipDoctype 0 s
  | d + 1, c :: s =>
    if c = 91 then skipDoctype (d + 2) s else if c = 93 then skipDoctype d s else skipDoctype (d + 1) s

/-- `parse_node_attributes`, R:2236-2298. The first argument bounds the number of attributes. -/
def parseAttrsN : Nat → Str → Res (List (Str × Str) × Str)
  | 0, _ => .diverges
  | n + 1, s =>
    if (s.takeWhile isAttrChar).isEmpty then .ok ([], s)
    else
      match (s.dropWhile isAttrChar).dropWhile isSpace with
      | 61 :: s1 =>
        match s1.dropWhile isSpace with
        | q :: s2 =>
          if q = 39 ∨ q = 34 then do
            let (v, s3) ← expand (isAttrData q) s2
            match s3 with
            | q' :: s4 =>
              if q' = q then do
                let (rest, s5) ← parseAttrsN n (s4.dropWhile isSpace)
                .ok ((s.takeWhile isAttrChar, v) :: rest, s5)
              else .throws .parseError
            | [] => .throws .parseError
          else .throws .parseError
        | [] => .throws .parseError
      | _ => .throws .parseError

/-- `parse_node_attributes` with a bound that always suffices. -/
def parseAttrs (s : Str) : Res (List (Str × Str) × Str) := parseAttrsN (s.length + 1) s

/-- The test for an XML declaration, R:2095-2098. -/
def isDecl : Str → Bool
  | x :: m :: l :: sp :: _ =>
    (x == 120 || x == 88) && (m == 109 || m == 77) && (l == 108 || l == 76) && isSpace sp
  | _ => false

/-- The test for a document type, R:2140-2142, after the exclamation mark. -/
def isDoctype (s : Str) : Bool := b!"DOCTYPE".isPrefixOf s && (s.drop 7).head?.any isSpace

mutual
/-- `parse_node`, R:2080-2163, after `<`; `none` where no node is created. The first argument bounds the recursion. -/
def parseNode : Nat → Str → Res (Option Node × Str)
  | 0, _ => .diverges
  | n + 1, s => match s with
    | 63 :: t => do
      let r ← skipTo b!"?>" (if isDecl t then t.drop 4 else t)
      .ok (none, r)
    | 33 :: t =>
      if b!"--".isPrefixOf t then do
        let r ← skipTo b!"-->" (t.drop 2)
        .ok (none, r)
      else if b!"[CDATA[".isPrefixOf t then do
        let (v, r) ← readCdata (t.drop 7)
        .ok (some (.mk .cdata [] v [] []), r)
      else if isDoctype t then do
        let r ← skipDoctype 0 (t.drop 8)
        .ok (none, r)
      else do
        let r ← skipTo b!">" t
        .ok (none, r)
    | s => parseElement n s
/-- `parse_element`, R:2036-2077. -/
def parseElement : Nat → Str → Res (Option Node × Str)
  | 0, _ => .diverges
  | n + 1, s =>
    if (s.takeWhile isNameChar).isEmpty then .throws .parseError
    else do
      let (attrs, r) ← parseAttrs ((s.dropWhile isNameChar).dropWhile isSpace)
      match r with
      | 62 :: t => do
        let (v, cs, r) ← parseContents n [] [] t
        .ok (some (.mk .element (s.takeWhile isNameChar) v attrs cs), r)
      | 47 :: 62 :: t => .ok (some (.mk .element (s.takeWhile isNameChar) [] attrs []), t)
      | _ => .throws .parseError
/-- `parse_node_contents`, R:2166-2233, with `parse_and_append_data`, R:1939-1994: the value, the children and the rest. `v` and
`cs` are the value and the children so far. After data the next character is `<` or the terminator; the jump over the white space
skip at R:2225 makes no difference then. The name in the closing tag is not compared (R:2203-2205). -/
def parseContents : Nat → Str → List Node → Str → Res (Str × List Node × Str)
  | 0, _, _, _ => .diverges
  | n + 1, v, cs, s => match s.dropWhile isSpace with
    | [] => .throws .parseError
    | 60 :: 47 :: t =>
      match (t.dropWhile isNameChar).dropWhile isSpace with
      | 62 :: r => .ok (v, cs, r)
      | _ => .throws .parseError
    | 60 :: t => do
      let (nd, r) ← parseNode n t
      parseContents n v (cs ++ nd.toList) r
    | _ => do
      let (d, r) ← expand isTextChar s
      parseContents n (if (cstr v).isEmpty then d else v) (cs ++ [.mk .data [] d [] []]) r
end

/-- The loop of `parse`, R:1392-1411, over the nodes of the document. -/
def parseDocN : Nat → Str → Res (List Node)
  | 0, _ => .diverges
  | n + 1, s => match s.dropWhile isSpace with
    | [] => .ok []
    | 60 :: t => do
      let (nd, r) ← parseNode (2 * t.length + 2) t
      let rest ← parseDocN n r
      .ok (nd.toList ++ rest)
    | _ => .throws .parseError

/-- `parse_bom`, R:1724-1734. -/
def skipBom (s : Str) : Str := if [0xEF, 0xBB, 0xBF].isPrefixOf s then s.drop 3 else s

/-- `xml_document::parse<0>`, R:1380-1413: the children of the document. -/
def parseDoc (text : Str) : Res (List Node) := parseDocN (text.length + 1) (skipBom (cstr text))

/-! ## The printer -/

/-- `copy_and_expand_chars` with `noexpand` 0, P:44-79. Values that are printed contain no zero. -/
def escape : Str → Str
  | [] => []
  | c :: s =>
    (if c = 60 then b!"&lt;" else if c = 62 then b!"&gt;" else if c = 39 then b!"&apos;"
     else if c = 34 then b!"&quot;" else if c = 38 then b!"&amp;" else [c]) ++ escape s

mutual
/-- `print_node` for the nodes that `set_rapid_xml_node` makes (P:101-153, P:234-284): elements without attributes and data
nodes. -/
def printNode (indent : Nat) : Node → Str
  | .mk _ name value _ children =>
    List.replicate indent 9 ++ b!"<" ++ name ++
    (if value.isEmpty && children.isEmpty then b!"/>"
     else b!">" ++ (if children.isEmpty then escape value
        else b!"\n" ++ printChildren (indent + 1) children ++ List.replicate indent 9) ++
      b!"</" ++ name ++ b!">") ++ b!"\n"
/-- `print_children`, P:155-162. -/
def printChildren (indent : Nat) : List Node → Str
  | [] => []
  | n :: r => printNode indent n ++ printChildren indent r
end

/-- `operator<<` on a document, P:101-108, P:397-418. -/
def printDoc (nodes : List Node) : Str := printChildren 0 nodes ++ b!"\n"

end Xml

/-! ## `flut/prop_node_tools.cpp` -/

mutual
/-- `get_rapid_xml_node`, /repo/flut/prop_node_tools.cpp:34-51. Names and values are read as C strings. -/
def getXmlNode : Xml.Node → PN
  | .mk _ _ value attrs children =>
    .mk false (cstr value) (attrs.map (fun a => (cstr a.1, PN.leaf (cstr a.2))) ++ getXmlChildren children)
/-- The loop over the child nodes, /repo/flut/prop_node_tools.cpp:44-48. -/
def getXmlChildren : List Xml.Node → List (Str × PN)
  | [] => []
  | n :: r => if n.name.length > 0 then (cstr n.name, getXmlNode n) :: getXmlChildren r else getXmlChildren r
end

mutual
/-- `set_rapid_xml_node`, /repo/flut/prop_node_tools.cpp:53-63, as the element made for a child with this key. Keys and values
are passed as C strings. -/
def setXmlNode (key : Str) : PN → Xml.Node
  | .mk _ v cs => .mk .element (cstr key) (cstr v) [] (setXmlChildren cs)
/-- The loop of `set_rapid_xml_node` over the children, /repo/flut/prop_node_tools.cpp:58-62. -/
def setXmlChildren : List (Str × PN) → List Xml.Node
  | [] => []
  | (k, n) :: r => setXmlNode k n :: setXmlChildren r
end

/-- The text that `save_xml` writes, /repo/flut/prop_node_tools.cpp:92-98. The value given to the document is not printed. -/
def savedXml (n : PN) : Str := Xml.printDoc (setXmlChildren n.children)

/-- `load_xml` on the contents of a file, /repo/flut/prop_node_tools.cpp:71-90, without an error code. The handler at line 88
throws a copy of type `std::exception`. -/
def parseXml (text : Str) : Res PN :=
  match Xml.parseDoc text with
  | .ok [] => .ok PN.nil
  | .ok (n :: _) => .ok (.mk false [] [(cstr n.name, getXmlNode n)])
  | .throws _ => .throws .stdException
  | .ub => .ub
  | .diverges => .diverges

namespace Fs

/-- `load_xml`, /repo/flut/prop_node_tools.cpp:65-90. The message of the exception is not modelled. -/
def loadXml (fs : Fs) (p : Str) (ec : Option ErrorCode) : Res PN × Option ErrorCode :=
  match fs.loadString p ec with
  | (.ok text, ec) =>
    if ec.any (fun e => e.code ≠ 0) then (.ok PN.nil, ec)
    else match parseXml text, ec with
      | .throws _, some e => (.ok PN.nil, some { e with code := -1 })
      | r, ec => (r, ec)
  | (.throws e, ec) => (.throws e, ec)
  | (.ub, ec) => (.ub, ec)
  | (.diverges, ec) => (.diverges, ec)

/-- `save_xml`, /repo/flut/prop_node_tools.cpp:92-98: writing to a stream that did not open is ignored. -/
def saveXml (fs : Fs) (n : PN) (p : Str) : Fs :=
  match fs.openWrite p with
  | none => fs
  | some (l, fs) => fs.put l (.file (savedXml n))

/-- `load_file`, /repo/flut/prop_node_tools.cpp:27-32. -/
def loadFile (fs : Fs) (p : Str) : Res PN := do
  let e ← extension p
  if e = b!"xml" then (fs.loadXml p none).1 else (fs.loadProp p none).1

end Fs

end Flut
