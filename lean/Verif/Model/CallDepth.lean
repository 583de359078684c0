import Verif.Model.Xml

/-!
# Nested calls

The functions that read, write and destroy trees call themselves, and the stack of a thread has room for a limited number of
calls at the same time. Here they are with such a limit. The C++ standard does not say what happens beyond it; on the
platforms of flut the program is terminated, which no handler of the program can catch.

The limit is the number of calls of the function that may be active together. All other calls are taken to fit. The first
argument of the functions below bounds the rounds as in `Model/PropText.lean` and `Model/Xml.lean`.
-/

namespace Flut

/-- What becomes of a call: it ends in one of the usual ways, or the stack overflows. -/
inductive Lim (α : Type) where
  | done (r : Res α)
  | overflow

namespace Lim

/-- Sequencing: what follows is only done after a call that returned. -/
def bind {α β : Type} : Lim α → (α → Lim β) → Lim β
  | done (.ok a), f => f a
  | done (.throws e), _ => done (.throws e)
  | done .ub, _ => done .ub
  | done .diverges, _ => done .diverges
  | overflow, _ => overflow

instance : Monad Lim where
  pure a := done (.ok a)
  bind := bind

end Lim

mutual
/-- `read_prop_node`, /repo/flut/prop_node_tools.cpp:120-138, with room for `d` calls. -/
def readNodeLim : Nat → Nat → CharStream → Lim (PN × CharStream)
  | 0, _, _ => .done .diverges
  | _ + 1, 0, _ => .overflow
  | n + 1, d + 1, s => do
    let (t, s1) ← .done (getPropToken s)
    if t = b!"=" then do
      let (v, s2) ← .done (getPropToken s1)
      .done (.ok (.mk false v [], s2))
    else if t = b!"{" then do
      let (cs, s2) ← readChildrenLim n d s1 t
      .done (.ok (.mk false [] cs, s2))
    else .done (.ok (.mk false [] [], s1))
/-- The loop of `read_prop_node` over the children, /repo/flut/prop_node_tools.cpp:129-136. -/
def readChildrenLim : Nat → Nat → CharStream → Str → Lim (List (Str × PN) × CharStream)
  | 0, _, _, _ => .done .diverges
  | n + 1, d, s, t =>
    if s.good && decide (t ≠ b!"}") then do
      let (t', s1) ← .done (getPropToken s)
      let valid ← .done (isValidLabel t')
      if valid then do
        let (nd, s2) ← readNodeLim n d s1
        let (rest, s3) ← readChildrenLim n d s2 t'
        .done (.ok ((t', nd) :: rest, s3))
      else if t' ≠ b!"}" then .done (.throws .flutError)
      else readChildrenLim n d s1 t'
    else .done (.ok ([], s))
end

/-- The loop of `parse_prop` over the top-level nodes, /repo/flut/prop_node_tools.cpp:144-148. -/
def parseLoopLim (d : Nat) : Nat → CharStream → Str → Lim (List (Str × PN))
  | 0, _, _ => .done .diverges
  | n + 1, s, t => do
    let valid ← .done (isValidLabel t)
    if valid then do
      let (nd, s1) ← readNodeLim (s.rest.length + 1) d s
      let (t', s2) ← .done (getPropToken s1)
      let rest ← parseLoopLim d n s2 t'
      .done (.ok ((t, nd) :: rest))
    else .done (.ok [])

/-- `parse_prop(char_stream&)`, /repo/flut/prop_node_tools.cpp:140-150. -/
def parseStreamLim (d : Nat) (s : CharStream) : Lim PN := do
  let (t, s1) ← .done (getPropToken s)
  let cs ← parseLoopLim d (s.rest.length + 1) s1 t
  .done (.ok (.mk false [] cs))

/-- `parse_prop(const char*)`, /repo/flut/prop_node_tools.cpp:152-155, and `load_prop` (lines 157-163) on the contents of the
file, when `d` calls of `read_prop_node` can be active. -/
def parsePropLim (d : Nat) (text : Str) : Lim PN := parseStreamLim d (CharStream.ofCStr text propDelims)

namespace Xml

mutual
/-- `parse_node`, R:2080-2163, with room for `d` calls of `parse_element`. Every call of `parse_node` or `parse_node_contents` in
progress belongs to another call of `parse_element`, except for two. -/
def parseNodeLim : Nat → Nat → Str → Lim (Option Node × Str)
  | 0, _, _ => .done .diverges
  | n + 1, d, s => match s with
    | 63 :: t => do
      let r ← .done (skipTo b!"?>" (if isDecl t then t.drop 4 else t))
      .done (.ok (none, r))
    | 33 :: t =>
      if b!"--".isPrefixOf t then do
        let r ← .done (skipTo b!"-->" (t.drop 2))
        .done (.ok (none, r))
      else if b!"[CDATA[".isPrefixOf t then do
        let (v, r) ← .done (readCdata (t.drop 7))
        .done (.ok (some (.mk .cdata [] v [] []), r))
      else if isDoctype t then do
        let r ← .done (skipDoctype 0 (t.drop 8))
        .done (.ok (none, r))
      else do
        let r ← .done (skipTo b!">" t)
        .done (.ok (none, r))
    | s => parseElementLim n d s
/-- `parse_element`, R:2036-2077. -/
def parseElementLim : Nat → Nat → Str → Lim (Option Node × Str)
  | 0, _, _ => .done .diverges
  | _ + 1, 0, _ => .overflow
  | n + 1, d + 1, s =>
    if (s.takeWhile isNameChar).isEmpty then .done (.throws .parseError)
    else do
      let (attrs, r) ← .done (parseAttrs ((s.dropWhile isNameChar).dropWhile isSpace))
      match r with
      | 62 :: t => do
        let (v, cs, r) ← parseContentsLim n d [] [] t
        .done (.ok (some (.mk .element (s.takeWhile isNameChar) v attrs cs), r))
      | 47 :: 62 :: t => .done (.ok (some (.mk .element (s.takeWhile isNameChar) [] attrs []), t))
      | _ => .done (.throws .parseError)
/-- `parse_node_contents`, R:2166-2233. -/
def parseContentsLim : Nat → Nat → Str → List Node → Str → Lim (Str × List Node × Str)
  | 0, _, _, _, _ => .done .diverges
  | n + 1, d, v, cs, s => match s.dropWhile isSpace with
    | [] => .done (.throws .parseError)
    | 60 :: 47 :: t =>
      match (t.dropWhile isNameChar).dropWhile isSpace with
      | 62 :: r => .done (.ok (v, cs, r))
      | _ => .done (.throws .parseError)
    | 60 :: t => do
      let (nd, r) ← parseNodeLim n d t
      parseContentsLim n d v (cs ++ nd.toList) r
    | _ => do
      let (x, r) ← .done (expand isTextChar s)
      parseContentsLim n d (if (cstr v).isEmpty then x else v) (cs ++ [.mk .data [] x [] []]) r
end

/-- The loop of `parse`, R:1392-1411, over the nodes of the document. -/
def parseDocLim (d : Nat) : Nat → Str → Lim (List Node)
  | 0, _ => .done .diverges
  | n + 1, s => match s.dropWhile isSpace with
    | [] => .done (.ok [])
    | 60 :: t => do
      let (nd, r) ← parseNodeLim (2 * t.length + 2) d t
      let rest ← parseDocLim d n r
      .done (.ok (nd.toList ++ rest))
    | _ => .done (.throws .parseError)

end Xml

mutual
/-- `get_rapid_xml_node`, /repo/flut/prop_node_tools.cpp:34-51, with room for `d` calls. -/
def getXmlNodeLim : Nat → Xml.Node → Lim PN
  | 0, _ => .overflow
  | d + 1, .mk _ _ value attrs children => do
    let cs ← getXmlChildrenLim d children
    .done (.ok (.mk false (cstr value) (attrs.map (fun a => (cstr a.1, PN.leaf (cstr a.2))) ++ cs)))
/-- The loop over the child nodes, /repo/flut/prop_node_tools.cpp:44-48. -/
def getXmlChildrenLim : Nat → List Xml.Node → Lim (List (Str × PN))
  | _, [] => .done (.ok [])
  | d, n :: r =>
    if n.name.length > 0 then do
      let m ← getXmlNodeLim d n
      let rest ← getXmlChildrenLim d r
      .done (.ok ((cstr n.name, m) :: rest))
    else getXmlChildrenLim d r
end

/-- `load_xml` on the contents of a file, /repo/flut/prop_node_tools.cpp:71-90, without an error code, when `d` calls of
`parse_element` and `d` calls of `get_rapid_xml_node` can be active. -/
def parseXmlLim (d : Nat) (text : Str) : Lim PN :=
  match Xml.parseDocLim d (text.length + 1) (Xml.skipBom (cstr text)) with
  | .done (.ok []) => .done (.ok PN.nil)
  | .done (.ok (n :: _)) => do
    let m ← getXmlNodeLim d n
    .done (.ok (.mk false [] [(cstr n.name, m)]))
  | .done (.throws _) => .done (.throws .stdException)
  | .done .ub => .done .ub
  | .done .diverges => .done .diverges
  | .overflow => .overflow

mutual
/-- `write_prop_none`, /repo/flut/prop_node_tools.cpp:214-231, with room for `d` calls. -/
def writeNodeLim (readable : Bool) : Nat → Str → Nat → PN → Lim Str
  | 0, _, _, _ => .overflow
  | d + 1, label, level, .mk a v cs => do
    let body ← writeNodesLim readable d (level + 1) cs
    .done (.ok (indentStr readable level ++ tryQuoted label ++ writeValue readable (.mk a v cs) ++ newlineStr readable ++
      (if cs.isEmpty then []
       else indentStr readable level ++ b!"{" ++ newlineStr readable ++ body ++
         indentStr readable level ++ b!"}" ++ newlineStr readable)))
/-- The loops over children, /repo/flut/prop_node_tools.cpp:227-228 and :238-239. -/
def writeNodesLim (readable : Bool) : Nat → Nat → List (Str × PN) → Lim Str
  | _, _, [] => .done (.ok [])
  | d, level, (k, n) :: r => do
    let a ← writeNodeLim readable d k level n
    let b ← writeNodesLim readable d level r
    .done (.ok (a ++ b))
end

/-- The text that `save_prop` writes, /repo/flut/prop_node_tools.cpp:233-243, when `d` calls of `write_prop_none` can be
active. -/
def savedPropLim (readable : Bool) (d : Nat) (n : PN) : Lim Str := writeNodesLim readable d 0 n.children

mutual
/-- The destructor of `prop_node` (/repo/flut/prop_node.hpp:47), which destroys the children, with room for `d` calls. -/
def destroyLim : Nat → PN → Lim Unit
  | 0, _ => .overflow
  | d + 1, .mk _ _ cs => destroyAllLim d cs
/-- The destructor of the vector of children. -/
def destroyAllLim : Nat → List (Str × PN) → Lim Unit
  | _, [] => .done (.ok ())
  | d, (_, n) :: r => do
    destroyLim d n
    destroyAllLim d r
end

end Flut
