import Verif.Model.CharStream
import Verif.Model.PropNode

/-!
# Model of the text format in `flut/prop_node_tools.cpp`

The `char_stream` passed to `parse_prop` is a temporary (line 154), which standard C++ does not bind to the
non-const reference parameter of line 140; MSVC accepts it. The model takes the intended call.
-/

namespace Flut

/-- The delimiters of prop text, /repo/flut/prop_node_tools.cpp:154. A space is not a delimiter. -/
def propDelims : Str := [10, 13, 9, 11, 59]

/-- The operators of prop text, /repo/flut/prop_node_tools.cpp:109. -/
def propOperators : Str := b!"={}%"

/-- The quotation characters of prop text, /repo/flut/prop_node_tools.cpp:109. -/
def propQuotes : Str := b!"\"'"

/-- `is_valid_prop_label`, /repo/flut/prop_node_tools.cpp:100-103. `isalpha` of a negative `char` is `ub`. -/
def isValidLabel : Str → Res Bool
  | [] => .ok false
  | c :: _ => if 128 ≤ c.toNat then .ub else .ok (isAlphaC c)

/-- `get_prop_token`, /repo/flut/prop_node_tools.cpp:105-118. The first argument bounds the number of comments
skipped. -/
def getPropTokenN : Nat → CharStream → Res (Str × CharStream)
  | 0, _ => .diverges
  | n + 1, s => do
    let (t, s') ← s.getToken propOperators propQuotes
    if t = b!"%" then getPropTokenN n s'.getLine.2
    else do
      let r ← trimStr t
      .ok (r, s')

/-- `get_prop_token`, with a bound that always suffices. -/
def getPropToken (s : CharStream) : Res (Str × CharStream) := getPropTokenN (s.rest.length + 1) s

mutual
/-- `read_prop_node`, /repo/flut/prop_node_tools.cpp:120-138, which fills a new, empty node. The first argument
bounds the recursion. -/
def readNode : Nat → CharStream → Res (PN × CharStream)
  | 0, _ => .diverges
  | n + 1, s => do
    let (t, s1) ← getPropToken s
    if t = b!"=" then do
      let (v, s2) ← getPropToken s1
      .ok (.mk false v [], s2)
    else if t = b!"{" then do
      let (cs, s2) ← readChildren n s1 t
      .ok (.mk false [] cs, s2)
    else .ok (.mk false [] [], s1)
/-- The loop of `read_prop_node` over the children, /repo/flut/prop_node_tools.cpp:129-136: the children it
appends. `t` is the last token read. -/
def readChildren : Nat → CharStream → Str → Res (List (Str × PN) × CharStream)
  | 0, _, _ => .diverges
  | n + 1, s, t =>
    if s.good && decide (t ≠ b!"}") then do
      let (t', s1) ← getPropToken s
      let valid ← isValidLabel t'
      if valid then do
        let (nd, s2) ← readNode n s1
        let (rest, s3) ← readChildren n s2 t'
        .ok ((t', nd) :: rest, s3)
      else if t' ≠ b!"}" then .throws .flutError
      else readChildren n s1 t'
    else .ok ([], s)
end

/-- The loop of `parse_prop` over the top-level nodes, /repo/flut/prop_node_tools.cpp:144-148. -/
def parseLoop : Nat → CharStream → Str → Res (List (Str × PN))
  | 0, _, _ => .diverges
  | n + 1, s, t => do
    let valid ← isValidLabel t
    if valid then do
      let (nd, s1) ← readNode (s.rest.length + 1) s
      let (t', s2) ← getPropToken s1
      let rest ← parseLoop n s2 t'
      .ok ((t, nd) :: rest)
    else .ok []

/-- `parse_prop(char_stream&)`, /repo/flut/prop_node_tools.cpp:140-150. -/
def parseStream (s : CharStream) : Res PN := do
  let (t, s1) ← getPropToken s
  let cs ← parseLoop (s.rest.length + 1) s1 t
  .ok (.mk false [] cs)

/-- `parse_prop(const char*)`, /repo/flut/prop_node_tools.cpp:152-155; also `load_prop` (lines 157-163) on the
contents of the file. -/
def parseProp (text : Str) : Res PN := parseStream (CharStream.ofCStr text propDelims)

/-- The part `= value` of a written node, /repo/flut/prop_node_tools.cpp:221-222. -/
def writeValue (readable : Bool) (n : PN) : Str :=
  if n.hasValue || n.empty then
    (if readable then b!" = " else b!"=") ++ (if n.empty then b!"\"\"" else tryQuoted n.value)
  else []

/-- `indent`, /repo/flut/prop_node_tools.cpp:216. -/
def indentStr (readable : Bool) (level : Nat) : Str := if readable then List.replicate level 9 else []

/-- `newline`, /repo/flut/prop_node_tools.cpp:217. -/
def newlineStr (readable : Bool) : Str := if readable then b!"\n" else b!" "

mutual
/-- `write_prop_none`, /repo/flut/prop_node_tools.cpp:214-231. -/
def writeNode (readable : Bool) (label : Str) (level : Nat) : PN → Str
  | .mk a v cs =>
    indentStr readable level ++ tryQuoted label ++ writeValue readable (.mk a v cs) ++ newlineStr readable ++
    (if cs.isEmpty then []
     else indentStr readable level ++ b!"{" ++ newlineStr readable ++ writeNodes readable (level + 1) cs ++
       indentStr readable level ++ b!"}" ++ newlineStr readable)
/-- The loops over children, /repo/flut/prop_node_tools.cpp:227-228 and :238-239. -/
def writeNodes (readable : Bool) (level : Nat) : List (Str × PN) → Str
  | [] => []
  | (k, n) :: r => writeNode readable k level n ++ writeNodes readable level r
end

/-- The text that `save_prop` writes, /repo/flut/prop_node_tools.cpp:233-243. -/
def savedProp (readable : Bool) (n : PN) : Str := writeNodes readable 0 n.children

end Flut
