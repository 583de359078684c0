import Verif.Model.CharStream
import Verif.Model.PropNode

/-!
# Ini files

Models /repo/flut/prop_node_tools.cpp:165-212. The text of the file stands for the file: `load_char_stream` makes a
stream with the default delimiters of it, and `std::endl` writes a newline.
-/

namespace Flut

open PN

/-- `cur_group->set( key, value )`, /repo/flut/prop_node_tools.cpp:193. `cur_group` is the root (`none`) or the child at
an index. -/
def iniSet (key value : Str) (cur : Option Nat) (root : PN) : PN :=
  match cur with
  | none => set key (leaf value) root
  | some i => match root with
    | .mk a v cs => .mk a v (modifyAt (set key (leaf value)) i cs)

/-- The loop of `load_ini`, /repo/flut/prop_node_tools.cpp:171-194. The first argument bounds the number of iterations. -/
def iniLoop : Nat → CharStream → PN → Option Nat → Res PN
  | 0, _, _, _ => .diverges
  | fuel + 1, s, root, cur =>
    if s.good then do
      let l := s.getLine
      let line ← trimStr l.1
      if line.length = 0 then iniLoop fuel l.2 root cur
      else if line.head? = some c!"#" then iniLoop fuel l.2.getLine.2 root cur
      else if line.length > 2 ∧ line.head? = some c!"[" ∧ line.getLast? = some c!"]" then do
        let name ← substr line 1 (some (line.length - 2))
        iniLoop fuel l.2 (pushBack name nil root) (some root.children.length)
      else do
        let kvp ← makeKeyValueStr line
        if kvp.1 = line then .throws .flutError
        else iniLoop fuel l.2 (iniSet kvp.1 kvp.2 cur root) cur
    else .ok root

/-- `load_ini`, /repo/flut/prop_node_tools.cpp:165-196. Each iteration consumes a character or ends the loop
(`C29_total`). -/
def loadIni (text : Str) : Res PN := iniLoop (text.length + 2) (CharStream.ofString text) nil none

/-- The items of a group, /repo/flut/prop_node_tools.cpp:206-207. -/
def saveIniItems : List (Str × PN) → Str
  | [] => []
  | (k, n) :: r => k ++ b!"=" ++ n.value ++ b!"\n" ++ saveIniItems r

/-- The loop of `save_ini`, /repo/flut/prop_node_tools.cpp:201-211. -/
def saveIniLoop : List (Str × PN) → Str
  | [] => []
  | (k, n) :: r =>
    (if n.size > 0 then b!"[" ++ k ++ b!"]" ++ b!"\n" ++ saveIniItems n.children
     else if n.hasValue then k ++ b!"=" ++ n.value ++ b!"\n"
     else []) ++ saveIniLoop r

/-- `save_ini`, /repo/flut/prop_node_tools.cpp:198-212: the text written. -/
def saveIni (n : PN) : Str := saveIniLoop n.children

end Flut
