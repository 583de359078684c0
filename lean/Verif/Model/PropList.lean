import Verif.Model.PropNode

/-! # Listing of a tree, `flut/prop_node.cpp`, and of the nodes that were not accessed, `flut/prop_node_tools.cpp` -/

namespace Flut.PN

mutual
/-- `get_align_width`, /repo/flut/prop_node.cpp:22-31 (`int` does not overflow). -/
def alignWidth : Nat → PN → Nat
  | depth, mk _ _ cs => alignWidthAll depth cs 0
/-- The loop of `get_align_width`. -/
def alignWidthAll : Nat → List (Str × PN) → Nat → Nat
  | _, [], width => width
  | depth, (k, n) :: r, width => alignWidthAll depth r (max (max width (depth * 2 + k.length)) (alignWidth (depth + 1) n))
end

/-- `str << std::left << std::setw( align ) << s`, /repo/flut/prop_node.cpp:43. -/
def padRight (align : Nat) (s : Str) : Str := s ++ List.replicate (align - s.length) 32

mutual
/-- `to_stream`, /repo/flut/prop_node.cpp:33-52: the text. -/
def toStream : Nat → Nat → PN → Str
  | depth, align, mk a v cs => toStreamAll depth (if align = 0 then alignWidth depth (mk a v cs) else align) cs
/-- The loop of `to_stream`. -/
def toStreamAll : Nat → Nat → List (Str × PN) → Str
  | _, _, [] => []
  | depth, align, (k, n) :: r =>
    padRight align (List.replicate (depth * 2) 32 ++ k)
      ++ ((if n.hasValue || n.size = 0 then b!" = " ++ n.value else []) ++ 10 :: toStream (depth + 1) align n)
      ++ toStreamAll depth align r
end

mutual
/-- The tree after `to_stream`: `begin()` is called on every node, /repo/flut/prop_node.hpp:190, and sets the flag. -/
def afterStream : PN → PN
  | mk _ v cs => mk true v (afterStreamAll cs)
/-- The same for a list of children. -/
def afterStreamAll : List (Str × PN) → List (Str × PN)
  | [] => []
  | (k, n) :: r => (k, afterStream n) :: afterStreamAll r
end

/-- `operator<<`, /repo/flut/prop_node.hpp:253-254. -/
def listing (n : PN) : Str := toStream 0 0 n

/-- The message for a node, /repo/flut/prop_node_tools.cpp:311-318, if there is one. -/
def unaccessedLine (depth : Nat) (k : Str) (n : PN) : List Str :=
  if n.countUnaccessed > 0 then
    [List.replicate (depth * 2) 32 ++ k ++
      (if !n.acc then (if n.hasValue then b!" = " ++ n.value else []) ++ b!" *" else [])]
  else []

mutual
/-- `log_unaccessed`, /repo/flut/prop_node_tools.cpp:305-322: the messages (all of them: the level of the log is left out)
and the tree afterwards. The loop calls `begin()`, which sets the flag of the node. -/
def logUnaccessed : Nat → PN → List Str × PN
  | depth, mk _ v cs =>
    let r := logUnaccessedAll depth cs
    (r.1, mk true v r.2)
/-- The loop of `log_unaccessed`. -/
def logUnaccessedAll : Nat → List (Str × PN) → List Str × List (Str × PN)
  | _, [] => ([], [])
  | depth, (k, n) :: r =>
    let here := unaccessedLine depth k n
    let sub := logUnaccessed (depth + 1) n
    let rest := logUnaccessedAll depth r
    (here ++ sub.1 ++ rest.1, (k, sub.2) :: rest.2)
end

end Flut.PN
