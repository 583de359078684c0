import Verif.Model.PropNode

/-!
# `flut/prop_node.hpp` with the vectors of children

In `Model/PropNode.lean` the access flags stay with their nodes. Here the children are a `std::vector` with a capacity, and the special members
of `prop_node` (flut/prop_node.hpp:38-52) decide what happens to the flags when the vector copies, moves or assigns its elements. The vector is that of
libstdc++: it copies its elements to a new block when it grows, because the move constructor (line 43) is not `noexcept`.
-/

namespace Flut

/-- `class prop_node`, flut/prop_node.hpp:27-217: access flag, value, capacity of the vector of children, children. -/
inductive VN where
  | mk (acc : Bool) (value : Str) (cap : Nat) (children : List (Str × VN))

namespace VN

/-- The access flag (flut/prop_node.hpp:214). -/
def acc : VN → Bool | mk a _ _ _ => a
/-- The value (flut/prop_node.hpp:215). -/
def value : VN → Str | mk _ v _ _ => v
/-- `children.capacity()`. -/
def cap : VN → Nat | mk _ _ c _ => c
/-- The children (flut/prop_node.hpp:216). -/
def children : VN → List (Str × VN) | mk _ _ _ cs => cs

/-- `prop_node()` (flut/prop_node.hpp:38). -/
def nil : VN := mk false [] 0 []

/-- `prop_node( const value_t& )` (flut/prop_node.hpp:40). -/
def leaf (v : Str) : VN := mk false v 0 []

mutual
/-- The copy constructor (flut/prop_node.hpp:42). A copied vector has room for its elements only. -/
def copy : VN → VN
  | mk _ v _ cs => mk false v cs.length (copyAll cs)
/-- Copies of all elements. -/
def copyAll : List (Str × VN) → List (Str × VN)
  | [] => []
  | (k, n) :: r => (k, copy n) :: copyAll r
end

/-- The move constructor (flut/prop_node.hpp:43): the block of the children changes hands. -/
def move : VN → VN | mk _ v c cs => mk false v c cs

/-- `access()` (flut/prop_node.hpp:211-212). -/
def access : VN → VN | mk _ v c cs => mk true v c cs

/-- `vector::emplace_back`: the new capacity and elements. A full vector doubles its capacity and copies its elements. -/
def append (cap : Nat) (cs : List (Str × VN)) (x : Str × VN) : Nat × List (Str × VN) :=
  if cs.length < cap then (cap, cs ++ [x]) else (cs.length + max cs.length 1, copyAll cs ++ [x])

/-- `push_back( key, const prop_node& )` (flut/prop_node.hpp:125-126): the node is copied, and the copy is moved into the vector. -/
def pushBack (key : Str) (n : VN) : VN → VN
  | mk a v c cs =>
    let r := append c cs (key, n.copy.move)
    mk a v r.1 r.2

/-- `push_back( key, value )` and `push_back( key, prop_node&& )` (flut/prop_node.hpp:123-124, :127-128), where `n` is the converted or given node. -/
def pushMove (key : Str) (n : VN) : VN → VN
  | mk a v c cs =>
    let r := append c cs (key, n.move)
    mk a v r.1 r.2

/-- `reserve` (flut/prop_node.hpp:140). -/
def reserve (n : Nat) : VN → VN
  | mk a v c cs => if c < n then mk a v n (copyAll cs) else mk a v c cs

mutual
/-- `operator=( const prop_node& )` (flut/prop_node.hpp:50), for a node that is not a part of this one. A copied vector takes a new block if
the elements do not fit; otherwise it assigns the elements it has and copies the others. -/
def assign : VN → VN → VN
  | mk a _ c cs, mk _ w _ ds => if c < ds.length then mk a w ds.length (copyAll ds) else mk a w c (assignAll cs ds)
/-- The elements of a vector that has room, after the assignment. -/
def assignAll : List (Str × VN) → List (Str × VN) → List (Str × VN)
  | _, [] => []
  | [], (k, n) :: ds => (k, copy n) :: copyAll ds
  | (_, m) :: cs, (k, n) :: ds => (k, assign m n) :: assignAll cs ds
end

/-- `operator=( prop_node&& )` (flut/prop_node.hpp:51). -/
def assignMove : VN → VN → VN
  | mk a _ _ _, mk _ w d ds => mk a w d ds

/-- `std::find_if` on the keys (flut/prop_node.hpp:185-186). -/
def findIdx (key : Str) : List (Str × VN) → Option Nat
  | [] => none
  | (k, _) :: r => if k = key then some 0 else (findIdx key r).map (· + 1)

/-- Change the child at an index. -/
def modifyAt (f : VN → VN) : Nat → List (Str × VN) → List (Str × VN)
  | _, [] => []
  | 0, (k, n) :: r => (k, f n) :: r
  | i + 1, kn :: r => kn :: modifyAt f i r

/-- `try_get_child( key )` (flut/prop_node.hpp:156-159): the tree after the call. `get< T >( key )` (line 62) leaves the same tree if there is such a
child. -/
def read (key : Str) : VN → VN
  | mk _ v c cs => match findIdx key cs with
    | none => mk true v c cs
    | some i => mk true v c (modifyAt access i cs)

/-- `set( key, v )` (flut/prop_node.hpp:100-106) for a `prop_node`. -/
def set (key : Str) (n : VN) : VN → VN
  | mk _ v c cs => match findIdx key cs with
    | none => pushBack key n (mk true v c cs)
    | some i => mk true v c (modifyAt (assign · n) i cs)

/-- `set( key, v )` (flut/prop_node.hpp:100-106) for other types, where `n` is `prop_node_cast< T >::to( v )`. -/
def setValue (key : Str) (n : VN) : VN → VN
  | mk _ v c cs => match findIdx key cs with
    | none => pushMove key n (mk true v c cs)
    | some i => mk true v c (modifyAt (assignMove · n) i cs)

/-- `get_or_add_child( key )` (flut/prop_node.hpp:169-170) and the `operator[]( key )` that is not `const` (line 178): the tree after the call. -/
def getOrAdd (key : Str) : VN → VN
  | mk _ v c cs => match findIdx key cs with
    | none => pushMove key nil (mk true v c cs)
    | some i => mk true v c (modifyAt access i cs)

/-- The elements after `vector::erase`: the elements behind are move-assigned to their predecessors, and the last one is destroyed. -/
def shiftDown : Nat → List (Str × VN) → List (Str × VN)
  | _, [] => []
  | 0, [_] => []
  | 0, (_, m) :: (k, n) :: r => (k, assignMove m n) :: shiftDown 0 ((k, n) :: r)
  | i + 1, kn :: r => kn :: shiftDown i r

/-- `erase( it )` (flut/prop_node.hpp:203). -/
def erase (i : Nat) : VN → Res VN
  | mk a v c cs => if i < cs.length then .ok (mk a v c (shiftDown i cs)) else .ub

/-- The loop of `merge_prop_nodes` (flut/prop_node_tools.cpp:247-254). `find` and `begin` access the first node. -/
def mergeLoop (overwrite : Bool) : List (Str × VN) → VN → VN
  | [], t => t
  | (k, n) :: r, mk _ v c cs => mergeLoop overwrite r (match findIdx k cs with
    | none => pushBack k n (mk true v c cs)
    | some i => if overwrite then mk true v c (modifyAt (assign · n) i cs) else mk true v c cs)

/-- `merge_prop_nodes` (flut/prop_node_tools.cpp:245-255), for two nodes neither of which is a part of the other. -/
def merge (overwrite : Bool) (other t : VN) : VN := mergeLoop overwrite other.children t

mutual
/-- The same tree without the capacities: a tree of `Model/PropNode.lean`. -/
def toPN : VN → PN
  | mk a v _ cs => .mk a v (toPNAll cs)
/-- All children. -/
def toPNAll : List (Str × VN) → List (Str × PN)
  | [] => []
  | (k, n) :: r => (k, toPN n) :: toPNAll r
end

end VN

end Flut
