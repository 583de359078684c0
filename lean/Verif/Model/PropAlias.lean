import Verif.Model.PropMemory

/-!
# Nodes that are assigned or merged with a part of themselves

`Model/PropMemory.lean` has these operations for two nodes that are not parts of each other. Here the second node is a child of the first. The code
passes it by reference, so it changes, moves or dies during the operation. The vector is that of libstdc++ (bits/vector.tcc, `operator=`).
-/

namespace Flut

namespace VN

/-- `n = n[ i ]`, that is `operator=( const prop_node& )` (flut/prop_node.hpp:50) where the other node is the `i`-th child of this one. The vector copies the
elements of the child to a new block if they do not fit into the old one. Otherwise it assigns them one by one to the first children; the assignment to
the `i`-th child is again the assignment of a node by its own `i`-th child, and changes the vector that the further elements are read from:
it may have a new block, and it may be shorter. Elements that the node did not have before are copied from what the vector is then, until its end. -/
def assignOwn (i : Nat) : VN → Res VN
  | mk a _ c cs => match h : cs[i]? with
    | none => .ub
    | some (_, n) =>
      if c < n.children.length then .ok (mk a n.value n.children.length (copyAll n.children))
      else match n.children[i]? with
        | none => .ok (mk a n.value c (assignAll cs n.children))
        | some (k', m) => do
          let n' ← assignOwn i n
          let front := assignAll (cs.take i) (n.children.take i) ++ [(k', n')]
          if n.children.length = i + 1 then .ok (mk a n.value c front)
          else if i + 1 < cs.length ∧ n.cap < m.children.length then .ub
          else if n'.children.length < n.children.length then .ub
          else if cs.length < n.children.length ∧ c < n'.children.length then .ub
          else .ok (mk a n.value c (front ++ assignAll (cs.drop (i + 1)) ((n'.children.take n.children.length).drop (i + 1))))
termination_by t => sizeOf t
decreasing_by
  have h1 := List.sizeOf_lt_of_mem (List.mem_of_getElem? h)
  simp at h1 ⊢
  omega

/-- `n = std::move( n[ i ] )` (flut/prop_node.hpp:51): the vector takes the block of the child, and its own block is destroyed with all children. -/
def moveOwn (i : Nat) : VN → Res VN
  | mk a _ _ cs => match cs[i]? with
    | none => .ub
    | some (_, mk _ w d ds) => .ok (mk a w d ds)

/-- The loop of `merge_prop_nodes( n, n[ i ], false )` (flut/prop_node_tools.cpp:245-255). The first argument is what the range-based `for` still has to visit in
the block of the child; that block is freed when the vector of the node takes a new block. -/
def mergeOwnLoop : List (Str × VN) → VN → Res VN
  | [], t => .ok t
  | (k, n) :: r, mk _ v c cs => match findIdx k cs with
    | some _ => mergeOwnLoop r (mk true v c cs)
    | none => if cs.length < c ∨ r = [] then mergeOwnLoop r (pushBack k n (mk true v c cs)) else .ub

/-- `merge_prop_nodes( n, n[ i ], false )` (flut/prop_node_tools.cpp:245-255). -/
def mergeOwn (i : Nat) : VN → Res VN
  | mk a v c cs => match cs[i]? with
    | none => .ub
    | some (_, n) => mergeOwnLoop n.children (mk a v c cs)

/-- The index of a child that `operator[]( key )` has returned a reference to. -/
def entryIdx (key : Str) (t : VN) : Nat := (findIdx key t.children).getD 0

/-- Whether `operator[]( key )` (flut/prop_node.hpp:178) makes the vector take a new block, after which references to children are dangling. -/
def newBlock (key : Str) (t : VN) : Bool := (findIdx key t.children).isNone && decide (t.cap ≤ t.children.length)

/-- `n[ key ] = n[ from ]`: two calls of `operator[]` (flut/prop_node.hpp:178), and then `operator=( const prop_node& )` (line 50) with the two references. The
right one is evaluated first since C++17; before, either may be. Assigning a child to itself changes nothing. -/
def assignEntry (rightFirst : Bool) (key source : Str) (t : VN) : Res VN :=
  let first := if rightFirst then source else key
  let second := if rightFirst then key else source
  if newBlock second (getOrAdd first t) then .ub
  else match getOrAdd second (getOrAdd first t) with
    | mk a v c cs =>
      let i := entryIdx source (mk a v c cs)
      let j := entryIdx key (mk a v c cs)
      if i = j then .ok (mk a v c cs)
      else match cs[i]? with
        | none => .ub
        | some (_, n) => .ok (mk a v c (modifyAt (assign · n) j cs))

end VN

end Flut
