import Verif.Model.PropMemory

/-!
# References to nodes of a property tree

`Model/PropMemory.lean` has the vectors of children with their capacities. Here each vector also has the identity of the block of memory that holds its
elements, and a reference to a node, as `push_back`, `operator[]` and `get_child` of flut/prop_node.hpp return it, is a place in a block. A reference can be
used while the block is that of some vector of the tree.
-/

namespace Flut

/-- `class prop_node`, flut/prop_node.hpp:27-217: access flag, value, block and capacity of the vector of children, children. A vector without capacity has an
identity too, which no reference has. -/
inductive BN where
  | mk (acc : Bool) (value : Str) (block : Nat) (cap : Nat) (children : List (Str × BN))

namespace BN

/-- The value (flut/prop_node.hpp:215). -/
def value : BN → Str | mk _ v _ _ _ => v
/-- The block that `children.data()` points to. -/
def block : BN → Nat | mk _ _ b _ _ => b
/-- The children (flut/prop_node.hpp:216). -/
def children : BN → List (Str × BN) | mk _ _ _ _ cs => cs

/-- `prop_node( const value_t& )` (flut/prop_node.hpp:40). -/
def leaf (v : Str) (n : Nat) : BN := mk false v n 0 []

mutual
/-- The copy constructor (flut/prop_node.hpp:42): all vectors get blocks of their own. Blocks are numbered; `n` is the first number that was not used, and the
first result is the first that is not used afterwards. -/
def copy (n : Nat) : BN → Nat × BN
  | mk _ v _ _ cs => ((copyAll (n + 1) cs).1, mk false v n cs.length (copyAll (n + 1) cs).2)
/-- Copies of all elements. -/
def copyAll (n : Nat) : List (Str × BN) → Nat × List (Str × BN)
  | [] => (n, [])
  | (k, x) :: r => ((copyAll (copy n x).1 r).1, (k, (copy n x).2) :: (copyAll (copy n x).1 r).2)
end

/-- `access()` (flut/prop_node.hpp:211-212). -/
def access : BN → BN | mk _ v b c cs => mk true v b c cs

/-- `children.emplace_back( ... )` of a node that has been made (flut/prop_node.hpp:123-130). A full vector takes a new block and copies its elements, because
the move constructor is not `noexcept`. -/
def push (key : Str) (x : BN) (n : Nat) : BN → Nat × BN
  | mk a v b c cs =>
    if cs.length < c then (n, mk a v b c (cs ++ [(key, x)]))
    else ((copyAll (n + 1) cs).1, mk a v n (cs.length + max cs.length 1) ((copyAll (n + 1) cs).2 ++ [(key, x)]))

/-- `std::find_if` on the keys (flut/prop_node.hpp:185-186). -/
def findIdx (key : Str) : List (Str × BN) → Option Nat
  | [] => none
  | (k, _) :: r => if k = key then some 0 else (findIdx key r).map (· + 1)

/-- `reserve` (flut/prop_node.hpp:140). -/
def reserve (m n : Nat) : BN → Nat × BN
  | mk a v b c cs => if c < m then ((copyAll (n + 1) cs).1, mk a v n m (copyAll (n + 1) cs).2) else (n, mk a v b c cs)

/-- `clear` (flut/prop_node.hpp:90). The vector keeps its memory, but references to the elements must not be used again, also when there are new
elements: it counts as a new block. -/
def clear (n : Nat) : BN → Nat × BN
  | mk a _ _ c _ => (n + 1, mk a [] n c [])

end BN

/-- What a program does with a node that it has a reference to. -/
inductive NodeAct where
  /-- `auto& x = node.push_back( key )` -/
  | pushBack (key : Str)
  /-- `auto& x = node.push_back( key, other )`, where `other` is a reference too -/
  | pushCopy (key : Str) (other : Nat)
  /-- `auto& x = node[ key ]` -/
  | getOrAdd (key : Str)
  /-- `auto& x = node.get_child( key )` -/
  | getChild (key : Str)
  /-- `auto& x = node.get_child( idx )` -/
  | getIndex (idx : Nat)
  /-- `node.set_value( v )` -/
  | setValue (v : Str)
  /-- `node.set( key, v )` for a string -/
  | set (key : Str) (v : Str)
  /-- `node.reserve( m )` -/
  | reserve (m : Nat)
  /-- `node.clear()` -/
  | clear
  /-- `node.get_value()` -/
  | read

/-- The other node that is used. -/
def NodeAct.other : NodeAct → Option Nat
  | .pushCopy _ o => some o
  | _ => none

namespace BN

/-- What there is after a call on a node: the first number of a block that was not used, the node, the child that a reference to is returned, and the value that is
returned. -/
structure Did where
  next : Nat
  node : BN
  made : Option Nat
  out : Option Str

/-- A call on a node. `other` is the other node that is used. -/
def act (n : Nat) (other : Option BN) : NodeAct → BN → Res Did
  /- flut/prop_node.hpp:129-130 -/
  | .pushBack key, x => .ok ⟨(push key (leaf [] n) (n + 1) x).1, (push key (leaf [] n) (n + 1) x).2, some x.children.length, none⟩
  /- flut/prop_node.hpp:125-126: `make_pair` copies the node first -/
  | .pushCopy key _, x => match other with
    | none => .ub
    | some y => .ok ⟨(push key (copy n y).2 (copy n y).1 x).1, (push key (copy n y).2 (copy n y).1 x).2, some x.children.length, none⟩
  /- flut/prop_node.hpp:169-170 and 178 -/
  | .getOrAdd key, mk _ v b c cs => match findIdx key cs with
    | none =>
      .ok ⟨(push key (leaf [] n) (n + 1) (mk true v b c cs)).1, (push key (leaf [] n) (n + 1) (mk true v b c cs)).2, some cs.length, none⟩
    | some i => .ok ⟨n, mk true v b c (cs.modify i fun kx => (kx.1, kx.2.access)), some i, none⟩
  /- flut/prop_node.hpp:145-146 -/
  | .getChild key, mk _ v b c cs => match findIdx key cs with
    | none => .throws .flutError
    | some i => .ok ⟨n, mk true v b c cs, some i, none⟩
  /- flut/prop_node.hpp:150 -/
  | .getIndex i, mk _ v b c cs => if i < cs.length then .ok ⟨n, mk true v b c cs, some i, none⟩ else .throws .assertion
  /- flut/prop_node.hpp:96-97 -/
  | .setValue v, mk a _ b c cs => .ok ⟨n, mk a v b c cs, none, none⟩
  /- flut/prop_node.hpp:100-101, 106 and 51: a new node is moved into the vector, or its members into those of the child -/
  | .set key w, mk _ v b c cs => match findIdx key cs with
    | none => .ok ⟨(push key (leaf w n) (n + 1) (mk true v b c cs)).1, (push key (leaf w n) (n + 1) (mk true v b c cs)).2, none, none⟩
    | some i => .ok ⟨n + 1, mk true v b c (cs.modify i fun kx => (kx.1, match kx.2 with | mk a _ _ _ _ => mk a w n 0 [])), none, none⟩
  | .reserve m, x => .ok ⟨(reserve m n x).1, (reserve m n x).2, none, none⟩
  | .clear, x => .ok ⟨(clear n x).1, (clear n x).2, none, none⟩
  /- flut/prop_node.hpp:93 -/
  | .read, x => .ok ⟨n, x.access, none, some x.value⟩

/-- The node at a path: the number of a child, then the number of one of its children, and so on. -/
def nodeAt : List Nat → BN → Option BN
  | [], x => some x
  | i :: p, x => match x.children[i]? with
    | none => none
    | some kx => nodeAt p kx.2

/-- Another node at a path. -/
def replaceAt (y : BN) : List Nat → BN → BN
  | [], _ => y
  | i :: p, mk a v b c cs => mk a v b c (cs.modify i fun kx => (kx.1, replaceAt y p kx.2))

mutual
/-- The path of the node whose vector has the given block. -/
def locate (b : Nat) : BN → Option (List Nat)
  | mk _ _ b' _ cs => if b = b' then some [] else locateAll b 0 cs
/-- The same among children, the first of which is number `i`. -/
def locateAll (b : Nat) (i : Nat) : List (Str × BN) → Option (List Nat)
  | [] => none
  | (_, x) :: r => match locate b x with
    | some p => some (i :: p)
    | none => locateAll b (i + 1) r
end

end BN

/-- A reference to a node: the variable that holds the tree, or a place in a block. -/
inductive NodePtr where
  | root
  | elem (block idx : Nat)

/-- The path of the node that a reference refers to, if there is one. -/
def NodePtr.path (t : BN) : NodePtr → Option (List Nat)
  | .root => some []
  | .elem b i => match BN.locate b t with
    | none => none
    | some p => match BN.nodeAt p t with
      | none => none
      | some x => if i < x.children.length then some (p ++ [i]) else none

/-- A program with a tree and references to its nodes. -/
structure PropRefs where
  next : Nat
  tree : BN
  ptrs : List NodePtr

namespace PropRefs

/-- A tree in a variable, and one reference to it. -/
def start : PropRefs := ⟨1, .leaf [] 0, [.root]⟩

/-- Using a reference: the path of the node, and the node. -/
def deref (r : Nat) (s : PropRefs) : Res (List Nat × BN) :=
  match s.ptrs[r]? with
  | none => .ub
  | some q => match q.path s.tree with
    | none => .ub
    | some p => match BN.nodeAt p s.tree with
      | none => .ub
      | some x => .ok (p, x)

/-- Using a reference that may not be needed. -/
def derefOther (o : Option Nat) (s : PropRefs) : Res (Option BN) :=
  match o with
  | none => .ok none
  | some r => do
    let (_, y) ← s.deref r
    .ok (some y)

/-- One call through a reference; if it returns a reference to a child, the program keeps it. -/
def step (r : Nat) (a : NodeAct) (s : PropRefs) : Res (PropRefs × Option Str) := do
  let (p, x) ← s.deref r
  let other ← s.derefOther a.other
  let d ← BN.act s.next other a x
  .ok (⟨d.next, BN.replaceAt d.node p s.tree, s.ptrs ++ (d.made.map (NodePtr.elem d.node.block)).toList⟩, d.out)

/-- A sequence of calls, and the values that were read. -/
def run : List (Nat × NodeAct) → PropRefs → Res (PropRefs × List Str)
  | [], s => .ok (s, [])
  | (r, a) :: as, s => do
    let (s, o) ← step r a s
    let (s, os) ← run as s
    .ok (s, o.toList ++ os)

end PropRefs

end Flut
