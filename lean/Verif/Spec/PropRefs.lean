import Verif.Model.PropRefs
import Verif.Spec.Data

/-!
# What references to nodes of a property tree refer to

Here a reference is the path of its node. It can be lost: when a node whose vector of children is full gets another child, when it gets more room and when it is
cleared, all references to nodes below it are lost; when a child gets a value with `set`, those below the child are lost.
-/

namespace Flut

namespace VN

/-- The node at a path. -/
def nodeAt : List Nat → VN → Option VN
  | [], x => some x
  | i :: p, x => match x.children[i]? with
    | none => none
    | some kx => nodeAt p kx.2

/-- Another node at a path. -/
def replaceAt (y : VN) : List Nat → VN → VN
  | [], _ => y
  | i :: p, mk a v c cs => mk a v c (cs.modify i fun kx => (kx.1, replaceAt y p kx.2))

/-- No room for another child. -/
def full (x : VN) : Bool := decide (x.cap ≤ x.children.length)

/-- After a call on a node: the node, the child that a reference to is returned, the value that is returned, and the node (by its path from this one) below which
references are lost. -/
structure Change where
  node : VN
  made : Option Nat
  out : Option Str
  lost : Option (List Nat)

/-- References below a node are lost if it was full. -/
def lostIf (b : Bool) : Option (List Nat) := if b then some [] else none

/-- A call on a node of `Model/PropMemory.lean`, and the references that are lost. -/
def change (other : Option VN) : NodeAct → VN → Res Change
  | .pushBack key, x => .ok ⟨pushMove key nil x, some x.children.length, none, lostIf x.full⟩
  | .pushCopy key _, x => match other with
    | none => .ub
    | some y => .ok ⟨pushBack key y x, some x.children.length, none, lostIf x.full⟩
  | .getOrAdd key, x => match findIdx key x.children with
    | none => .ok ⟨getOrAdd key x, some x.children.length, none, lostIf x.full⟩
    | some i => .ok ⟨getOrAdd key x, some i, none, none⟩
  | .getChild key, x => match findIdx key x.children with
    | none => .throws .flutError
    | some i => .ok ⟨x.access, some i, none, none⟩
  | .getIndex i, x => if i < x.children.length then .ok ⟨x.access, some i, none, none⟩ else .throws .assertion
  | .setValue v, mk a _ c cs => .ok ⟨mk a v c cs, none, none, none⟩
  | .set key v, x => match findIdx key x.children with
    | none => .ok ⟨setValue key (leaf v) x, none, none, lostIf x.full⟩
    | some i => .ok ⟨setValue key (leaf v) x, none, none, some [i]⟩
  | .reserve m, x => .ok ⟨reserve m x, none, none, lostIf (decide (x.cap < m))⟩
  | .clear, mk a _ c _ => .ok ⟨mk a [] c [], none, none, some []⟩
  | .read, x => .ok ⟨x.access, none, some x.value, none⟩

end VN

namespace BN

mutual
/-- The node without the identities of blocks. -/
def toVN : BN → VN
  | mk a v _ c cs => .mk a v c (toVNAll cs)
def toVNAll : List (Str × BN) → List (Str × VN)
  | [] => []
  | (k, x) :: r => (k, toVN x) :: toVNAll r
end

/-- The room that the vector of children has. -/
def cap : BN → Nat | mk _ _ _ c _ => c

end BN

/-- A program with a tree and references to its nodes: paths, or nothing for references that are lost. -/
structure PathRefs where
  tree : VN
  refs : List (Option (List Nat))

namespace PathRefs

/-- An empty tree and a reference to it. -/
def start : PathRefs := ⟨.nil, [some []]⟩

/-- Using a reference. -/
def deref (r : Nat) (s : PathRefs) : Res (List Nat × VN) :=
  match s.refs[r]? with
  | some (some p) => match VN.nodeAt p s.tree with
    | some x => .ok (p, x)
    | none => .ub
  | _ => .ub

/-- A reference after those to nodes below `l` were lost. -/
def keep (l : List Nat) : Option (List Nat) → Option (List Nat)
  | none => none
  | some q => if l <+: q ∧ l ≠ q then none else some q

/-- Using a reference that may not be needed. -/
def derefOther (o : Option Nat) (s : PathRefs) : Res (Option VN) :=
  match o with
  | none => .ok none
  | some r => do
    let (_, y) ← s.deref r
    .ok (some y)

/-- One call through a reference. -/
def step (r : Nat) (a : NodeAct) (s : PathRefs) : Res (PathRefs × Option Str) := do
  let (p, x) ← s.deref r
  let other ← s.derefOther a.other
  let d ← VN.change other a x
  let refs := match d.lost with
    | none => s.refs
    | some l => s.refs.map (keep (p ++ l))
  .ok (⟨VN.replaceAt d.node p s.tree, refs ++ (d.made.map fun i => some (p ++ [i])).toList⟩, d.out)

/-- A sequence of calls, and the values that were read. -/
def run : List (Nat × NodeAct) → PathRefs → Res (PathRefs × List Str)
  | [], s => .ok (s, [])
  | (r, a) :: as, s => do
    let (s, o) ← step r a s
    let (s, os) ← run as s
    .ok (s, o.toList ++ os)

end PathRefs

/-- Calls that keep all references: those that add a child while there is room, and those that change no vector. -/
def NodeAct.Keeps (y : BN) : NodeAct → Prop
  | .pushBack _ | .pushCopy _ _ => y.children.length < y.cap
  | .getOrAdd key => y.children.length < y.cap ∨ ∃ i, BN.findIdx key y.children = some i
  | .set key _ => y.children.length < y.cap ∧ BN.findIdx key y.children = none
  | .reserve m => m ≤ y.cap
  | .clear => False
  | .getChild _ | .getIndex _ | .setValue _ | .read => True

/-- The calls that make all references to nodes below invalid: those that add a child when there is no room, those that make more room, and `clear`. -/
def NodeAct.Loses (y : BN) : NodeAct → Prop
  | .pushBack _ | .pushCopy _ _ => y.cap ≤ y.children.length
  | .getOrAdd key | .set key _ => y.cap ≤ y.children.length ∧ BN.findIdx key y.children = none
  | .reserve m => y.cap < m
  | .clear => True
  | .getChild _ | .getIndex _ | .setValue _ | .read => False

end Flut
