import Verif.Model.Threads

/-! # Specification of the use of trees by several threads -/

namespace Flut.Threads

/-- Two threads use the same place, one of them writes, and not both accesses are atomic: undefined behaviour, because nothing orders them. -/
def Race {L : Type} (log : List (Access L)) : Prop :=
  ∃ a ∈ log, ∃ b ∈ log, a.thread ≠ b.thread ∧ a.loc = b.loc ∧ (a.kind ≠ .read ∨ b.kind ≠ .read) ∧ ¬(a.kind = .atomic ∧ b.kind = .atomic)

/-- The node that a call is for. -/
def Call.node : Call → List Nat
  | .hasValue p | .size p | .empty p | .copy _ p | .isAccessed p | .countUnaccessed _ p | .getValue p | .get p | .getAll p | .hasKey p _
  | .hasValueAt p _ | .getChild p _ | .getChildAt p _ | .getKey p _ | .getKeyed p _ | .getDef p _ _ | .tryGetChild p _ => p

/-- The calls that have nothing to do with access flags. -/
def Call.quiet : Call → Bool
  | .hasValue _ | .size _ | .empty _ | .copy _ _ => true
  | _ => false

/-- The calls that mark their node whatever the tree is. -/
def Call.marks : Call → Bool
  | .getValue _ | .get _ | .getAll _ | .hasKey _ _ | .hasValueAt _ _ | .getChild _ _ | .getKeyed _ _ | .getDef _ _ _ | .tryGetChild _ _ => true
  | _ => false

/-- A returned node is at or below `r`. -/
def AnsIn (r : List Nat) : Res Ans → Prop
  | .ok (.ref (some q)) => r <+: q
  | _ => True

/-- The thread keeps to the nodes at and below `r`, apart from calls that have nothing to do with flags. -/
def Client.Within (r : List Nat) : Client → Prop
  | .done => True
  | .call c next => (c.quiet = true ∨ r <+: c.node) ∧ ∀ a, AnsIn r a → (next a).Within r

/-- The thread never has anything to do with flags. -/
def Client.Quiet : Client → Prop
  | .done => True
  | .call c next => c.quiet = true ∧ ∀ a, (next a).Quiet

/-- A thread with a part of the tree of its own, or without one. -/
def Client.KeepsTo : Option (List Nat) → Client → Prop
  | some r, c => c.Within r
  | none, c => c.Quiet

/-- Neither node is below the other. -/
def Apart : Option (List Nat) → Option (List Nat) → Prop
  | some r, some r' => ¬ r <+: r' ∧ ¬ r' <+: r
  | _, _ => True

/-- The tree with another node at the end of the way `p`. -/
def replaceAt : PN → List Nat → PN → PN
  | _, [], n => n
  | .mk a v cs, i :: p, n => .mk a v (cs.modify i fun kn => (kn.1, replaceAt kn.2 p n))

mutual
/-- The number of levels of a tree. -/
def levels : PN → Nat
  | .mk _ _ cs => levelsAll cs + 1
/-- That of a list of trees. -/
def levelsAll : List (Str × PN) → Nat
  | [] => 0
  | (_, n) :: cs => max (levels n) (levelsAll cs)
end

/-- What a call does to a node when nothing else goes on: its answer and the node afterwards, by the model of property trees without threads. -/
def Call.sequential (n : PN) : Call → Res Ans × PN
  | .hasValue _ => (.ok (.bool n.hasValue), n)
  | .size _ => (.ok (.nat n.size), n)
  | .empty _ => (.ok (.bool n.empty), n)
  | .copy _ _ => (.ok (.tree n.clear), n)
  | .isAccessed _ => (.ok (.bool n.acc), n)
  | .countUnaccessed _ _ => (.ok (.nat n.countUnaccessed), n)
  | .getValue _ => (.ok (.text n.value), n.access)
  | .get _ => match n.get (PN.castStr .ok) with
    | .ok (s, n') => (.ok (.text s), n')
    | _ => (.ub, n)
  | .getAll _ => (.ok (.texts (n.children.map (·.2.value))), .mk true n.value (n.children.map fun kn => (kn.1, kn.2.access)))
  | .hasKey _ key => (.ok (.bool (n.hasKey key).1), (n.hasKey key).2)
  | .hasValueAt _ key => match n.hasValueAt key with
    | .ok (b, n') => (.ok (.bool b), n')
    | _ => (.ub, n)
  | .getChild p key => match n.getChild key with
    | .ok (i, n') => (.ok (.ref (some (p ++ [i]))), n')
    | _ => (.throws .flutError, n.access)
  | .getChildAt p i => match n.getChildAt i with
    | .ok (_, n') => (.ok (.ref (some (p ++ [i]))), n')
    | _ => (.throws .assertion, n)
  | .getKey _ i => match n.getKey i with
    | .ok (k, n') => (.ok (.text k), n')
    | _ => (.throws .assertion, n)
  | .getKeyed _ key => match n.getKeyed (PN.castStr .ok) key with
    | .ok (s, n') => (.ok (.text s), n')
    | _ => (.throws .flutError, n.access)
  | .getDef _ key dflt => match n.getDef (PN.castStr .ok) key dflt with
    | .ok (s, n') => (.ok (.text s), n')
    | _ => (.ub, n)
  | .tryGetChild p key => (.ok (.ref ((n.tryGetChild key).1.map fun i => p ++ [i])), (n.tryGetChild key).2)

/-- The bound on the depth of a recursive call is large enough for the node. -/
def Call.deepEnough (n : PN) : Call → Prop
  | .copy d _ | .countUnaccessed d _ => levels n ≤ d
  | _ => True

end Flut.Threads
