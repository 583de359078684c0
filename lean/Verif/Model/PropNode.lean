import Verif.Model.Strings
import Verif.Model.Text

/-!
# Model of `flut/prop_node.hpp` and `flut/prop_node.cpp`

A `prop_node` is a tree. Reading operations set the (mutable) access flag, so a read returns the
tree after the call as well. Values of type `T` enter and leave the tree through `prop_node_cast<T>`.

Simplification: when the vector of children reallocates or shifts (`push_back`, `insert`, `erase`), C++ copies or
moves the children and thereby resets or misplaces some of their access flags, depending on capacity and library.
The model keeps the flags with their nodes. Theorems about operations that add or remove children are therefore
about values, keys and children, not about flags.
-/

namespace Flut

/-- `class prop_node`, /repo/flut/prop_node.hpp:27-217: access flag, value, children in order. -/
inductive PN where
  | mk (acc : Bool) (value : Str) (children : List (Str × PN))

namespace PN

/-- The access flag, /repo/flut/prop_node.hpp:206. -/
def acc : PN → Bool | mk a _ _ => a
/-- The value string. -/
def value : PN → Str | mk _ v _ => v
/-- The children in order. -/
def children : PN → List (Str × PN) | mk _ _ c => c

/-- `prop_node()`, /repo/flut/prop_node.hpp:38. -/
def nil : PN := mk false [] []

/-- `prop_node(const value_t&)`, /repo/flut/prop_node.hpp:40. -/
def leaf (v : Str) : PN := mk false v []

mutual
/-- A copy, /repo/flut/prop_node.hpp:42: the flags of the copy and of all its descendants are not set. Also
`clear_accessed_recursively`, /repo/flut/prop_node.hpp:208. -/
def clear : PN → PN
  | mk _ v cs => mk false v (clearAll cs)
/-- `clear` on a list of children. -/
def clearAll : List (Str × PN) → List (Str × PN)
  | [] => []
  | (k, n) :: r => (k, clear n) :: clearAll r
end

/-- `access()`, /repo/flut/prop_node.hpp:211-212. -/
def access : PN → PN | mk _ v cs => mk true v cs

/-- `operator=(const prop_node&)`, /repo/flut/prop_node.hpp:50: the flag of the target is kept. The flags of
its children are simplified to those of a copy; `Model/PropMemory.lean` has what a `std::vector` does with them (C134). -/
def assign : PN → PN → PN
  | mk a _ _, mk _ v cs => mk a v (clearAll cs)

/-- `size()`, /repo/flut/prop_node.hpp:84. -/
def size (n : PN) : Nat := n.children.length

/-- `has_value()`, /repo/flut/prop_node.hpp:77. -/
def hasValue (n : PN) : Bool := !n.value.isEmpty

/-- `empty()`, /repo/flut/prop_node.hpp:87. -/
def empty (n : PN) : Bool := n.value.isEmpty && n.children.isEmpty

/-- `std::find_if` on the keys, /repo/flut/prop_node.hpp:185-186: the index of the first child with this key. -/
def findIdx (key : Str) : List (Str × PN) → Option Nat
  | [] => none
  | (k, _) :: r => if k = key then some 0 else (findIdx key r).map (· + 1)

/-- Replace the child at an index. -/
def modifyAt (f : PN → PN) : Nat → List (Str × PN) → List (Str × PN)
  | _, [] => []
  | 0, (k, n) :: r => (k, f n) :: r
  | i + 1, kn :: r => kn :: modifyAt f i r

/-- `push_back(key, value)`, /repo/flut/prop_node.hpp:123-130 (the copied node has fresh flags). -/
def pushBack (key : Str) (v : PN) : PN → PN
  | mk a val cs => mk a val (cs ++ [(key, v.clear)])

/-- `set(key, v)`, /repo/flut/prop_node.hpp:100-106, where `v` is `prop_node_cast<T>::to` of the value. `find`
accesses this node (line 189). -/
def set (key : Str) (v : PN) : PN → PN
  | mk _ val cs => match findIdx key cs with
    | none => mk true val (cs ++ [(key, v.clear)])
    | some i => mk true val (modifyAt (assign · v) i cs)

/-- `has_value(key)`, /repo/flut/prop_node.hpp:78. -/
def hasValueAt (key : Str) : PN → Res (Bool × PN)
  | mk _ v cs => match findIdx key cs with
    | none => .ok (false, mk true v cs)
    | some i => match cs[i]? with
      | none => .ub
      | some kn => .ok (kn.2.hasValue, mk true v cs)

/-- `has_key`, /repo/flut/prop_node.hpp:81. -/
def hasKey (key : Str) : PN → Bool × PN
  | mk _ v cs => ((findIdx key cs).isSome, mk true v cs)

/-- `get_child(key)`, /repo/flut/prop_node.hpp:143-146. The result is the index of the child, through which the
returned reference is used, and the tree after the call. -/
def getChild (key : Str) : PN → Res (Nat × PN)
  | mk _ v cs => match findIdx key cs with
    | none => .throws .flutError
    | some i => .ok (i, mk true v cs)

/-- `get_child(idx)`, /repo/flut/prop_node.hpp:149-150: the contents of the child that the returned
reference stands for, with the flag of a copy. -/
def getChildAt (idx : Nat) : PN → Res (PN × PN)
  | mk _ v cs => match cs[idx]? with
    | none => .throws .assertion
    | some kn => .ok (kn.2.clear, mk true v cs)

/-- `get_key(idx)`, /repo/flut/prop_node.hpp:153. -/
def getKey (idx : Nat) : PN → Res (Str × PN)
  | mk _ v cs => match cs[idx]? with
    | none => .throws .assertion
    | some kn => .ok (kn.1, mk true v cs)

/-- `get<T>()`, /repo/flut/prop_node.hpp:59: `cast` is `prop_node_cast<T>::from`. Flags that `cast` itself sets
below this node are not recorded. -/
def get {α : Type} (cast : PN → Res α) (n : PN) : Res (α × PN) := do
  let a ← cast n.clear
  .ok (a, n.access)

/-- `get<T>(key)`, /repo/flut/prop_node.hpp:62. -/
def getKeyed {α : Type} (cast : PN → Res α) (key : Str) : PN → Res (α × PN)
  | mk _ v cs => match findIdx key cs with
    | none => .throws .flutError
    | some i => match cs[i]? with
      | none => .ub
      | some kn => do
        let a ← cast kn.2.clear
        .ok (a, mk true v (modifyAt access i cs))

/-- `get<T>(key, def)`, /repo/flut/prop_node.hpp:65-66. -/
def getDef {α : Type} (cast : PN → Res α) (key : Str) (dflt : α) : PN → Res (α × PN)
  | mk a v cs => match findIdx key cs with
    | none => .ok (dflt, mk true v cs)
    | some _ => getKeyed cast key (mk a v cs)

/-- `get_any(keys)`, /repo/flut/prop_node.hpp:73-74. -/
def getAny {α : Type} (cast : PN → Res α) : List Str → PN → Res (α × PN)
  | [], _ => .throws .flutError
  | key :: keys, mk a v cs => match findIdx key cs with
    | none => getAny cast keys (mk true v cs)
    | some _ => getKeyed cast key (mk a v cs)

/-- `get_any(keys, def)`, /repo/flut/prop_node.hpp:69-70. -/
def getAnyDef {α : Type} (cast : PN → Res α) : List Str → α → PN → Res (α × PN)
  | [], dflt, n => .ok (dflt, n)
  | key :: keys, dflt, mk a v cs => match findIdx key cs with
    | none => getAnyDef cast keys dflt (mk true v cs)
    | some _ => getKeyed cast key (mk a v cs)

/-- `try_get_child(key)`, /repo/flut/prop_node.hpp:156-159: the index of the child, if any. -/
def tryGetChild (key : Str) : PN → Option Nat × PN
  | mk _ v cs => match findIdx key cs with
    | none => (none, mk true v cs)
    | some i => (some i, mk true v (modifyAt access i cs))

/-- `get_or_add_child(key)`, /repo/flut/prop_node.hpp:169-170, also the non-const `operator[](key)` (line 178):
the index of the child and the tree after the call. -/
def getOrAddChild (key : Str) : PN → Nat × PN
  | mk _ v cs => match findIdx key cs with
    | none => (cs.length, mk true v (cs ++ [(key, nil)]))
    | some i => (i, mk true v (modifyAt access i cs))

/-- `try_get_child(key, default_node)`, /repo/flut/prop_node.hpp:173-174: the content of the node returned. -/
def tryGetChildOr (key : Str) (dflt : PN) (n : PN) : Res (PN × PN) :=
  match tryGetChild key n with
  | (none, n') => .ok (dflt, n')
  | (some i, n') => match n'.children[i]? with
    | none => .ub
    | some kn => .ok (kn.2, n')

/-- `try_get_child_delimited`, /repo/flut/prop_node.hpp:160-166: the content of the node returned, if any. The first
argument bounds the recursion depth. -/
def tryGetDelimitedN : Nat → Byte → Str → PN → Res (Option PN)
  | 0, _, _, _ => .diverges
  | n + 1, delim, key, t =>
    match findFirst (· == delim) key with
    | none => match tryGetChild key t with
      | (none, _) => .ok none
      | (some i, t') => match t'.children[i]? with
        | none => .ub
        | some kn => .ok (some kn.2)
    | some p => do
      let k ← substr key 0 (some p)
      match tryGetChild k t with
      | (none, _) => .ok none
      | (some i, t') => match t'.children[i]? with
        | none => .ub
        | some kn => do
          let r ← midStr key (p + 1)
          tryGetDelimitedN n delim r kn.2

/-- `try_get_child_delimited`, with a bound that always suffices. -/
def tryGetDelimited (delim : Byte) (key : Str) (t : PN) : Res (Option PN) :=
  tryGetDelimitedN (key.length + 1) delim key t

/-- `set_delimited`, /repo/flut/prop_node.hpp:109-113. The first argument bounds the recursion depth. -/
def setDelimitedN : Nat → Byte → Str → PN → PN → Res PN
  | 0, _, _, _, _ => .diverges
  | n + 1, delim, key, v, t =>
    match findFirst (· == delim) key with
    | none => .ok (set key v t)
    | some p => do
      let k ← substr key 0 (some p)
      let r ← midStr key (p + 1)
      match t.getOrAddChild k with
      | (i, mk a val cs) => match cs[i]? with
        | none => .ub
        | some kn => do
          let c ← setDelimitedN n delim r v kn.2
          .ok (mk a val (modifyAt (fun _ => c) i cs))

/-- `set_delimited`, with a bound that always suffices. -/
def setDelimited (delim : Byte) (key : Str) (v t : PN) : Res PN := setDelimitedN (key.length + 1) delim key v t

/-- `get_delimited`, /repo/flut/prop_node.hpp:116-120. -/
def getDelimitedN {α : Type} (cast : PN → Res α) : Nat → Byte → Str → PN → Res (α × PN)
  | 0, _, _, _ => .diverges
  | n + 1, delim, key, t =>
    match findFirst (· == delim) key with
    | none => getKeyed cast key t
    | some p => do
      let k ← substr key 0 (some p)
      let (i, t') ← getChild k t
      let r ← midStr key (p + 1)
      match t' with
      | mk a val cs => match cs[i]? with
        | none => .ub
        | some kn => do
          let (x, c) ← getDelimitedN cast n delim r kn.2
          .ok (x, mk a val (modifyAt (fun _ => c) i cs))

/-- `get_delimited`, with a bound that always suffices. -/
def getDelimited {α : Type} (cast : PN → Res α) (delim : Byte) (key : Str) (t : PN) : Res (α × PN) :=
  getDelimitedN cast (key.length + 1) delim key t

mutual
/-- `operator==`, /repo/flut/prop_node.cpp:54-71. -/
def eqv : PN → PN → Bool
  | mk _ v cs, mk _ v' cs' => decide (v = v') && decide (cs.length = cs'.length) && eqvAll cs cs'
/-- The loop of `operator==`, /repo/flut/prop_node.cpp:62-68. -/
def eqvAll : List (Str × PN) → List (Str × PN) → Bool
  | (k, n) :: r, (k', n') :: r' => decide (k = k') && eqv n n' && eqvAll r r'
  | _, _ => true
end

mutual
/-- `count_unaccessed`, /repo/flut/prop_node.hpp:207. -/
def countUnaccessed : PN → Nat
  | mk a _ cs => (if a then 0 else 1) + countUnaccessedAll cs
/-- The loop of `count_unaccessed`. -/
def countUnaccessedAll : List (Str × PN) → Nat
  | [] => 0
  | (_, n) :: r => countUnaccessed n + countUnaccessedAll r
end

/-- `erase(it)`, /repo/flut/prop_node.hpp:203, for a position below `size()`. -/
def eraseAt (i : Nat) : PN → Res PN
  | mk a v cs => if i < cs.length then .ok (mk a v (cs.eraseIdx i)) else .ub

/-- `insert(pos, first, last)`, /repo/flut/prop_node.hpp:133-137: copies of the given children. -/
def insertAt (i : Nat) (new : List (Str × PN)) : PN → Res PN
  | mk a v cs => if i ≤ cs.length then .ok (mk a v (cs.take i ++ clearAll new ++ cs.drop i)) else .ub

/-- The loop of `merge_prop_nodes`, /repo/flut/prop_node_tools.cpp:247-254, on the children of `pn` (`cs`) and of
`other`. -/
def mergeLoop (overwrite : Bool) : List (Str × PN) → List (Str × PN) → List (Str × PN)
  | cs, [] => cs
  | cs, (k, n) :: r => match findIdx k cs with
    | none => mergeLoop overwrite (cs ++ [(k, n.clear)]) r
    | some i => mergeLoop overwrite (if overwrite then modifyAt (assign · n) i cs else cs) r

/-- `merge_prop_nodes`, /repo/flut/prop_node_tools.cpp:245-255, for two different nodes. `find` accesses `pn` if
`other` has children. -/
def merge (overwrite : Bool) (other : PN) : PN → PN
  | mk a v cs => mk (a || !other.children.isEmpty) v (mergeLoop overwrite cs other.children)

/-- Iterating a `view_if` from a position to its end, /repo/flut/container_tools.hpp:73-86: the elements visited.
`next_match` (line 75) skips elements that do not satisfy the predicate. The first argument bounds the number of
increments. -/
def viewLoop {α : Type} (p : α → Bool) : Nat → List α → Res (List α)
  | 0, _ => .diverges
  | n + 1, l => match l.dropWhile (fun a => !p a) with
    | [] => .ok []
    | a :: r => do
      let t ← viewLoop p n r
      .ok (a :: t)

/-- Iterating a whole `view_if`. -/
def viewIf {α : Type} (p : α → Bool) (l : List α) : Res (List α) := viewLoop p (l.length + 1) l

/-- `select(key)`, /repo/flut/prop_node.hpp:199. -/
def select (key : Str) : PN → Res (List (Str × PN))
  | mk _ _ cs => viewIf (fun kn => decide (kn.1 = key)) cs

/-! ### Read histories -/

/-- The reading operations of `prop_node`. `child i op` is `op` on the `i`-th child, through a reference obtained
earlier. The results are dropped; `cast` stands for any conversion. -/
inductive ReadOp where
  | hasKey (key : Str)
  | hasValueAt (key : Str)
  | getChild (key : Str)
  | getChildAt (i : Nat)
  | getKey (i : Nat)
  | get (cast : PN → Res Unit)
  | getKeyed (cast : PN → Res Unit) (key : Str)
  | getDef (cast : PN → Res Unit) (key : Str)
  | getAny (cast : PN → Res Unit) (keys : List Str)
  | getAnyDef (cast : PN → Res Unit) (keys : List Str)
  | tryGetChild (key : Str)
  | getDelimited (cast : PN → Res Unit) (delim : Byte) (key : Str)
  | child (i : Nat) (op : ReadOp)

/-- The tree after a reading operation. -/
def ReadOp.run : ReadOp → PN → Res PN
  | .hasKey k, t => .ok (PN.hasKey k t).2
  | .hasValueAt k, t => do let r ← PN.hasValueAt k t; .ok r.2
  | .getChild k, t => do let r ← PN.getChild k t; .ok r.2
  | .getChildAt i, t => do let r ← PN.getChildAt i t; .ok r.2
  | .getKey i, t => do let r ← PN.getKey i t; .ok r.2
  | .get cast, t => do let r ← PN.get cast t; .ok r.2
  | .getKeyed cast k, t => do let r ← PN.getKeyed cast k t; .ok r.2
  | .getDef cast k, t => do let r ← PN.getDef cast k () t; .ok r.2
  | .getAny cast ks, t => do let r ← PN.getAny cast ks t; .ok r.2
  | .getAnyDef cast ks, t => do let r ← PN.getAnyDef cast ks () t; .ok r.2
  | .tryGetChild k, t => .ok (PN.tryGetChild k t).2
  | .getDelimited cast d k, t => do let r ← PN.getDelimited cast d k t; .ok r.2
  | .child i op, .mk a v cs => match cs[i]? with
    | none => .ub
    | some kn => do
      let c ← op.run kn.2
      .ok (.mk a v (modifyAt (fun _ => c) i cs))

/-- A sequence of reading operations. -/
def runReads : List ReadOp → PN → Res PN
  | [], t => .ok t
  | op :: ops, t => do let t' ← op.run t; runReads ops t'

/-! ### `prop_node_cast` -/

/-- The keys of `prop_node_cast<vector<T>>::to`, /repo/flut/prop_node.hpp:229: `stringf("item%d", i)`. The conversion does not fit the type of `i`,
which is undefined (C131); this is the text that the platform of the model gives for indices below 2^31. -/
def itemKey (i : Nat) : Str := b!"item" ++ natStr i

/-- The loop of `prop_node_cast<vector<T>>::to`, /repo/flut/prop_node.hpp:229, from index `i`. -/
def toVecFrom {α : Type} (to : α → PN) : Nat → List α → List (Str × PN)
  | _, [] => []
  | i, x :: xs => (itemKey i, (to x).clear) :: toVecFrom to (i + 1) xs

/-- `prop_node_cast<vector<T>>::to`, /repo/flut/prop_node.hpp:228-229, where `to` is `prop_node_cast<T>::to`. -/
def toVec {α : Type} (to : α → PN) (xs : List α) : PN := .mk false [] (toVecFrom to 0 xs)

/-- The loop of `prop_node_cast<vector<T>>::from`, /repo/flut/prop_node.hpp:227. -/
def fromVecLoop {α : Type} (cast : PN → Res α) : List (Str × PN) → Res (List α)
  | [] => .ok []
  | (_, n) :: r => do
    let x ← cast n.clear
    let xs ← fromVecLoop cast r
    .ok (x :: xs)

/-- `prop_node_cast<vector<T>>::from`, /repo/flut/prop_node.hpp:226-227, where `cast` is
`prop_node_cast<T>::from`. -/
def fromVec {α : Type} (cast : PN → Res α) (n : PN) : Res (List α) := fromVecLoop cast n.children

/-- `prop_node_cast<T>::from` through `string_cast<T>::from`, /repo/flut/prop_node.hpp:244. -/
def castStr {α : Type} (ofStr : Str → Res α) (n : PN) : Res α := ofStr n.value

/-- `prop_node_cast<T>::to` through `string_cast<T>::to`, /repo/flut/prop_node.hpp:245. -/
def toStrNode {α : Type} (toStr : α → Str) (a : α) : PN := leaf (toStr a)

end PN

end Flut
