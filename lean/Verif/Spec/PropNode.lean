import Verif.Spec.PropText

/-! # Specifications for `prop_node`

The trees of the model are used, but none of its functions. -/

namespace Flut.Spec

/-- The first child with a given key. -/
def firstChild (key : Str) : List (Str × PN) → Option PN
  | [] => none
  | (k, n) :: r => if k = key then some n else firstChild key r

/-- The last child with a given key. -/
def lastChild (key : Str) : List (Str × PN) → Option PN
  | [] => none
  | (k, n) :: r => match lastChild key r with
    | some m => some m
    | none => if k = key then some n else none

/-- The children of a node. -/
def kids : PN → List (Str × PN) | .mk _ _ cs => cs

/-- The node at a path of keys, taking the first child with each key. -/
def nodeAt : List Str → PN → Option PN
  | [], n => some n
  | k :: ks, .mk _ _ cs => match firstChild k cs with
    | none => none
    | some c => nodeAt ks c

/-- The pieces of a string between delimiters: `"a.b."` has the pieces `"a"`, `"b"`, `""`. -/
def segments (delim : Byte) : Str → List Str
  | [] => [[]]
  | c :: cs => if c = delim then [] :: segments delim cs else
    match segments delim cs with
    | [] => [[c]]
    | s :: r => (c :: s) :: r

/-- Two optional nodes have the same content. -/
inductive SameOpt : Option PN → Option PN → Prop
  | none : SameOpt none none
  | some {m n} : SameTree m n → SameOpt (some m) (some n)

mutual
/-- The access flags of a node and all its descendants. -/
def flags : PN → List Bool
  | .mk a _ cs => a :: flagsAll cs
/-- The access flags of a list of children. -/
def flagsAll : List (Str × PN) → List Bool
  | [] => []
  | (_, n) :: r => flags n ++ flagsAll r
end

/-- The two trees have the same content, and each flag set in the first is set in the second. -/
inductive MoreAccessed : PN → PN → Prop
  | mk {a b v cs ds} : (a = true → b = true) → cs.map Prod.fst = ds.map Prod.fst →
      (∀ p ∈ cs.zip ds, MoreAccessed p.1.2 p.2.2) → MoreAccessed (.mk a v cs) (.mk b v ds)

/-- The keys of a list that are new with respect to those seen before, each once, in order of first occurrence. -/
def newKeys (seen : List Str) : List Str → List Str
  | [] => []
  | k :: ks => if k ∈ seen then newKeys seen ks else k :: newKeys (seen ++ [k]) ks

end Flut.Spec
