import Verif.Model.Include
import Verif.Spec.PropNode

/-! # Specifications for include resolution -/

namespace Flut.Spec

/-- No node of the tree below the root has the key `dir`, at any depth. -/
inductive NoDirective (dir : Str) : PN → Prop
  | mk {a v cs} : (∀ kn ∈ cs, kn.1 ≠ dir) → (∀ kn ∈ cs, NoDirective dir kn.2) → NoDirective dir (.mk a v cs)

/-- `d` is an include directive of the tree: a node with key `dir` that is not itself part of a directive. -/
inductive HasDirective (dir : Str) : PN → PN → Prop
  | here {a v cs d} : (dir, d) ∈ cs → HasDirective dir (.mk a v cs) d
  | inside {a v cs k n d} : (k, n) ∈ cs → k ≠ dir → HasDirective dir n d → HasDirective dir (.mk a v cs) d

/-- The file named by a directive that occurs in the file `file`: relative to the folder of `file`. -/
def Names (file : Str) (d : PN) (target : Str) : Prop :=
  ∃ folder c, parentPath file = .ok folder ∧ firstChild b!"file" (kids d) = some c ∧ target = join folder c.value

/-- There is a chain of `n` includes starting at `file`: the file can be loaded, has a directive naming the next
file, and so on. -/
inductive IncludeChain (load : Str → Res PN) (dir : Str) : Nat → Str → Prop
  | zero {file} : IncludeChain load dir 0 file
  | succ {n file t d target} : load file = .ok t → HasDirective dir t d → Names file d target →
      IncludeChain load dir n target → IncludeChain load dir (n + 1) file

/-- The children of a list whose keys are not among `seen`, only the first with each key. -/
def newKids (seen : List Str) : List (Str × PN) → List (Str × PN)
  | [] => []
  | (k, n) :: r => if k ∈ seen then newKids seen r else (k, n) :: newKids (seen ++ [k]) r

/-- The directive asks for merging: it has a child `merge_children` that reads as true. -/
def WantsMerge (asBool : Str → Bool) (d : PN) : Prop :=
  ∃ c, firstChild b!"merge_children" (kids d) = some c ∧ asBool c.value = true

mutual
/-- Expanding all directives of a node of the file `file`, where `Inc f t` says that the expanded file `f` is `t`. -/
inductive Expands (asBool : Str → Bool) (dir : Str) (Inc : Str → PN → Prop) (file : Str) : PN → PN → Prop
  | mk {a v cs ds} : ExpandsKids asBool dir Inc file [] cs ds → Expands asBool dir Inc file (.mk a v cs) (.mk a v ds)
/-- Expanding the children `rest` of a node after the children `done` have been expanded. An ordinary child is
expanded and kept. A directive is replaced by the only child of the included file; or, if merging, it is removed and the
children of that child with new keys are added at the end. -/
inductive ExpandsKids (asBool : Str → Bool) (dir : Str) (Inc : Str → PN → Prop) (file : Str) :
    List (Str × PN) → List (Str × PN) → List (Str × PN) → Prop
  | nil {done} : ExpandsKids asBool dir Inc file done [] done
  | keep {done k n n' rest res} : k ≠ dir → Expands asBool dir Inc file n n' →
      ExpandsKids asBool dir Inc file (done ++ [(k, n')]) rest res →
      ExpandsKids asBool dir Inc file done ((k, n) :: rest) res
  | insert {done d target t k root rest res} : Names file d target → ¬ WantsMerge asBool d → Inc target t →
      kids t = [(k, root)] → ExpandsKids asBool dir Inc file (done ++ [(k, root)]) rest res →
      ExpandsKids asBool dir Inc file done ((dir, d) :: rest) res
  | merge {done d target t k root rest res} : Names file d target → WantsMerge asBool d → Inc target t →
      kids t = [(k, root)] →
      ExpandsKids asBool dir Inc file done
        (rest ++ newKids ((done ++ rest).map Prod.fst) (kids root)) res →
      ExpandsKids asBool dir Inc file done ((dir, d) :: rest) res
end

/-- The content of a file with all includes expanded, using fewer than the given number of levels, without flags. -/
def ExpandedFile (load : Str → Res PN) (asBool : Str → Bool) (dir : Str) : Nat → Str → PN → Prop
  | 0, _, _ => False
  | levels + 1, file, t => ∃ t0 t1, load file = .ok t0 ∧
      Expands asBool dir (ExpandedFile load asBool dir levels) file t0 t1 ∧ t = t1.clear

end Flut.Spec
