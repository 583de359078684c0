import Verif.Model.FileSystem
import Verif.Model.PropNode

/-!
# Specification of folders that hold the same, and of names that stay in a folder
-/

namespace Flut

/-- A name without NUL and without two dots in a row, so that it never leaves the folder it starts from. -/
def StaysInside (x : Str) : Prop := (∀ c ∈ x, c ≠ 0) ∧ ∀ i : Nat, ¬ (x[i]? = some 46 ∧ x[i + 1]? = some 46)

/-- Two folders with the same files and folders in them, equally readable. -/
def SameFolder (a : Fs) (l : Loc) (b : Fs) (m : Loc) : Prop :=
  ∀ r : Loc, a.node (l ++ r) = b.node (m ++ r) ∧ a.readable (l ++ r) = b.readable (m ++ r)

namespace PN

mutual
/-- The values of all nodes with the key `file`, at any depth. -/
def filesOf : PN → List Str
  | mk _ _ cs => filesOfAll cs
/-- The same for the children of a node. -/
def filesOfAll : List (Str × PN) → List Str
  | [] => []
  | (k, n) :: r => (if k = b!"file" then [n.value] else []) ++ filesOf n ++ filesOfAll r
end

end PN

end Flut
