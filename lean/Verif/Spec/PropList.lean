import Verif.Spec.PropNode
import Verif.Spec.DataText

/-! # Specification of listings: the nodes of a tree in order -/

namespace Flut.Spec

mutual
/-- The nodes below a node with their depth and key, each before its own children. -/
def preorder : Nat → PN → List (Nat × Str × PN)
  | depth, .mk _ _ cs => preorderAll depth cs
/-- The same for a list of children. -/
def preorderAll : Nat → List (Str × PN) → List (Nat × Str × PN)
  | _, [] => []
  | depth, (k, n) :: r => (depth, k, n) :: preorder (depth + 1) n ++ preorderAll depth r
end

/-- The value of a node, if it has one or has no children. -/
def shownValue : PN → Option Str
  | .mk _ v cs => if v = [] ∧ cs ≠ [] then none else some v

/-- A line of a listing: two blanks for each level, a key without blanks, and after some blanks an equals sign, a blank and
the value. -/
def readLine (l : Str) : Nat × Str × Option Str :=
  let rest := l.dropWhile (· == 32)
  let tail := (rest.dropWhile (· != 32)).dropWhile (· == 32)
  ((l.takeWhile (· == 32)).length / 2, rest.takeWhile (· != 32), if tail = [] then none else some (tail.drop 2))

/-- The lines of a listing. -/
def readListing (t : Str) : List (Nat × Str × Option Str) := (t.splitOn 10).dropLast.map readLine

/-- A key that a listing can show: not empty, without blanks and line breaks. -/
def PlainKey (k : Str) : Prop := k ≠ [] ∧ (32 : Byte) ∉ k ∧ (10 : Byte) ∉ k

/-- The access flag of a node. -/
def flagOf : PN → Bool | .mk a _ _ => a

/-- The value of a node. -/
def valueOf : PN → Str | .mk _ v _ => v

end Flut.Spec
