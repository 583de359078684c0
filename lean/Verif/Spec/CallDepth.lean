import Verif.Model.Xml

/-!
# How deep trees are
-/

namespace Flut.Spec

mutual
/-- The number of steps from a node down to the deepest node below it. -/
def height : PN → Nat
  | .mk _ _ cs => heightBelow cs
/-- The same, counting the step to the children: the height of a node with these children. -/
def heightBelow : List (Str × PN) → Nat
  | [] => 0
  | (_, n) :: r => max (height n + 1) (heightBelow r)
end

mutual
/-- How many elements are inside each other, this one included. Elements are the nodes with a name; text has none. -/
def nesting : Xml.Node → Nat
  | .mk _ name _ _ cs => if name = [] then 0 else nestingAll cs + 1
/-- How many elements are inside each other in any of these nodes. -/
def nestingAll : List Xml.Node → Nat
  | [] => 0
  | n :: r => max (nesting n) (nestingAll r)
end

/-- The text that opens `n` groups and ends after the key of another one: `a{a{a` for two. -/
def opened : Nat → Str
  | 0 => b!"a"
  | n + 1 => b!"a{" ++ opened n

/-- The text with `n` elements inside each other that ends at the start of another one: `<a><a><` for two. -/
def openedXml : Nat → Str
  | 0 => b!"<"
  | n + 1 => b!"<a>" ++ openedXml n

end Flut.Spec
