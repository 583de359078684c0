import Verif.Model.MapRefs

/-!
# A dictionary with references by key
-/

namespace Flut.Spec

/-- Keys in order of insertion, the value of each, and the key that each reference of the program refers to (`none` if it must not be used). When there are more
than `room` keys, all references are lost. -/
structure Dict (K V : Type) where
  order : List K
  value : K → Option V
  room : Nat
  handle : Nat → Option K

namespace Dict

variable {K V : Type} [DecidableEq K]

/-- No keys. -/
def empty : Dict K V := ⟨[], fun _ => none, 0, fun _ => none⟩

/-- Set the value of a key that there is. -/
def write (k : K) (v : V) (d : Dict K V) : Dict K V := { d with value := fun j => if j = k then some v else d.value j }

/-- Make sure that there is the key. -/
def touch (grow : Nat → Nat → Nat) (dflt : V) (k : K) (d : Dict K V) : Dict K V :=
  if k ∈ d.order then d
  else if d.room ≤ d.order.length then
    { order := d.order ++ [k], value := fun j => if j = k then some dflt else d.value j,
      room := max (d.order.length + 1) (grow d.room (d.order.length + 1)), handle := fun _ => none }
  else { d with order := d.order ++ [k], value := fun j => if j = k then some dflt else d.value j }

/-- One step, with what is read. -/
def step (grow : Nat → Nat → Nat) (dflt : V) : MapRefs.Op K V → Dict K V → Res (Option V × Dict K V)
  | .ref h k, d =>
    let d := d.touch grow dflt k
    .ok (none, { d with handle := fun h' => if h' = h then some k else d.handle h' })
  | .assign k v, d => .ok (none, (d.touch grow dflt k).write k v)
  | .assignFrom rightFirst k j, d =>
    let first := if rightFirst then j else k
    let second := if rightFirst then k else j
    let d := d.touch grow dflt first
    if second ∉ d.order ∧ d.room ≤ d.order.length then .ub
    else match (d.touch grow dflt second).value j with
      | none => .ub
      | some v => .ok (none, (d.touch grow dflt second).write k v)
  | .load h, d =>
    match d.handle h with
    | none => .ub
    | some k => match d.value k with
      | none => .ub
      | some v => .ok (some v, d)
  | .store h v, d =>
    match d.handle h with
    | none => .ub
    | some k => .ok (none, d.write k v)
  | .erase k, d =>
    if k ∈ d.order then
      .ok (none, { d with
        order := d.order.filter (· ≠ k)
        value := fun j => if j = k then none else d.value j
        handle := fun h => (d.handle h).bind fun j => if j ∈ d.order.takeWhile (· ≠ k) then some j else none })
    else .ub
  | .clear, d => .ok (none, { d with order := [], value := fun _ => none, handle := fun _ => none })

/-- A program, with everything that it reads. -/
def run (grow : Nat → Nat → Nat) (dflt : V) : List (MapRefs.Op K V) → Dict K V → Res (List V × Dict K V)
  | [], d => .ok ([], d)
  | op :: ops, d => do
    let (a, d) ← d.step grow dflt op
    let (as, d) ← d.run grow dflt ops
    .ok (a.toList ++ as, d)

end Dict

end Flut.Spec
