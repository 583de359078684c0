import Verif.Model.DynArray

/-! # Specification: arrays as plain values

Every variable holds a list of its own; nothing is shared. -/

namespace Flut.Spec

/-- What is in a variable: nothing any more, something that was moved away, or a list. Elements never written are `none`. -/
inductive Slot (α : Type) where
  | gone
  | moved
  | val (xs : List (Option α))

variable {α : Type}

/-- The list in a variable. -/
def valOf (t : List (Slot α)) (i : Nat) : Res (List (Option α)) :=
  match t[i]? with
  | some (.val xs) => .ok xs
  | _ => .ub

/-- The list in a variable, all of whose elements were written. -/
def wholeOf (t : List (Slot α)) (i : Nat) : Res (List (Option α)) := do
  let xs ← valOf t i
  if xs.all Option.isSome then .ok xs else .ub

/-- Every operation on plain values. `ub` is what a program must not do. -/
def valueStep (init : Option α) (t : List (Slot α)) : ArrayOp α → Res (List (Slot α))
  | .empty => .ok (t ++ [.val []])
  | .make n => .ok (t ++ [.val (List.replicate n init)])
  | .makeFilled n v => .ok (t ++ [.val (List.replicate n (some v))])
  | .copyOf j => do
    let xs ← wholeOf t j
    .ok (t ++ [.val xs])
  | .moveOf j => do
    let xs ← valOf t j
    .ok (t.set j .moved ++ [.val xs])
  | .assign i j => match t[i]? with
    | none | some .gone => .ub
    | some _ => if i = j then .ub else do
      let xs ← wholeOf t j
      .ok (t.set i (.val xs))
  | .set i k v => do
    let xs ← valOf t i
    if k < xs.length then .ok (t.set i (.val (xs.set k (some v)))) else .ub
  | .setAt i k v => do
    let xs ← valOf t i
    if k < xs.length then .ok (t.set i (.val (xs.set k (some v)))) else .throws .flutError
  | .fill i v => do
    let xs ← valOf t i
    .ok (t.set i (.val (xs.map fun _ => some v)))
  | .destroy i => match t[i]? with
    | none | some .gone => .ub
    | some _ => .ok (t.set i .gone)

/-- A history; what throws has no effect. -/
def valueRun (init : Option α) (t : List (Slot α)) : List (ArrayOp α) → Res (List (Slot α))
  | [] => .ok t
  | op :: ops => match valueStep init t op with
    | .ok t => valueRun init t ops
    | .throws _ => valueRun init t ops
    | .ub => .ub
    | .diverges => .diverges

end Flut.Spec
