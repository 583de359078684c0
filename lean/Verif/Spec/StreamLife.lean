import Verif.Model.StreamLife

/-!
# Specification: streams as values, with the text they need

A stream is a value that is copied like any other. Its text is kept by the stream that was made from a string, or is the buffer of the caller. Copies
need the text of the stream they are copied from. The text is gone when its keeper is destroyed or assigned.
-/

namespace Flut

namespace Spec

/-- Who keeps the text of a stream. -/
inductive Keeper where
  | stream (s : Nat)
  | buffer (b : Nat)
  deriving DecidableEq

/-- The state of a stream, and who keeps its text (`none`: the text is gone). -/
structure StreamVal where
  state : CharStream
  keeper : Option Keeper

/-- Buffers and streams by name. -/
structure Streams where
  buffer : Nat → Option Str
  stream : Nat → Option StreamVal

namespace Streams

/-- Nothing yet. -/
def empty : Streams := ⟨fun _ => none, fun _ => none⟩

/-- The keeper is gone, and with it the text of those that need it. -/
def lose (k : Keeper) (v : Streams) : Streams :=
  { v with stream := fun s => (v.stream s).map fun x => if x.keeper = some k then { x with keeper := none } else x }

/-- Set or remove a stream. -/
def put (s : Nat) (x : Option StreamVal) (v : Streams) : Streams := { v with stream := fun s' => if s' = s then x else v.stream s' }

/-- One step. -/
def step (bits : Nat) : StreamMem.Op → Streams → Res (Option StreamAns × Streams)
  | .buffer b text, v => match v.buffer b with
    | some _ => .ub
    | none => .ok (none, { v with buffer := fun b' => if b' = b then some text else v.buffer b' })
  | .free b, v => match v.buffer b with
    | none => .ub
    | some _ => .ok (none, { v.lose (.buffer b) with buffer := fun b' => if b' = b then none else v.buffer b' })
  | .fromBuffer s b delims, v => match v.stream s, v.buffer b with
    | none, some t => .ok (none, v.put s (some ⟨.ofCStr t delims, some (.buffer b)⟩))
    | _, _ => .ub
  | .fromString s text delims, v => match v.stream s with
    | some _ => .ub
    | none => .ok (none, v.put s (some ⟨.ofString text delims, some (.stream s)⟩))
  | .copy s t, v => match v.stream s, v.stream t with
    | none, some x => .ok (none, v.put s (some x))
    | _, _ => .ub
  | .assign s t, v => match v.stream s, v.stream t with
    | some _, some _ => if s = t then .ok (none, v) else .ok (none, (v.lose (.stream s)).put s ((v.lose (.stream s)).stream t))
    | _, _ => .ub
  | .destroy s, v => match v.stream s with
    | none => .ub
    | some _ => .ok (none, (v.lose (.stream s)).put s none)
  | .read s op, v => match v.stream s with
    | none => .ub
    | some x => match x.keeper with
      | none => .ub
      | some _ => do
        let (a, c) ← op.ask bits x.state
        .ok (some a, v.put s (some { x with state := c }))

/-- A program: what the calls return. -/
def run (bits : Nat) : List StreamMem.Op → Streams → Res (List StreamAns × Streams)
  | [], v => .ok ([], v)
  | op :: ops, v => do
    let (a, v') ← step bits op v
    let (as, v'') ← run bits ops v'
    .ok (a.toList ++ as, v'')

end Streams

end Spec

end Flut
