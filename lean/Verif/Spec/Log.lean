import Verif.Model.Log
import Verif.Spec.Data

/-!
# Specification of logging: who is registered, with which level
-/

namespace Flut

/-- The sinks that exist, with their levels, and those that are registered, in order of registration. -/
structure SinkSpec where
  level : Nat → Option Nat
  registered : List Nat

namespace SinkSpec

/-- Nothing yet. -/
def init : SinkSpec := ⟨fun _ => none, []⟩

/-- The effect of a call. A sink is registered when it is created, deregistered when it is destroyed. Only existing sinks can
be used. -/
def step (σ : SinkSpec) : Log.Op → Res SinkSpec
  | .create s l => if σ.level s = none then
      .ok ⟨fun t => if t = s then some l else σ.level t, σ.registered ++ [s]⟩ else .ub
  | .destroy s => if σ.level s = none then .ub else
      .ok ⟨fun t => if t = s then none else σ.level t, σ.registered.filter (· ≠ s)⟩
  | .add s => if σ.level s = none then .ub else
      .ok ⟨σ.level, if s ∈ σ.registered then σ.registered else σ.registered ++ [s]⟩
  | .remove s => .ok ⟨σ.level, σ.registered.filter (· ≠ s)⟩
  | .setLevel s l => if σ.level s = none then .ub else
      .ok ⟨fun t => if t = s then some l else σ.level t, σ.registered⟩
  | .setGlobal l => .ok ⟨fun t => if t ∈ σ.registered then some l else σ.level t, σ.registered⟩
  | .getGlobal => .ok σ

/-- The effect of a history. -/
def run : List Log.Op → SinkSpec → Res SinkSpec
  | [], σ => .ok σ
  | op :: ops, σ => do
    let σ ← σ.step op
    run ops σ

/-- Who gets a message of level `l`: the registered sinks whose level is at most `l`. -/
def receivers (σ : SinkSpec) (l : Nat) : List Nat :=
  σ.registered.filter fun s => match σ.level s with
    | some own => decide (own ≤ l)
    | none => false

end SinkSpec

/-- The logger delivers as specified. -/
structure LogShows (g : Log) (σ : SinkSpec) : Prop where
  message : ∀ l msg, g.message l msg = .ok ((σ.receivers l).map fun s => (s, l, msg))
  messagef : ∀ l msg, msg.length < 1024 → 0 ∉ msg → g.messagef l msg = .ok ((σ.receivers l).map fun s => (s, l, msg))
  nodup : σ.registered.Nodup
  exist : ∀ s ∈ σ.registered, (σ.level s).isSome

end Flut
