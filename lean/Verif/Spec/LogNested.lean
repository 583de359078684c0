import Verif.Spec.Log
import Verif.Model.LogNested

/-!
# Specification of sinks that use the log

A message goes to the registered sinks in order, to each if its level at that moment admits the message; what a sink does in
response is done before the next sink gets the message.
-/

namespace Flut

open Log

mutual
/-- What a sequence of calls does: from who is registered with which level and what was sent before, to the same afterwards. -/
inductive Calls (b : Behaviour) : List Act → SinkSpec × List Sent → SinkSpec × List Sent → Prop
  | nil (x) : Calls b [] x x
  | op {o as σ σ' ev y} : σ.step o = .ok σ' → Calls b as (σ', ev) y → Calls b (.op o :: as) (σ, ev) y
  | message {l msg as x y z} : Gets b l msg x.1.registered x y → Calls b as y z → Calls b (.message l msg :: as) x z
/-- The same for a message that remains to be given to some sinks. -/
inductive Gets (b : Behaviour) : Nat → Str → List Nat → SinkSpec × List Sent → SinkSpec × List Sent → Prop
  | nil {l msg} (x) : Gets b l msg [] x x
  | skip {l msg s ss x y own} : x.1.level s = some own → l < own → Gets b l msg ss x y → Gets b l msg (s :: ss) x y
  | take {l msg s ss x y z own} : x.1.level s = some own → own ≤ l →
      Calls b (b (x.2 ++ [(s, l, msg)]) s l msg) (x.1, x.2 ++ [(s, l, msg)]) y → Gets b l msg ss y z → Gets b l msg (s :: ss) x z
end

/-- A sink that logs and asks for or changes levels, but leaves the list of sinks as it is. -/
def Settled (b : Behaviour) : Prop :=
  ∀ ev s l msg, ∀ a ∈ b ev s l msg, match a with
    | .message _ _ => True
    | .op (.setLevel _ _) => True
    | .op (.setGlobal _) => True
    | .op .getGlobal => True
    | .op _ => False

end Flut
