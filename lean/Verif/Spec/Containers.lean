import Verif.Model.Containers

/-!
# Specifications of the containers

Nothing here refers to how the containers store their elements.
-/

namespace Flut

/-! ### A map as the history of writes to it -/

namespace MapSpec

variable {K V : Type} [DecidableEq K]

/-- The value of key `k` after one more operation, from the value `old` before it. -/
def step (dflt : V) (k : K) (old : Option V) : FlatMap.Op K V → Option V
  | .assign k' v => if k' = k then some v else old
  | .touch k' => if k' = k then some (old.getD dflt) else old
  | .erase k' => if k' = k then none else old
  | .clear => none

/-- The value of key `k` after a history that starts with the empty map. -/
def value (dflt : V) (k : K) (ops : List (FlatMap.Op K V)) : Option V :=
  ops.foldl (step dflt k) none

/-- The keys in order of first insertion (since they were last erased), after one more operation. -/
def orderStep (ks : List K) : FlatMap.Op K V → List K
  | .assign k _ => if k ∈ ks then ks else ks ++ [k]
  | .touch k => if k ∈ ks then ks else ks ++ [k]
  | .erase k => ks.filter (· ≠ k)
  | .clear => []

/-- The keys in order of insertion after a history. -/
def order (ops : List (FlatMap.Op K V)) : List K := ops.foldl orderStep []

/-- Whether a key is erased only while it is present: erasing what `find` did not find is the caller's error. -/
def Legal (dflt : V) (ops : List (FlatMap.Op K V)) : Prop :=
  ∀ pre k post, ops = pre ++ .erase k :: post → value dflt k pre ≠ none

end MapSpec

/-! ### Registrations -/

/-- The creator registered last under `name`. -/
def lastRegistered {β : Type} (name : Str) (rs : List (Str × β)) : Option β :=
  ((rs.filter fun r => r.1 = name).getLast?).map Prod.snd

/-! ### Sorted sequences -/

/-- A strict weak order, as `std::upper_bound` requires of `<`. -/
structure StrictWeak {α : Type} (lt : α → α → Bool) : Prop where
  irrefl : ∀ a, lt a a = false
  trans : ∀ a b c, lt a b = true → lt b c = true → lt a c = true
  weak : ∀ a b c, lt a c = true → lt a b = true ∨ lt b c = true

/-- Non-decreasing: no element is less than one before it. -/
def Sorted {α : Type} (lt : α → α → Bool) (l : List α) : Prop := l.Pairwise fun a b => lt b a = false

/-! ### Double-ended queue -/

namespace DequeSpec

variable {α : Type}

/-- One operation on the abstract queue; `none` if an empty queue is popped. -/
def step : CDeque.Op α → List α → Option (List α)
  | .pushBack v, l => some (l ++ [v])
  | .pushFront v, l => some (v :: l)
  | .popBack, [] => none
  | .popBack, l => some l.dropLast
  | .popFront, [] => none
  | .popFront, _ :: l => some l
  | .clear, _ => some []

/-- A history of operations. -/
def run : List (CDeque.Op α) → List α → Option (List α)
  | [], l => some l
  | op :: ops, l => (step op l).bind (run ops)

end DequeSpec

end Flut

namespace Flut

/-- The elements a history inserts into a sorted vector. -/
def insertedBy {α : Type} : List (SortedVector.Op α) → List α
  | [] => []
  | .insert e :: ops => e :: insertedBy ops
  | _ :: ops => insertedBy ops

/-- `Removes lt l ops r`: running `ops` on `l`, the elements taken out (at an erased position, or by `clear`) are `r`. -/
inductive Removes {α : Type} (lt : α → α → Bool) : List α → List (SortedVector.Op α) → List α → Prop where
  | done (l) : Removes lt l [] []
  | insert (l l' e ops r) : SortedVector.run lt (.insert e) l = .ok l' → Removes lt l' ops r →
      Removes lt l (.insert e :: ops) r
  | erase (l l' i e ops r) : l[i]? = some e → SortedVector.run lt (.erase i) l = .ok l' →
      Removes lt l' ops r → Removes lt l (.erase i :: ops) (e :: r)
  | clear (l ops r) : Removes lt [] ops r → Removes lt l (.clear :: ops) (l ++ r)

end Flut
