import Verif.Model.PropNode

/-!
# Threads that use the library

flut has no locks and no atomic variables. A call is a sequence of reads and writes of memory, and the calls of different threads are interleaved in every
possible way. By the C++ standard a program has undefined behaviour if one of these interleavings has two conflicting accesses by different threads, because
nothing orders them; if there are none, the interleavings are all that can happen.
-/

namespace Flut.Threads

/-- A computation that reads and writes memory. `modify` changes a value; it is `safe` if the standard library makes such changes by several
threads at the same time safe. -/
inductive Prog (L V α : Type) where
  | ret (a : α)
  | read (l : L) (k : V → Prog L V α)
  | write (l : L) (v : V) (k : Prog L V α)
  | modify (safe : Bool) (l : L) (f : V → V) (k : Prog L V α)

namespace Prog

variable {L V α β : Type}

/-- One computation after another. -/
def bind : Prog L V α → (α → Prog L V β) → Prog L V β
  | .ret a, f => f a
  | .read l k, f => .read l fun v => (k v).bind f
  | .write l v k, f => .write l v (k.bind f)
  | .modify a l g k, f => .modify a l g (k.bind f)

/-- A computation after one that may have thrown. -/
def andThen (x : Prog L V (Res α)) (f : α → Prog L V (Res β)) : Prog L V (Res β) :=
  x.bind fun
    | .ok a => f a
    | .throws e => .ret (.throws e)
    | .ub => .ret .ub
    | .diverges => .ret .diverges

variable [DecidableEq L]

/-- The result and the memory when no other thread is there. -/
def alone : Prog L V α → (L → V) → α × (L → V)
  | .ret a, m => (a, m)
  | .read l k, m => (k (m l)).alone m
  | .write l v k, m => k.alone (fun l' => if l' = l then v else m l')
  | .modify _ l f k, m => k.alone (fun l' => if l' = l then f (m l) else m l')

end Prog

/-- Kinds of access. -/
inductive Kind where
  | read
  | write
  | atomic
deriving DecidableEq

/-- An access to memory by a thread. -/
structure Access (L : Type) where
  thread : Nat
  loc : L
  kind : Kind

/-- The memory, what the threads still have to do, and the accesses so far. -/
structure Machine (L V α : Type) where
  mem : L → V
  threads : List (Prog L V α)
  log : List (Access L)

namespace Machine

variable {L V α : Type} [DecidableEq L]

/-- The next access of a thread. -/
def step (s : Machine L V α) (i : Nat) : Machine L V α :=
  match s.threads[i]? with
  | some (.read l k) => ⟨s.mem, s.threads.set i (k (s.mem l)), s.log ++ [⟨i, l, .read⟩]⟩
  | some (.write l v k) => ⟨fun l' => if l' = l then v else s.mem l', s.threads.set i k, s.log ++ [⟨i, l, .write⟩]⟩
  | some (.modify a l f k) =>
    ⟨fun l' => if l' = l then f (s.mem l) else s.mem l', s.threads.set i k, s.log ++ [⟨i, l, if a then .atomic else .write⟩]⟩
  | _ => s

/-- A schedule says which thread is next. -/
def run (s : Machine L V α) (sched : List Nat) : Machine L V α := sched.foldl step s

/-- All threads before their first access. -/
def start (m : L → V) (threads : List (Prog L V α)) : Machine L V α := ⟨m, threads, []⟩

end Machine

/-! ## Property trees in memory -/

/-- The node reached by following child indices. -/
def nodeAt : PN → List Nat → Option PN
  | n, [] => some n
  | .mk _ _ cs, i :: p => match cs[i]? with
    | none => none
    | some kn => nodeAt kn.2 p

/-- Where a node is in memory: its access flag, and its value and keys (flut/prop_node.hpp:214-216). Nodes are named by the way to them
from the root. -/
inductive Field where
  | flag (p : List Nat)
  | content (p : List Nat)
deriving DecidableEq

/-- What is stored there. -/
inductive Cell where
  | flag (b : Bool)
  | content (value : Str) (keys : List Str)
  | nothing
deriving DecidableEq

/-- The memory that holds a tree. -/
def memOf (t : PN) : Field → Cell
  | .flag p => match nodeAt t p with
    | some n => .flag n.acc
    | none => .nothing
  | .content p => match nodeAt t p with
    | some n => .content n.value (n.children.map (·.1))
    | none => .nothing

/-- Computations on trees in memory. -/
abbrev P (α : Type) := Prog Field Cell α

/-- `access()` (flut/prop_node.hpp:211-212) -/
def accessP (p : List Nat) : P Unit := .write (.flag p) (.flag true) (.ret ())

/-- Reading value and keys. -/
def contentP (p : List Nat) : P (Res (Str × List Str)) :=
  .read (.content p) fun
    | .content v ks => .ret (.ok (v, ks))
    | _ => .ret .ub

/-- Reading the flag: `is_accessed` (flut/prop_node.hpp:206). -/
def flagP (p : List Nat) : P (Res Bool) :=
  .read (.flag p) fun
    | .flag b => .ret (.ok b)
    | _ => .ret .ub

/-- The position of a key. -/
def keyIdx (key : Str) : List Str → Option Nat
  | [] => none
  | k :: ks => if k = key then some 0 else (keyIdx key ks).map (· + 1)

/-- `find` (flut/prop_node.hpp:185-186): `begin()` marks the node (line 190). -/
def findP (p : List Nat) (key : Str) : P (Res (Option Nat)) :=
  (accessP p).bind fun _ => (contentP p).andThen fun c => .ret (.ok (keyIdx key c.2))

/-- What calls return. A node is returned as the way to it. -/
inductive Ans where
  | bool (b : Bool)
  | nat (n : Nat)
  | text (s : Str)
  | texts (l : List Str)
  | ref (r : Option (List Nat))
  | tree (t : PN)

/-- `get_value` (flut/prop_node.hpp:93), and `get<string>()` with one more mark of the same node (line 59). -/
def getValueP (p : List Nat) : P (Res Str) :=
  (accessP p).bind fun _ => (contentP p).andThen fun c => .ret (.ok c.1)

/-- `get<T>()` (flut/prop_node.hpp:59,255): marks the node twice and converts the value. -/
def getP (p : List Nat) : P (Res Str) := (accessP p).bind fun _ => getValueP p

/-- `for ( auto& c : pn )` with `get<T>()` of each (flut/prop_node.hpp:226-227), from child `i` on. -/
def getAllP (p : List Nat) : Nat → Nat → P (Res (List Str))
  | 0, _ => .ret (.ok [])
  | n + 1, i => (getP (p ++ [i])).andThen fun v => (getAllP p n (i + 1)).andThen fun vs => .ret (.ok (v :: vs))

mutual
/-- The copy constructor (flut/prop_node.hpp:42): value and children are read, not the flags. The first argument bounds the depth. -/
def copyP : Nat → List Nat → P (Res PN)
  | 0, _ => .ret .diverges
  | d + 1, p => (contentP p).andThen fun c => (copyAllP d p c.2 0).andThen fun cs => .ret (.ok (.mk false c.1 cs))
/-- The copy of the children from child `i` on. -/
def copyAllP : Nat → List Nat → List Str → Nat → P (Res (List (Str × PN)))
  | _, _, [], _ => .ret (.ok [])
  | d, p, k :: ks, i => (copyP d (p ++ [i])).andThen fun c => (copyAllP d p ks (i + 1)).andThen fun cs => .ret (.ok ((k, c) :: cs))
end

mutual
/-- `count_unaccessed` (flut/prop_node.hpp:207): all flags are read. The first argument bounds the depth. -/
def countP : Nat → List Nat → P (Res Nat)
  | 0, _ => .ret .diverges
  | d + 1, p => (flagP p).andThen fun b => (contentP p).andThen fun c =>
      (countAllP d p c.2 0).andThen fun n => .ret (.ok ((if b then 0 else 1) + n))
/-- Its loop from child `i` on. -/
def countAllP : Nat → List Nat → List Str → Nat → P (Res Nat)
  | _, _, [], _ => .ret (.ok 0)
  | d, p, _ :: ks, i => (countP d (p ++ [i])).andThen fun n => (countAllP d p ks (i + 1)).andThen fun m => .ret (.ok (n + m))
end

/-- Calls of `const` members on a node, which is named first. -/
inductive Call where
  | hasValue (p : List Nat)
  | size (p : List Nat)
  | empty (p : List Nat)
  | copy (depth : Nat) (p : List Nat)
  | isAccessed (p : List Nat)
  | countUnaccessed (depth : Nat) (p : List Nat)
  | getValue (p : List Nat)
  | get (p : List Nat)
  | getAll (p : List Nat)
  | hasKey (p : List Nat) (key : Str)
  | hasValueAt (p : List Nat) (key : Str)
  | getChild (p : List Nat) (key : Str)
  | getChildAt (p : List Nat) (i : Nat)
  | getKey (p : List Nat) (i : Nat)
  | getKeyed (p : List Nat) (key : Str)
  | getDef (p : List Nat) (key dflt : Str)
  | tryGetChild (p : List Nat) (key : Str)

/-- The accesses of a call. Texts are not converted to other types. -/
def Call.run : Call → P (Res Ans)
  -- flut/prop_node.hpp:77
  | .hasValue p => (contentP p).andThen fun c => .ret (.ok (.bool (!c.1.isEmpty)))
  -- flut/prop_node.hpp:84
  | .size p => (contentP p).andThen fun c => .ret (.ok (.nat c.2.length))
  -- flut/prop_node.hpp:87
  | .empty p => (contentP p).andThen fun c => .ret (.ok (.bool (c.1.isEmpty && c.2.isEmpty)))
  -- flut/prop_node.hpp:42
  | .copy d p => (copyP d p).andThen fun t => .ret (.ok (.tree t))
  -- flut/prop_node.hpp:206
  | .isAccessed p => (flagP p).andThen fun b => .ret (.ok (.bool b))
  -- flut/prop_node.hpp:207
  | .countUnaccessed d p => (countP d p).andThen fun n => .ret (.ok (.nat n))
  -- flut/prop_node.hpp:93
  | .getValue p => (getValueP p).andThen fun s => .ret (.ok (.text s))
  -- flut/prop_node.hpp:59
  | .get p => (getP p).andThen fun s => .ret (.ok (.text s))
  -- flut/prop_node.hpp:59,226-227
  | .getAll p => (accessP p).bind fun _ => (accessP p).bind fun _ => (contentP p).andThen fun c =>
      (getAllP p c.2.length 0).andThen fun l => .ret (.ok (.texts l))
  -- flut/prop_node.hpp:81
  | .hasKey p key => (findP p key).andThen fun r => .ret (.ok (.bool r.isSome))
  -- flut/prop_node.hpp:78
  | .hasValueAt p key => (findP p key).andThen fun
    | none => .ret (.ok (.bool false))
    | some i => (contentP (p ++ [i])).andThen fun c => .ret (.ok (.bool (!c.1.isEmpty)))
  -- flut/prop_node.hpp:143-144
  | .getChild p key => (findP p key).andThen fun
    | none => .ret (.throws .flutError)
    | some i => (accessP p).bind fun _ => .ret (.ok (.ref (some (p ++ [i]))))
  -- flut/prop_node.hpp:149
  | .getChildAt p i => (contentP p).andThen fun c =>
      if i < c.2.length then (accessP p).bind fun _ => .ret (.ok (.ref (some (p ++ [i])))) else .ret (.throws .assertion)
  -- flut/prop_node.hpp:153
  | .getKey p i => (contentP p).andThen fun c => match c.2[i]? with
    | none => .ret (.throws .assertion)
    | some k => (accessP p).bind fun _ => .ret (.ok (.text k))
  -- flut/prop_node.hpp:62
  | .getKeyed p key => (findP p key).andThen fun
    | none => .ret (.throws .flutError)
    | some i => (accessP p).bind fun _ => (getP (p ++ [i])).andThen fun s => .ret (.ok (.text s))
  -- flut/prop_node.hpp:65-66
  | .getDef p key dflt => (findP p key).andThen fun
    | none => .ret (.ok (.text dflt))
    | some i => (getP (p ++ [i])).andThen fun s => .ret (.ok (.text s))
  -- flut/prop_node.hpp:156-157
  | .tryGetChild p key => (accessP p).bind fun _ => (findP p key).andThen fun
    | none => .ret (.ok (.ref none))
    | some i => (accessP (p ++ [i])).bind fun _ => .ret (.ok (.ref (some (p ++ [i]))))

/-- The part of a program that runs in a thread: it decides by the answers so far what to call next. Exceptions are caught. -/
inductive Client where
  | done
  | call (c : Call) (next : Res Ans → Client)

/-- The accesses of a thread; its result are the answers that it got. -/
def Client.prog : Client → P (List (Res Ans))
  | .done => .ret []
  | .call c next => c.run.bind fun a => (next a).prog.bind fun as => .ret (a :: as)

end Flut.Threads
