/-!
# Outcomes, bytes and `std::string` operations

Shared vocabulary of the model. Nothing here is specific to flut except that it fixes the
conventions stated in `DESIGN.md`.
-/

universe u v

namespace Flut

/-- The kinds of exception that flut code can raise.
`flutError` is `flut_error` and `assertion` is `flut_assert` (both throw `flut::exception`,
/repo/flut/system/assert.hpp). `outOfRange` and `invalidArgument` are the standard library exceptions thrown by
`std::string::substr`/`vector::at` and by `std::sto*`, `parseError` is `rapidxml::parse_error`, and `stdException` a
plain `std::exception`. -/
inductive Exn where
  | flutError
  | assertion
  | outOfRange
  | invalidArgument
  | parseError
  | stdException
  deriving DecidableEq, Repr

/-- Outcome of a C++ call: a value, an exception, undefined behaviour, or no return at all. -/
inductive Res (α : Type u) where
  | ok (a : α)
  | throws (e : Exn)
  | ub
  | diverges
  deriving DecidableEq, Repr

namespace Res

def bind {α : Type u} {β : Type v} : Res α → (α → Res β) → Res β
  | ok a, f => f a
  | throws e, _ => throws e
  | ub, _ => ub
  | diverges, _ => diverges

def map {α : Type u} {β : Type v} (f : α → β) : Res α → Res β
  | ok a => ok (f a)
  | throws e => throws e
  | ub => ub
  | diverges => diverges

instance : Monad Res where
  pure := ok
  bind := bind

@[simp] theorem bind_ok {α β : Type u} (a : α) (f : α → Res β) : (ok a >>= f) = f a := rfl
@[simp] theorem pure_eq {α : Type u} (a : α) : (pure a : Res α) = ok a := rfl
@[simp] theorem bind_throws {α β : Type u} (e : Exn) (f : α → Res β) :
    ((throws e : Res α) >>= f) = throws e := rfl
@[simp] theorem bind_ub {α β : Type u} (f : α → Res β) : ((ub : Res α) >>= f) = ub := rfl
@[simp] theorem bind_diverges {α β : Type u} (f : α → Res β) :
    ((diverges : Res α) >>= f) = diverges := rfl

/-- The call returned normally. -/
def isOk {α : Type u} : Res α → Bool
  | ok _ => true
  | _ => false

theorem bind_eq_ok {α β : Type u} {x : Res α} {f : α → Res β} {b : β} :
    (x >>= f) = ok b ↔ ∃ a, x = ok a ∧ f a = ok b := by
  cases x <;> simp

end Res

/-- A C++ `char`, as its byte value. -/
abbrev Byte := UInt8

/-- A `std::string` (or the bytes of a buffer). -/
abbrev Str := List Byte

/-- `b!"text"` is the byte list of an ASCII literal. -/
syntax:max (name := bytesLit) "b!" str : term
/-- `c!"x"` is the byte of a one-character ASCII literal. -/
syntax:max (name := byteLit) "c!" str : term

open Lean in
macro_rules
  | `(b! $s:str) => do
    let bs := s.getString.toUTF8.toList
    let elems ← bs.mapM fun b => do
      let n := Syntax.mkNumLit (toString b.toNat)
      `(($n : Byte))
    `(([$(elems.toArray),*] : Str))
  | `(c! $s:str) => do
    match s.getString.toUTF8.toList with
    | [b] =>
      let n := Syntax.mkNumLit (toString b.toNat)
      `(($n : Byte))
    | _ => Macro.throwError "c! expects one character"

/-- The value of a (signed, 8-bit) `char` after integral promotion. -/
def schar (c : Byte) : Int := if c.toNat < 128 then c.toNat else (c.toNat : Int) - 256

/-! ## `std::string` searching and slicing

Positions returned by the `find` family are `Option Nat`; `none` is `std::string::npos`. -/

/-- `s.find_first_of(set, from)` with a predicate for the set. -/
def findFirst (p : Byte → Bool) (s : Str) (ofs : Nat := 0) : Option Nat :=
  ((s.drop ofs).findIdx? p).map (· + ofs)

/-- `s.find_last_of(set)` with a predicate for the set. -/
def findLast (p : Byte → Bool) : Str → Option Nat
  | [] => none
  | c :: cs => match findLast p cs with
    | some i => some (i + 1)
    | none => if p c then some 0 else none

/-- `s.find(t)`: position of the first occurrence of the substring `t`. -/
def findSub (t : Str) : Str → Option Nat
  | [] => if t.isEmpty then some 0 else none
  | c :: cs => if t.isPrefixOf (c :: cs) then some 0 else (findSub t cs).map (· + 1)

/-- `s.substr(pos, count)`; `count = none` is `npos`. Throws `std::out_of_range` if `pos > size`. -/
def substr (s : Str) (pos : Nat) (count : Option Nat) : Res Str :=
  if pos > s.length then .throws .outOfRange
  else .ok (match count with
    | none => s.drop pos
    | some n => (s.drop pos).take n)

/-- `pos + 1` in `size_t`, where `npos + 1` wraps to `0`. -/
def succWrap : Option Nat → Nat
  | none => 0
  | some n => n + 1

/-- `n - 1` in `size_t`, where `0 - 1` wraps to `npos`. -/
def predWrap : Nat → Option Nat
  | 0 => none
  | n + 1 => some n

/-- The characters a `const char*` argument denotes: everything before the first NUL. -/
def cstr (s : Str) : Str := s.takeWhile (· != 0)

/-- `isspace` of the "C" locale on a 7-bit character. -/
def isSpaceC (c : Byte) : Bool := c == 32 || (9 ≤ c && c ≤ 13)

/-- `isalpha` of the "C" locale on a 7-bit character. -/
def isAlphaC (c : Byte) : Bool := (65 ≤ c && c ≤ 90) || (97 ≤ c && c ≤ 122)

/-- `isdigit` of the "C" locale. -/
def isDigitC (c : Byte) : Bool := 48 ≤ c && c ≤ 57

example : b!"a\"" = [97, 34] := rfl
example : c!"\\" = 92 := rfl

end Flut
