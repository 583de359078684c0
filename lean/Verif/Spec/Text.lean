import Verif.Spec.CharStream

/-!
# Specifications for numbers as text and for the hash function
-/

namespace Flut

open Spec

/-- The text begins, after white space, with a decimal numeral for `x`, which is as long as possible. -/
def StartsWithNumeral (s : Str) (x : Int) : Prop :=
  ∃ ws w rest, s = ws ++ w ++ rest ∧ (∀ c ∈ ws, c ∈ b!" \t\n" ∨ c = 11 ∨ c = 12 ∨ c = 13) ∧ Numeral w x ∧
    ∀ c ∈ rest.head?, ¬ (48 ≤ c.toNat ∧ c.toNat ≤ 57)

/-- The range of a signed integer of the given width. -/
def InRange (bits : Nat) (x : Int) : Prop := -(2 ^ (bits - 1) : Int) ≤ x ∧ x < 2 ^ (bits - 1)

/-- The published 64-bit FNV-1a hash: for each byte, exclusive or, then multiply. -/
def fnv1a (bytes : Str) : UInt64 :=
  bytes.foldl (fun h b => (h ^^^ UInt64.ofNat b.toNat) * 1099511628211) 14695981039346656037

/-- A byte that is white space for input streams. -/
def IsSpace (c : Byte) : Prop := c ∈ b!" \t\n" ∨ c = 11 ∨ c = 12 ∨ c = 13

end Flut
