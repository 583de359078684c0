import Verif.Basic

/-!
# Model of `flut/string_tools.hpp` and `flut/string_tools.cpp`
-/

namespace Flut

/-- Membership of a character in a `const char*` character set, as used by the
`find_first_of` family (the terminating NUL is not part of the set). -/
def inSet (set : Str) (c : Byte) : Bool := (cstr set).contains c

/-- `a - b` in `size_t` used as the `count` of `substr`: a wrapped difference is larger than every
string and so acts as `npos`. -/
def countSub (a b : Nat) : Option Nat := if b ≤ a then some (a - b) else none

/-- The default trim set, /repo/flut/string_tools.hpp:36 and :39. -/
def defaultTrim : Str := [32, 9, 13, 10, 12, 11]

/-- `left_str`, /repo/flut/string_tools.hpp:17-18. `n` is a 32-bit `int` and `size()` fits in one. -/
def leftStr (s : Str) (n : Int) : Res Str :=
  if 0 ≤ n then substr s 0 (some n.toNat)
  else substr s 0 (some (max 0 ((s.length : Int) + n)).toNat)

/-- `mid_str`, /repo/flut/string_tools.hpp:21. -/
def midStr (s : Str) (pos : Nat) (n : Option Nat := none) : Res Str := substr s pos n

/-- `right_str`, /repo/flut/string_tools.hpp:24-25. `size() - n` wraps for `n > size()`, and the
wrapped position is past every string, so `substr` throws. `-n` overflows for `INT_MIN`. -/
def rightStr (s : Str) (n : Int) : Res Str :=
  if 0 ≤ n then
    if n.toNat ≤ s.length then substr s (s.length - n.toNat) none else .throws .outOfRange
  else if n = -2147483648 then .ub
  else substr s (-n).toNat none

/-- `in_str`, /repo/flut/string_tools.hpp:28: `std::string::find` from position `p`. -/
def inStr (s t : Str) (p : Nat) : Option Nat :=
  if p ≤ s.length then (findSub t (s.drop p)).map (· + p) else none

/-- `str_begins_with`, /repo/flut/string_tools.hpp:31. -/
def strBeginsWith (s t : Str) : Bool := findSub t s == some 0

/-- `str_ends_with`, /repo/flut/string_tools.hpp:34-35. -/
def strEndsWith (s t : Str) : Bool :=
  decide (s.length ≥ t.length) && (findSub t s == some (s.length - t.length))

/-- `trim_str`, /repo/flut/string_tools.cpp:24-30. -/
def trimStr (s : Str) (chars : Str := defaultTrim) : Res Str :=
  match findFirst (fun c => !inSet chars c) s with
  | none => .ok []
  | some left =>
    let right := findLast (fun c => !inSet chars c) s
    substr s left (countSub (succWrap right) left)

/-- `trim_right_str`, /repo/flut/string_tools.cpp:32-36. -/
def trimRightStr (s : Str) (chars : Str := defaultTrim) : Res Str :=
  let right := findLast (fun c => !inSet chars c) s
  substr s 0 (some (succWrap right))

/-- The `while` loop of `split_str`, /repo/flut/string_tools.cpp:42-46. The first argument bounds the
number of iterations; running out of it is reported as `diverges`. -/
def splitLoop (s sep : Str) : Nat → Option Nat → List Str → Res (List Str)
  | 0, _, _ => .diverges
  | _ + 1, none, acc => .ok acc
  | n + 1, some ofs, acc => do
    let ofsend := findFirst (inSet sep) s ofs
    let piece ← substr s ofs (match ofsend with
      | none => none
      | some e => countSub e ofs)
    let next := match ofsend with
      | none => none
      | some e => findFirst (fun c => !inSet sep c) s e
    splitLoop s sep n next (acc ++ [piece])

/-- `split_str`, /repo/flut/string_tools.cpp:38-48. -/
def splitStr (s sep : Str) : Res (List Str) :=
  splitLoop s sep (s.length + 1) (findFirst (fun c => !inSet sep c) s) []

/-- `left_of_str`, /repo/flut/string_tools.cpp:50-53. -/
def leftOfStr (s sep : Str) : Res Str := substr s 0 (findFirst (inSet sep) s)

/-- `right_of_str`, /repo/flut/string_tools.cpp:55-59. -/
def rightOfStr (s sep : Str) : Res Str :=
  match findLast (inSet sep) s with
  | some pos => substr s (pos + 1) none
  | none => .ok s

/-- `make_key_value_str`, /repo/flut/string_tools.cpp:61-67. -/
def makeKeyValueStr (s : Str) (sep : Str := b!"=") : Res (Str × Str) :=
  match findFirst (inSet sep) s with
  | none => .ok (s, [])
  | some pos => do
    let l ← substr s 0 (some pos)
    let k ← trimStr l
    let r ← midStr s (pos + 1)
    let v ← trimStr r
    .ok (k, v)

/-! ## Quoting -/

/-- Octal digits of `n`, most significant first, at most `fuel` of them; part of `printf("%o")`. -/
def octDigits : Nat → Nat → Str
  | 0, _ => []
  | fuel + 1, n =>
    if n < 8 then [UInt8.ofNat (48 + n)] else octDigits fuel (n / 8) ++ [UInt8.ofNat (48 + n % 8)]

/-- `stringf("%03o", v)` for an `int` argument, which `%o` reads as a 32-bit unsigned number. -/
def printfOct3 (v : Int) : Str :=
  let digits := octDigits 11 (if 0 ≤ v then v.toNat else (v + 4294967296).toNat)
  List.replicate (3 - digits.length) 48 ++ digits

/-- `encode_char`, /repo/flut/string_tools.cpp:102-119. -/
def encodeChar (c : Byte) : Str :=
  if c = 34 then [92, 34]
  else if c = 92 then [92, 92]
  else if schar c < 32 then
    if c = 13 then [92, 114]
    else if c = 10 then [92, 110]
    else if c = 9 then [92, 116]
    else 92 :: printfOct3 (schar c)
  else [c]

/-- The octal loop of `decode_char`, /repo/flut/string_tools.cpp:142-147. The first argument is the
number of iterations left (`max_len - *len + 1`); the result is `(value, *len)`. -/
def octLoop : Nat → Str → Nat → Nat → Nat × Nat
  | n + 1, d :: ds, value, len =>
    if 48 ≤ d.toNat ∧ d.toNat < 56 then octLoop n ds (value * 8 + d.toNat - 48) (len + 1)
    else (value, len)
  | _, _, value, len => (value, len)

/-- `decode_char`, /repo/flut/string_tools.cpp:121-153. The argument is the `buf_size` bytes at `buf`;
the result is the character and `*len`. `buf_size` is assumed to fit in an `int`. -/
def decodeChar : Str → Res (Byte × Nat)
  | [] => .throws .flutError
  | c :: rest =>
    if c ≠ 92 then .ok (c, 0)
    else match rest with
      | [] => .ok (c, 0)
      | d :: _ =>
        if d = 0 then .ok (63, 2)
        else if d = 92 then .ok (92, 2)
        else if d = 34 then .ok (34, 2)
        else if d = 114 then .ok (13, 2)
        else if d = 110 then .ok (10, 2)
        else if d = 116 then .ok (9, 2)
        else
          let r := octLoop (min rest.length 3) rest 0 1
          if 1 < r.2 ∧ 0 < r.1 ∧ r.1 < 32 then .ok (UInt8.ofNat r.1, r.2) else .ok (63, r.2)

/-- One character of `quoted`, /repo/flut/string_tools.cpp:160-162. -/
def quoteChar (c : Byte) : Str :=
  if c = 34 ∨ c = 92 ∨ schar c < 32 then encodeChar c else [c]

/-- `quoted`, /repo/flut/string_tools.cpp:155-166. -/
def quoted (s : Str) : Str := 34 :: s.flatMap quoteChar ++ [34]

/-- `needs_quotes`, /repo/flut/string_tools.cpp:168-174. -/
def needsQuotes (s : Str) : Bool := s.any fun c => decide (schar c < 33) || c == 34 || c == 92

/-- `try_quoted`, /repo/flut/string_tools.cpp:176-181. -/
def tryQuoted (s : Str) : Str := if needsQuotes s then quoted s else s

/-- The `for` loop of `try_unquoted`, /repo/flut/string_tools.cpp:189-198, on the characters from `it`
to the end of the string. Dereferencing or moving past the end is `ub`; a step of length zero never ends.
The first argument bounds the number of iterations. -/
def unquoteLoop : Nat → Str → Res Str
  | 0, _ => .diverges
  | _ + 1, [] => .ub
  | n + 1, c :: cs =>
    if c = 34 then .ok []
    else if c = 92 then do
      let (ch, len) ← decodeChar (c :: cs)
      if len > (c :: cs).length then .ub
      else do
        let r ← unquoteLoop n ((c :: cs).drop len)
        .ok (ch :: r)
    else do
      let r ← unquoteLoop n cs
      .ok (c :: r)

/-- `try_unquoted`, /repo/flut/string_tools.cpp:183-200. -/
def tryUnquoted (s : Str) : Res Str :=
  match s with
  | [] => .ok s
  | c :: cs =>
    if c ≠ 34 ∨ (c :: cs).getLast? ≠ some 34 then .ok s
    else unquoteLoop (cs.length + 1) cs

/-! ## File names -/

/-- Characters that separate folders. -/
def isSep (c : Byte) : Bool := c == 47 || c == 92

/-- `get_filename_ext`, /repo/flut/string_tools.cpp:202-211. -/
def getFilenameExt (s : Str) : Res Str :=
  match findLast (· == 46) s with
  | some n => do
    let ext ← substr s (n + 1) none
    match findLast isSep ext with
    | none => .ok ext
    | some _ => .ok []
  | none => .ok []

/-- `get_filename_without_ext`, /repo/flut/string_tools.cpp:213-218. -/
def getFilenameWithoutExt (s : Str) : Res Str := do
  let ext ← getFilenameExt s
  let extLen := if ext.length > 0 then ext.length + 1 else ext.length
  substr s 0 (countSub s.length extLen)

/-- `get_filename_folder`, /repo/flut/string_tools.cpp:220-225. -/
def getFilenameFolder (s : Str) : Res Str :=
  match findLast isSep s with
  | some n => substr s 0 (some (n + 1))
  | none => .ok s

/-- `get_filename_without_folder`, /repo/flut/string_tools.cpp:227-232. -/
def getFilenameWithoutFolder (s : Str) : Res Str :=
  match findLast isSep s with
  | some n => substr s (n + 1) none
  | none => .ok s

end Flut
