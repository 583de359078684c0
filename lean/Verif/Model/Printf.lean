import Verif.Model.ReportText
import Verif.Model.StreamReal
import Verif.Model.Log

/-!
# `stringf` and the `printf`-like logging functions

`vsnprintf` is modelled as the C standard prescribes for the "C" locale on a platform with `int` of 32 bits and `long`, `long long` and
`size_t` of 64 bits. Widths, precisions and lengths are assumed to fit in an `int`. The flag `#`, a width or precision `*`, the lengths other than
`l`, `ll` and `z`, and the conversions other than `d i u o x X c s f F e E g G %` are not modelled; the result for them is `.ub`.
-/

namespace Flut

/-- An argument, with the type as which it is passed; `str` is a pointer to the characters and a NUL. -/
inductive PrintfArg where
  | int (v : Int)
  | uint (n : Nat)
  | long (v : Int)
  | ulong (n : Nat)
  | str (s : Str)
  | real (x : Flt)

/-- A conversion specification. -/
structure PrintfConv where
  flags : Str
  width : Nat
  prec : Option Nat
  len : Str
  kind : Byte

namespace PrintfConv

def isFlag (c : Byte) : Bool := c == c!"-" || c == c!"0" || c == c!"+" || c == c!" "

def isDigit (c : Byte) : Bool := decide (48 ≤ c.toNat ∧ c.toNat ≤ 57)

def isLen (c : Byte) : Bool := c == c!"l" || c == c!"z"

/-- The number that digits stand for. -/
def number (ds : Str) : Nat := ds.foldl (fun n d => n * 10 + (d.toNat - 48)) 0

/-- The specification that follows a `%`, and the rest of the format. -/
def parse (s : Str) : Option (PrintfConv × Str) :=
  let flags := s.takeWhile isFlag
  let s := s.dropWhile isFlag
  let width := number (s.takeWhile isDigit)
  let s := s.dropWhile isDigit
  let (prec, s) := match s with
    | [] => (none, s)
    | c :: r => if c = c!"." then (some (number (r.takeWhile isDigit)), r.dropWhile isDigit) else (none, s)
  let len := s.takeWhile isLen
  match s.dropWhile isLen with
  | [] => none
  | kind :: rest => some (⟨flags, width, prec, len, kind⟩, rest)

/-- The value of an argument for `%d` and `%i`. -/
def signed (len : Str) : PrintfArg → Option Int
  | .int v => if len = [] then some v else none
  | .uint n => if len = [] then some (if n < 2 ^ 31 then n else n - 2 ^ 32) else none
  | .long v => if len = [] then none else some v
  | .ulong n => if len = [] then none else some (if n < 2 ^ 63 then n else n - 2 ^ 64)
  | _ => none

/-- The value of an argument for `%u`, `%o`, `%x` and `%X`. -/
def unsigned (len : Str) : PrintfArg → Option Nat
  | .int v => if len = [] then some (v % 2 ^ 32).toNat else none
  | .uint n => if len = [] then some n else none
  | .long v => if len = [] then none else some (v % 2 ^ 64).toNat
  | .ulong n => if len = [] then none else some n
  | _ => none

def digitChar (upper : Bool) (d : Nat) : Byte := UInt8.ofNat (if d < 10 then 48 + d else if upper then 55 + d else 87 + d)

/-- The digits of `n`, most significant first, at most `fuel` of them. -/
def baseStrF (base : Nat) (upper : Bool) : Nat → Nat → Str
  | 0, _ => []
  | fuel + 1, n =>
    if n < base then [digitChar upper n] else baseStrF base upper fuel (n / base) ++ [digitChar upper (n % base)]

/-- An integer without its sign. -/
def digits (base : Nat) (upper : Bool) (prec : Option Nat) (n : Nat) : Str :=
  let ds := if n = 0 ∧ prec = some 0 then [] else baseStrF base upper (n + 1) n
  List.replicate (prec.getD 1 - ds.length) 48 ++ ds

def sign (c : PrintfConv) (neg : Bool) : Str :=
  if neg then b!"-" else if c!"+" ∈ c.flags then b!"+" else if c!" " ∈ c.flags then b!" " else []

/-- The width: blanks on the left or on the right, or zeros behind the sign. -/
def field (c : PrintfConv) (zeros : Bool) (sign body : Str) : Str :=
  let n := c.width - (sign.length + body.length)
  if c!"-" ∈ c.flags then sign ++ body ++ List.replicate n 32
  else if zeros = true ∧ c!"0" ∈ c.flags then sign ++ List.replicate n 48 ++ body
  else List.replicate n 32 ++ sign ++ body

/-- The `p + 1` digits of `m` (rounded to nearest, ties to even) and the decimal exponent of the first one. -/
def sciDigits (p : Nat) (m : ℚ) : Nat × Int :=
  if m = 0 then (0, 0)
  else
    let e := Int.log 10 m
    let n := (roundEven (m / 10 ^ (e - p))).toNat
    if n = 10 ^ (p + 1) then (10 ^ p, e + 1) else (n, e)

/-- The last `p` digits of `n`. -/
def lastDigits (p n : Nat) : Str :=
  if p = 0 then [] else List.replicate (p - (natStr (n % 10 ^ p)).length) 48 ++ natStr (n % 10 ^ p)

/-- A decimal exponent with its letter. -/
def exponent (upper : Bool) (x : Int) : Str := (if upper then c!"E" else c!"e") :: Stream.expText x

/-- A magnitude for `%e`. -/
def scientific (upper : Bool) (p : Nat) (m : ℚ) : Str :=
  let (n, x) := sciDigits p m
  natStr (n / 10 ^ p) ++ (if p = 0 then [] else c!"." :: lastDigits p n) ++ exponent upper x

/-- A magnitude for `%g`: as for `%e` or `%f`, depending on the exponent, without zeros at the end. -/
def general (upper : Bool) (prec : Nat) (m : ℚ) : Str :=
  let p := if prec = 0 then 1 else prec
  let (n, x) := sciDigits (p - 1) m
  if -4 ≤ x ∧ x < p then
    let q := (p - 1 - x).toNat
    let k := (roundEven (m * 10 ^ q)).toNat
    Stream.joinPoint (natStr (k / 10 ^ q)) (lastDigits q k)
  else Stream.joinPoint (natStr (n / 10 ^ (p - 1))) (lastDigits (p - 1) n) ++ exponent upper x

/-- Whether letters in numbers are capital. -/
def upper (c : PrintfConv) : Bool := c.kind == c!"F" || c.kind == c!"E" || c.kind == c!"G"

/-- A magnitude for `%f`, `%e` or `%g`. -/
def realBody (c : PrintfConv) (m : ℚ) : Str :=
  if c.kind = c!"e" ∨ c.kind = c!"E" then scientific c.upper (c.prec.getD 6) m
  else if c.kind = c!"g" ∨ c.kind = c!"G" then general c.upper (c.prec.getD 6) m
  else printfFixed (c.prec.getD 6) (.fin false m)

/-- The text of an argument; none if the type of the argument is wrong or the specification is undefined. -/
def render (c : PrintfConv) (a : PrintfArg) : Option Str :=
  if c.len ≠ [] ∧ c.len ≠ b!"l" ∧ c.len ≠ b!"ll" ∧ c.len ≠ b!"z" then none
  else if c.kind = c!"d" ∨ c.kind = c!"i" then
    (signed c.len a).map fun v => c.field c.prec.isNone (c.sign (decide (v < 0))) (digits 10 false c.prec v.natAbs)
  else if c.kind = c!"u" then (unsigned c.len a).map fun n => c.field c.prec.isNone [] (digits 10 false c.prec n)
  else if c.kind = c!"o" then (unsigned c.len a).map fun n => c.field c.prec.isNone [] (digits 8 false c.prec n)
  else if c.kind = c!"x" then (unsigned c.len a).map fun n => c.field c.prec.isNone [] (digits 16 false c.prec n)
  else if c.kind = c!"X" then (unsigned c.len a).map fun n => c.field c.prec.isNone [] (digits 16 true c.prec n)
  else if c.kind = c!"c" then
    match a with
    | .int v => if c.len = [] ∧ c.prec = none ∧ c!"0" ∉ c.flags then some (c.field false [] [UInt8.ofInt v]) else none
    | _ => none
  else if c.kind = c!"s" then
    match a with
    | .str s =>
      if c.len = [] ∧ c!"0" ∉ c.flags then
        some (c.field false [] (match c.prec with | none => s | some p => s.take p))
      else none
    | _ => none
  else if c.kind ∈ b!"fFeEgG" then
    match a with
    | .real x =>
      if c.len = [] ∨ c.len = b!"l" then
        match x with
        | .fin neg m => some (c.field true (c.sign neg) (c.realBody m))
        | .inf neg => some (c.field false (c.sign neg) (if c.upper then b!"INF" else b!"inf"))
        | .nan _ => some (c.field false (c.sign false) (if c.upper then b!"NAN" else b!"nan"))
      else none
    | _ => none
  else none

end PrintfConv

/-- The text that a format expands to. The first argument bounds the number of steps. -/
def printfLoop : Nat → Str → List PrintfArg → Res Str
  | 0, _, _ => .diverges
  | _ + 1, [], _ => .ok []
  | n + 1, c :: fmt, args =>
    if c = c!"%" then
      match PrintfConv.parse fmt with
      | none => .ub
      | some (conv, fmt') =>
        if conv.kind = c!"%" then
          if conv.flags = [] ∧ conv.width = 0 ∧ conv.prec = none ∧ conv.len = [] then do
            let t ← printfLoop n fmt' args
            .ok (c!"%" :: t)
          else .ub
        else
          match args with
          | [] => .ub
          | a :: args =>
            match conv.render a with
            | none => .ub
            | some s => do
              let t ← printfLoop n fmt' args
              .ok (s ++ t)
    else do
      let t ← printfLoop n fmt args
      .ok (c :: t)

/-- `vsprintf` -/
def printfText (fmt : Str) (args : List PrintfArg) : Res Str := printfLoop ((cstr fmt).length + 1) (cstr fmt) args

/-- `stringf` (flut/string_tools.cpp:69-84): `vsnprintf` keeps 255 characters, and the string ends at the first NUL. -/
def stringf (fmt : Str) (args : List PrintfArg) : Res Str := do
  let t ← printfText fmt args
  .ok (cstr (t.take 255))

/-- `messagef` and its relatives (flut/system/log.hpp:61-111), with `log_vstring` (flut/system/log.cpp:20-28). -/
def Log.messageFormat (g : Log) (l : Nat) (fmt : Str) (args : List PrintfArg) : Res (List (Nat × Nat × Str)) :=
  if g.testLevel l then do
    let t ← printfText fmt args
    g.messagef l t
  else .ok []

end Flut
