import Verif.Model.Strings

/-!
# Model of `flut/char_stream.hpp|cpp`

The stream is represented by the bytes from `cur_pos` to `buffer_end` (`rest`), since the code never moves
backwards, and by its two flags. `cur_pos_end` is only used inside one call and is a local of the model.
-/

namespace Flut

/-- State of a `char_stream`, /repo/flut/char_stream.hpp:64-73. `radix` is always 10. -/
structure CharStream where
  /-- the bytes in `[cur_pos, buffer_end)` -/
  rest : Str
  /-- the delimiter characters, without the terminating NUL -/
  delims : Str
  fail : Bool := false
  eof : Bool := false
  deriving DecidableEq, Repr

/-- `default_delimiters()`, /repo/flut/char_stream.hpp:17. -/
def defaultDelims : Str := [32, 9, 13, 10, 12, 11]

/-- `strchr(set, c) != nullptr`; the terminating NUL counts as part of the set. -/
def strchr (set : Str) (c : Byte) : Bool := c == 0 || set.contains c

namespace CharStream

/-- `good()`, /repo/flut/char_stream.hpp:52. -/
def good (s : CharStream) : Bool := !(s.fail || s.eof)

/-- `test_eof()`, /repo/flut/char_stream.hpp:61 (the state after the call). -/
def testEof (s : CharStream) : CharStream := if s.rest.isEmpty then { s with eof := true } else s

/-- `skip_delimiters()`, /repo/flut/char_stream.hpp:59. -/
def skipDelims (s : CharStream) : CharStream :=
  { s with rest := s.rest.dropWhile (strchr s.delims) }.testEof

/-- `init_buffer`, /repo/flut/char_stream.cpp:92-99. -/
def init (buf delims : Str) : CharStream := { rest := buf, delims := delims : CharStream }.skipDelims

/-- `char_stream(const char*, delim)`, /repo/flut/char_stream.cpp:9-12: the buffer ends at the first NUL. -/
def ofCStr (buf : Str) (delims : Str := defaultDelims) : CharStream := init (cstr buf) delims

/-- `char_stream(string&&, delim)`, /repo/flut/char_stream.cpp:14-17. -/
def ofString (buf : Str) (delims : Str := defaultDelims) : CharStream := init buf delims

/-- `process_end_pos()`, /repo/flut/char_stream.hpp:62, where `n = cur_pos_end - cur_pos`. -/
def processEnd (s : CharStream) (n : Nat) : CharStream :=
  if n = 0 then { s with fail := true } else { s with rest := s.rest.drop n }.skipDelims

/-- `getc()`, /repo/flut/char_stream.hpp:49. At the end of the buffer it moves `cur_pos` beyond the
terminator, after which every access is out of range; the model reports that as `ub` at once. -/
def getc (s : CharStream) : Res (Byte × CharStream) :=
  match s.rest with
  | [] => .ub
  | c :: cs => .ok (c, { s with rest := cs }.testEof)

/-- `peekc()`, /repo/flut/char_stream.hpp:50; the terminator is readable. -/
def peekc (s : CharStream) : Byte := s.rest.headD 0

/-- `operator>>(string&)`, /repo/flut/char_stream.cpp:23-29. `isspace` of a negative `char` is `ub`. The loop
stops at the NUL terminator at the latest. -/
def readStr (s : CharStream) : Res (Str × CharStream) :=
  let w := s.rest.takeWhile fun c => c != 0 && !isSpaceC c
  if w.any (fun c => decide (128 ≤ c.toNat)) then .ub
  else .ok (w, s.processEnd w.length)

/-- `get_line()`, /repo/flut/char_stream.cpp:31-38. `strcspn` stops at the terminator at the latest. -/
def getLine (s : CharStream) : Str × CharStream :=
  let l := s.rest.takeWhile fun c => c != 0 && c != 13 && c != 10
  (l, s.processEnd l.length)

/-! ### `get_token` -/

/-- The inner loop of `get_token` over a quoted part, /repo/flut/char_stream.cpp:58-73: `s` is the text so far,
the last argument the bytes from `cur_pos`. The result is the text and the remaining bytes. `good()` is false
exactly when no bytes remain. The first argument bounds the number of iterations. -/
def quoteLoop (quote : Byte) : Nat → Str → Str → Res (Str × Str)
  | 0, _, _ => .diverges
  | _ + 1, s, [] => .ok (s, [])
  | n + 1, s, c :: cs =>
    if c = quote then .ok (s, cs)
    else if c = 92 then do
      let (ch, len) ← decodeChar (c :: cs)
      if len > (c :: cs).length then .ub
      else quoteLoop quote n (s ++ [ch]) ((c :: cs).drop len)
    else quoteLoop quote n (s ++ [c]) cs

/-- The outer loop of `get_token`, /repo/flut/char_stream.cpp:44-86: `s` is the text so far, `pend` the bytes in
`[cur_pos, cur_pos_end)` and the last argument the bytes from `cur_pos_end`. The result is the token and the
bytes from `cur_pos` when the loop ends. After a quoted part that reaches the end of the buffer `good()` is
false and the loop ends. The first argument bounds the number of iterations. -/
def tokenLoop (delims operators quotes : Str) : Nat → Str → Str → Str → Res (Str × Str)
  | 0, _, _, _ => .diverges
  | _ + 1, s, pend, [] => .ok (s ++ pend, [])
  | n + 1, s, pend, c :: cs =>
    if strchr delims c then .ok (s ++ pend, c :: cs)
    else if strchr quotes c then do
      let (s', rest) ← quoteLoop c n s cs
      if rest.isEmpty then .ok (s', []) else tokenLoop delims operators quotes n s' [] rest
    else if strchr operators c then
      if pend.isEmpty && s.isEmpty then .ok ([c], cs) else .ok (s ++ pend, c :: cs)
    else tokenLoop delims operators quotes n s (pend ++ [c]) cs

/-- `get_token` with an explicit iteration bound, /repo/flut/char_stream.cpp:40-90. -/
def getTokenN (n : Nat) (s : CharStream) (operators quotes : Str) : Res (Str × CharStream) :=
  if s.good then do
    let (t, rest) ← tokenLoop s.delims operators quotes n [] [] s.rest
    .ok (t, { s with rest := rest }.skipDelims)
  else .ok ([], s.skipDelims)

/-- `get_token`, /repo/flut/char_stream.cpp:40-90. The bound is large enough for every stream on which the call
returns (`Props/CharStream.lean`, C14). -/
def getToken (s : CharStream) (operators : Str := []) (quotes : Str := [34]) : Res (Str × CharStream) :=
  s.getTokenN (s.rest.length + 2) operators quotes

/-! ### Integers -/

/-- The value of a digit string. -/
def digitsVal (ds : Str) : Nat := ds.foldl (fun a d => a * 10 + (d.toNat - 48)) 0

/-- Restriction to the range of a signed integer of the given width, as `strtol` does on overflow. -/
def saturate (bits : Nat) (v : Int) : Int :=
  if v < -(2 ^ (bits - 1) : Int) then -(2 ^ (bits - 1) : Int)
  else if v > (2 ^ (bits - 1) : Int) - 1 then (2 ^ (bits - 1) : Int) - 1
  else v

/-- `strtol(p, &end, 10)` of the C standard library, for a `long` of the given width: the value and `end - p`
(zero when there is no number). -/
def strtol (bits : Nat) (p : Str) : Int × Nat :=
  let sp := p.takeWhile isSpaceC
  let p1 := p.drop sp.length
  let sgn : Nat := match p1 with
    | c :: _ => if c = 45 ∨ c = 43 then 1 else 0
    | [] => 0
  let neg : Bool := p1.head? == some 45
  let ds := (p1.drop sgn).takeWhile isDigitC
  if ds.isEmpty then (0, 0)
  else
    let v : Int := digitsVal ds
    (saturate bits (if neg then -v else v), sp.length + sgn + ds.length)

/-- `operator>>(long&)` and `operator>>(long long&)`, /repo/flut/char_stream.hpp:36-37. -/
def readLong (bits : Nat) (s : CharStream) : Int × CharStream :=
  let r := strtol bits s.rest
  (r.1, s.processEnd r.2)

/-- `vec.size() < max_values`, where `none` is `no_index`. -/
def hasRoom (max : Option Nat) (size : Nat) : Bool :=
  match max with
  | none => true
  | some m => decide (size < m)

/-- The loop of `str_to_vec<long>`, /repo/flut/string_tools.hpp:79. `max = none` is `no_index`. -/
def readVec (bits : Nat) (max : Option Nat) : Nat → CharStream → List Int → Res (List Int)
  | 0, _, _ => .diverges
  | n + 1, s, vec =>
    if s.good && hasRoom max vec.length then
      let (v, s') := s.readLong bits
      readVec bits max n s' (if s'.fail then vec else vec ++ [v])
    else .ok vec

end CharStream

/-- `str_to_vec<long>`, /repo/flut/string_tools.hpp:76-81. -/
def strToVec (bits : Nat) (s : Str) (max : Option Nat) (delims : Str := defaultDelims) : Res (List Int) :=
  let cs := CharStream.ofCStr s delims
  CharStream.readVec bits max (cs.rest.length + 2) cs []

/-- `scan_str_impl` for `k` variables of type `long`, /repo/flut/string_tools.hpp:54-56: the count returned and
the values stored in the variables that were read. -/
def scanImpl (bits : Nat) : Nat → CharStream → Nat × List Int
  | 0, _ => (0, [])
  | k + 1, s =>
    let (v, s') := s.readLong bits
    if s'.good then
      let r := scanImpl bits k s'
      (r.1 + 1, v :: r.2)
    else (0, [v])

/-- `scan_str` for `k` variables of type `long`, /repo/flut/string_tools.hpp:59-60. -/
def scanStr (bits : Nat) (s : Str) (k : Nat) : Nat × List Int := scanImpl bits k (CharStream.ofCStr s)

/-! ### Call sequences -/

/-- The calls a client can make. -/
inductive StreamOp where
  | token (operators quotes : Str)
  | line
  | str
  | long
  | getc
  | peekc

/-- One call. `getc` is made only while `good()` holds. -/
def StreamOp.run (bits : Nat) : StreamOp → CharStream → Res CharStream
  | .token o q, s => do let r ← s.getToken o q; .ok r.2
  | .line, s => .ok s.getLine.2
  | .str, s => do let r ← s.readStr; .ok r.2
  | .long, s => .ok (s.readLong bits).2
  | .getc, s => if s.good then do let r ← s.getc; .ok r.2 else .ok s
  | .peekc, s => .ok s

/-- A sequence of calls. -/
def runOps (bits : Nat) : List StreamOp → CharStream → Res CharStream
  | [], s => .ok s
  | op :: ops, s => do let s' ← op.run bits s; runOps bits ops s'

end Flut
