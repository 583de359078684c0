import Verif.Model.Profiler
import Verif.Model.Float

/-!
# The text of the profiler's report

`printf` is modelled as the standard prescribes for the "C" locale, with correctly rounded digits. The sign with which not-a-number is
printed depends on the processor and is left out.
-/

namespace Flut

/-- `%.pf` of `printf` without a width. -/
def printfFixed (p : Nat) : Flt → Str
  | .fin neg m =>
    let n := (roundEven (m * 10 ^ p)).toNat
    let frac := natStr (n % 10 ^ p)
    (if neg then [45] else []) ++ natStr (n / 10 ^ p) ++ (if p = 0 then [] else 46 :: (List.replicate (p - frac.length) 48 ++ frac))
  | .inf neg => (if neg then [45] else []) ++ b!"inf"
  | .nan _ => b!"nan"

/-- The width of a `printf` conversion: blanks on the left. -/
def padLeft (w : Nat) (s : Str) : Str := List.replicate (w - s.length) 32 ++ s

/-- The conversion of a `long long` to `double`. -/
def doubleOf (n : Int) : Flt := Fmt.double.ofRat n

/-- Nanoseconds divided by `1e6`. -/
def millis (n : Int) : Flt := Fmt.double.div (doubleOf n) (.fin false 1000000)

/-- `100.0 * a / b` -/
def percent (a b : Flt) : Flt := Fmt.double.div (Fmt.double.mul (.fin false 100) a) b

/-- The text of a line (flut/system/profiler.cpp:89-97). -/
def lineFormat (l : Profiler.Line) : Str :=
  let rootTotal := millis l.root
  let total := millis l.total
  let relTotal := percent total rootTotal
  let relEx := percent (millis l.exclusive) rootTotal
  let relOver := percent (millis l.overhead) total
  padLeft 6 (printfFixed 0 total) ++ b!"ms " ++ padLeft 6 (printfFixed 2 relTotal) ++ b!"% (" ++ padLeft 5 (printfFixed 2 relEx) ++
    b!"% exclusive " ++ padLeft 5 (printfFixed 2 relOver) ++ b!"% overhead)"

/-- `stringf` cuts its result after 255 characters (flut/string_tools.cpp:77-80). -/
def reportLine (l : Profiler.Line) : Str := (lineFormat l).take 255

end Flut
