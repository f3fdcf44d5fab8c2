import Mathlib.Data.Rat.Defs
import Mathlib.Tactic.Linarith
/-
Model of the conversion of options that hold several numbers (src/fclaw_options.c:691-740), for example
`--mthbc="1 1 3 3"` or `--scale="1 1 2"`.

The functions `strtol` and `strtod` are those of the C library. Here they are written after the C standard (7.22.1.3,
7.22.1.4): skip white space, read an optional sign and the longest numeral, return the value and the rest; without a numeral return
zero and the text as it was. Simplifications: a `long` has 64 bits, an `int` 32, and the cast between them keeps the
low bits (which is what the usual compilers do). Of the numerals of `strtod` the hexadecimal ones, infinity and nan are left out. Its
value is the exact one, rounded by a function that is a parameter.
-/
set_option autoImplicit false
namespace Fclaw.OptArray

/-- `isspace` in the C locale. -/
def isSpace (c : Char) : Bool := decide (c = ' ' ∨ c = '\t' ∨ c = '\n' ∨ c = '\r' ∨ c = '\x0b' ∨ c = '\x0c')

/-- `isdigit` -/
def isDigit (c : Char) : Bool := decide ('0'.toNat ≤ c.toNat ∧ c.toNat ≤ '9'.toNat)

/-- The value of a text of digits, to the base 10. -/
def decVal (s : List Char) : ℕ := s.foldl (fun a c => 10 * a + (c.toNat - '0'.toNat)) 0

/-- An optional sign: is it negative, and the rest. -/
def readSign : List Char → Bool × List Char
  | '-' :: s => (true, s)
  | '+' :: s => (false, s)
  | s => (false, s)

/-- Values outside of the range of `long` become its ends. -/
def clampLong (v : ℤ) : ℤ := if v < -2 ^ 63 then -2 ^ 63 else if v > 2 ^ 63 - 1 then 2 ^ 63 - 1 else v

/-- C library, `strtol (s, &end, 10)` -/
def strtol (s : List Char) : ℤ × List Char :=
  let (neg, s2) := readSign (s.dropWhile isSpace)
  let ds := s2.takeWhile isDigit
  if ds = [] then (0, s)
  else (clampLong (if neg then -(decVal ds : ℤ) else decVal ds), s2.dropWhile isDigit)

/-- The cast of a `long` to `int`. -/
def toInt32 (v : ℤ) : ℤ := (v + 2 ^ 31) % 2 ^ 32 - 2 ^ 31

/-- The loop of both conversions (fclaw_options.c:700-713, 726-739), for the next `n` elements. `beginptr == NULL` is `none`.
`conv` is the call of `strtol` with the cast, or of `strtod`. -/
def convertLoop {α : Type} (zero : α) (conv : List Char → α × List Char) : ℕ → Option (List Char) → List α
  | 0, _ => []
  | n + 1, none => zero :: convertLoop zero conv n none
  | n + 1, some s => (conv s).1 :: convertLoop zero conv n (some (conv s).2)

/-- `fclaw_options_convert_int_array` (fclaw_options.c:691-714). The result is the array after the call: it has been given
the length `SC_MAX (new_length, 0)`, and each element has been written. -/
def convertInts (s : Option (List Char)) (newLength : ℤ) : List ℤ :=
  convertLoop 0 (fun s => (toInt32 (strtol s).1, (strtol s).2)) (max newLength 0).toNat s

/-- An optional fraction of a numeral: the digits after the point, and the rest. A point without digits around it is not part of a
numeral. -/
def readFrac (hasInt : Bool) : List Char → List Char × List Char
  | '.' :: s =>
    let ds := s.takeWhile isDigit
    if ds = [] ∧ ¬ hasInt then ([], '.' :: s) else (ds, s.dropWhile isDigit)
  | s => ([], s)

/-- An optional exponent: `e` or `E`, an optional sign and at least one digit. -/
def readExp : List Char → ℤ × List Char
  | c :: s =>
    if c = 'e' ∨ c = 'E' then
      let (neg, s2) := readSign s
      let ds := s2.takeWhile isDigit
      if ds = [] then (0, c :: s)
      else (if neg then -(decVal ds : ℤ) else decVal ds, s2.dropWhile isDigit)
    else (0, c :: s)
  | [] => (0, [])

/-- C library, `strtod (s, &end)`, before rounding. -/
def strtod (s : List Char) : ℚ × List Char :=
  let (neg, s2) := readSign (s.dropWhile isSpace)
  let ds := s2.takeWhile isDigit
  let (fs, s3) := readFrac (decide (ds ≠ [])) (s2.dropWhile isDigit)
  if ds = [] ∧ fs = [] then (0, s)
  else
    let (e, s4) := readExp s3
    let v : ℚ := ((decVal (ds ++ fs) : ℕ) : ℚ) / 10 ^ fs.length * (10 : ℚ) ^ e
    (if neg then -v else v, s4)

/-- `fclaw_options_convert_double_array` (fclaw_options.c:716-740). `rnd` rounds to a `double`. -/
def convertDoubles {α : Type} (zero : α) (rnd : ℚ → α) (s : Option (List Char)) (newLength : ℤ) : List α :=
  convertLoop zero (fun s => (rnd (strtod s).1, (strtod s).2)) (max newLength 0).toNat s

end Fclaw.OptArray
