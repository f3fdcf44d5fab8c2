/-
Model of counting the values of a line: `get_value_count`, src/solvers/fc2d_geoclaw/geolib_source/utility_module.f90:14-39
(below: "utility.f90"), as geoclaw_module.f90:89-90, refinement_module.f90:61-62 and friction_module.f90:98-102 use it.

What is simplified. A line is a list of characters without the blanks that Fortran adds at its end. `none`: a variable is
used that has no value.
-/
import Mathlib.Data.List.Basic

set_option autoImplicit false

namespace Fclaw.ValueCount

/-- `index(line,"=:")`, utility.f90:26: what stands in front of the first mark, if there is one. -/
def beforeMark : List Char → Option (List Char)
  | [] => none
  | [_] => none
  | a :: b :: rest => if a = '=' ∧ b = ':' then some [] else (beforeMark (b :: rest)).map fun t => a :: t

/-- `trim`. Used in utility.f90:26 and 28. -/
def trim (t : List Char) : List Char := (t.reverse.dropWhile fun c => decide (c = ' ')).reverse

/-- `search_buffer`, utility.f90:20 and 26: 200 characters. Without a mark `index` is 0 and the range is empty. -/
def buffer (line : List Char) : List Char :=
  match beforeMark line with
  | none => []
  | some t => trim ((trim t.dropLast).take 200)

/-- The loop of utility.f90:28-37. `found` has no value at first. -/
def loop : List Char → Option Bool → Nat → Option Nat
  | [], _, n => some n
  | c :: cs, found, n =>
    if c = ' ' then
      found.bind fun f => if f = false then loop cs (some true) (n + 1) else loop cs (some f) n
    else loop cs (some false) n

/-- `get_value_count`, utility.f90:14-39. -/
def getValueCount (line : List Char) : Option Nat := loop (buffer line) none 1

/-- A line of a file is read into a variable of 128 characters, e.g. geoclaw_module.f90:89. -/
def countLine (line : List Char) : Option Nat := getValueCount (line.take 128)

end Fclaw.ValueCount
