import Verif.TopoRead.Model
import Mathlib.Data.List.DropRight
/-
Model of how GeoClaw finds the numbers in the header of a file with topography:

* src/solvers/fc2d_geoclaw/geolib_source/utility_module.f90: `parse_values` (53-108), `to_lower` (229-255);
* src/solvers/fc2d_geoclaw/geolib_source/topo_module.f90: `read_topo_header`, cases 2 and 3, up to the shift of the corner (796-830).

Simplifications: a string is a list of characters. `num` says what a list-directed `read` of one number from a word gives: the number, or an
error (`iostat` not zero); words for which `read` leaves its variable alone without an error, such as `/`, are not modelled. Messages and
the verbose output are left out. The result of the header is that of the model of C102 (`TopoRead.Head`).
-/
set_option autoImplicit false
namespace Fclaw.HeaderText

/-- A string. -/
abbrev Str := List Char

/-- What can happen: a value, the run stops, a variable is used that has not been set, the file ends. -/
inductive Res (α : Type) where
  | val (a : α)
  | stops
  | unset
  | endOfFile

def Res.bind {α β : Type} (r : Res α) (f : α → Res β) : Res β := match r with
  | .val a => f a
  | .stops => .stops
  | .unset => .unset
  | .endOfFile => .endOfFile

/-- The intrinsic function `adjustl`: leading blanks are moved to the end. -/
def adjustl (s : Str) : Str := s.dropWhile (fun c => c == ' ') ++ s.takeWhile (fun c => c == ' ')

/-- The intrinsic function `trim`. -/
def trim (s : Str) : Str := s.rdropWhile (fun c => c == ' ')

/-- Assignment to a variable of type `character(len=n)`: the value is cut or filled with blanks. -/
def assign (n : ℕ) (s : Str) : Str := (s ++ List.replicate n ' ').take n

/-- The intrinsic function `index`: the first position of `sub`, or 0. -/
def index : Str → Str → ℕ
  | [], sub => if sub.isPrefixOf [] then 1 else 0
  | c :: s, sub => if sub.isPrefixOf (c :: s) then 1 else if index s sub = 0 then 0 else index s sub + 1

/-- The loop of `parse_values` (lines 75-94) with `str2`. The first argument is `10 - nw`. -/
def tokens : ℕ → Str → Res (List Str)
  | 0, _ => .stops
  | k + 1, str2 =>
    if (trim (adjustl str2)).length > 0 then
      let pos2 := index str2 [' ']
      if pos2 = 0 then .val [assign 80 (trim (adjustl str2))]
      else
        let word := assign 80 (trim (adjustl (str2.take (pos2 - 1))))
        let str2' := assign 80 (trim (adjustl (str2.drop pos2)))
        if k = 0 then .stops
        else (tokens k str2').bind fun ws => .val (word :: ws)
    else .val []

/-- `parse_values` (lines 53-108): the values, whose number is `n`. -/
def parseValues (num : Str → Option ℝ) (str : Str) : Res (List ℝ) :=
  (tokens 10 (assign 80 (trim (adjustl str)))).bind fun words => .val (words.filterMap num)

/-- `UPPER_CASE` and `LOWER_CASE` (lines 7-8) -/
def upperCase : Str := "ABCDEFGHIJKLMNOPQRSTUVWXYZ".toList
def lowerCase : Str := "abcdefghijklmnopqrstuvwxyz".toList

/-- One step of the loop of `to_lower` (lines 245-253). -/
def lowerChar (c : Char) : Char :=
  let n := index upperCase [c]
  if n ≠ 0 then lowerCase.getD (n - 1) ' ' else c

/-- `to_lower` (lines 229-255). -/
def toLower (s : Str) : Str := s.map lowerChar

/-- `values(1)`, `values` has no value before `parse_values`. -/
def value1 : List ℝ → Res ℝ
  | v :: _ => .val v
  | [] => .unset

/-- `if (n == 2) dy = values(2)` (lines 822-826). -/
def value2 : List ℝ → Option ℝ
  | [_, v] => some v
  | _ => none

noncomputable section

/-- The intrinsic function `nint`. -/
def nint (x : ℝ) : ℤ := if 0 ≤ x then ⌊x + 1 / 2⌋ else -⌊-x + 1 / 2⌋

/-- The header (lines 798-830); `str` has the type `character(len=80)`. -/
def head (num : Str → Option ℝ) : List Str → Res TopoRead.Head
  | l1 :: l2 :: l3 :: l4 :: l5 :: l6 :: _ =>
    (parseValues num (assign 80 l1)).bind fun v1 => (value1 v1).bind fun mx =>
    (parseValues num (assign 80 l2)).bind fun v2 => (value1 v2).bind fun my =>
    (parseValues num (assign 80 l3)).bind fun v3 => (value1 v3).bind fun xll =>
    let xllRegistered := decide (index (toLower (assign 80 l3)) "xllcorner".toList > 0)
    (parseValues num (assign 80 l4)).bind fun v4 => (value1 v4).bind fun yll =>
    let yllRegistered := decide (index (toLower (assign 80 l4)) "yllcorner".toList > 0)
    (parseValues num (assign 80 l5)).bind fun v5 => (value1 v5).bind fun dx =>
    (parseValues num (assign 80 l6)).bind fun v6 => (value1 v6).bind fun nodata =>
    .val ⟨nint mx, nint my, xll, yll, xllRegistered, yllRegistered, dx, value2 v5, nodata⟩
  | _ => .endOfFile

end

end Fclaw.HeaderText
