/-
Model of reading regions.data: `set_regions`, src/solvers/fc2d_geoclaw/amrlib_source/regions_module.f90:24-69 (below:
"regions.f90"), with `opendatafile` as in `Verif.DataFile.Model`.

What is simplified. A line with the data of a region is turned into these data by a function that is given (`rec`, `none`
if the line does not have eight numbers; Fortran would go on in the next line). List-directed input skips blank lines.
`module_setup`, which has no initial value in the source, is false at first. `stop` and errors of input are `none`.
-/
import Verif.DataFile.Model

set_option autoImplicit false

namespace Fclaw.RegionRead

open Fclaw.DataFile

/-- A decimal digit, as the input of regions.f90:50 takes it. -/
def digit (c : Char) : Option Int := if '0' ≤ c ∧ c ≤ '9' then some ((c.toNat : Int) - 48) else none

/-- `read(unit,"(i2)")`, regions.f90:50: the first two columns, blanks are ignored. -/
def readI2 (l : Line) : Option Int :=
  match l.getD 0 ' ', l.getD 1 ' ' with
  | ' ', ' ' => some 0
  | ' ', b => digit b
  | a, ' ' => digit a
  | '-', b => (digit b).map fun x => -x
  | '+', b => digit b
  | a, b => (digit a).bind fun x => (digit b).map fun y => 10 * x + y

/-- List-directed input of a line, regions.f90:58: blank lines are skipped. The line and what is left. -/
def nextLine : List Line → Option (Line × List Line)
  | [] => none
  | l :: rest => if l.all (fun c => decide (c = ' ')) then nextLine rest else some (l, rest)

/-- The loop of regions.f90:57-62. -/
def readAll {α : Type} (rec : Line → Option α) : Nat → List Line → Option (List α)
  | 0, _ => some []
  | n + 1, f =>
    (nextLine f).bind fun (l, rest) => (rec l).bind fun r => (readAll rec n rest).map fun rs => r :: rs

/-- `set_regions`, first call, regions.f90:24-69. -/
def setRegions {α : Type} (rec : Line → Option α) (file : Option (List Line)) : Option (List α) :=
  (openDataFile file).bind fun (_, f) =>
  match f with
  | [] => none
  | l :: rest => (readI2 l).bind fun n => if n = 0 then some [] else readAll rec n.toNat rest

end Fclaw.RegionRead
