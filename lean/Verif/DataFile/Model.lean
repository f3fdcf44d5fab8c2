/-
Model of `opendatafile`, src/solvers/fc2d_geoclaw/amrlib_source/opendatafile.f (below: "open.f"), with which GeoClaw opens
all of its data files (qinit.data, topo.data, dtopo.data, geoclaw.data, refinement.data, regions.data, friction.data,
surge.data, fixed_grids.data).

What is simplified. A file is the list of its lines, a name is either that of a file or not. What is printed is left
out, except for the number of comment lines. `stop` and the error at the end of a file are `none`.
-/
set_option autoImplicit false

namespace Fclaw.DataFile

abbrev Line := List Char

/-- `read(iunit,"(a1)") firstchar`: a blank if the line is empty. -/
def firstChar : Line → Char
  | [] => ' '
  | c :: _ => c

/-- The loop of open.f:50-57. `fuel` is the number of turns that are left, `n` is `commentlines`. The result is
`commentlines` and what is left to be read. -/
def skip : Nat → Int → Char → List Line → Option (Int × List Line)
  | 0, n, _, f => some (n, f)
  | fuel + 1, n, first, f =>
    if first = '#' then
      match f with
      | [] => none
      | l :: rest => skip fuel (n + 1) (firstChar l) rest
    else some (n, f)

/-- `opendatafile`, open.f:1-74: `none` in place of a file if it does not exist. The loop `do commentlines=-1,1000` has
1002 turns. -/
def openDataFile (file : Option (List Line)) : Option (Int × List Line) :=
  match file with
  | none => none
  | some f => skip 1002 (-1) '#' f

end Fclaw.DataFile
