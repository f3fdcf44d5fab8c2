/-
What a reader expects of the files of a frame.
-/
import Verif.GeoAscii.Model

set_option autoImplicit false

namespace Fclaw.GeoAscii.Spec

open Fclaw.Ascii (Fmt Line)

/-- A value in the file: what is too small for the exponent is zero. -/
def shown {R : Type} (A : Fmt R) (v : R) : R := if A.tiny v then A.zero else v

/-- The line of a cell: the `meqn` components of the solution, then the height of the surface of the water, depth plus
height of the ground, each in 26 columns. -/
def cellLine {R : Type} (A : Fmt R) (add : R → R → R) (meqn : Nat) (q aux : Nat → Int → Int → R) (i j : Int) : Line :=
  ((List.range meqn).flatMap fun m => A.e26 (shown A (q (m + 1) i j))) ++
    A.e26 (shown A (add (shown A (q 1 i j)) (aux 1 i j)))

/-- The lines of a patch below its header: row by row from below, each from left to right, a blank line after each
row. -/
def body {R : Type} (A : Fmt R) (add : R → R → R) (mx my meqn : Nat) (q aux : Nat → Int → Int → R) : List Line :=
  (List.range my).flatMap fun (j : Nat) =>
    ((List.range mx).map fun (i : Nat) => cellLine A add meqn q aux ((i : Int) + 1) ((j : Int) + 1)) ++ [[' ', ' ']]

/-- The header of a patch. -/
def head {R : Type} (A : Fmt R) (num level block rank mx my : Nat) (xlower ylower dx dy : R) : List Line :=
  let int (n : Nat) (label : String) := Fclaw.Ascii.i5 n ++ "                 ".toList ++ label.toList
  let real (x : R) (label : String) := A.e24 x ++ "    ".toList ++ label.toList
  [int num "grid_number", int level "AMR_level", int block "block_number", int rank "mpi_rank", int mx "mx", int my "my",
   real xlower "xlow", real ylower "ylow", real dx "dx", real dy "dy", []]

/-- The solution afterwards: in the cells of the patch, what is written; elsewhere what it was. -/
def after {R : Type} (A : Fmt R) (mx my meqn : Nat) (q : Nat → Int → Int → R) : Nat → Int → Int → R :=
  fun m i j =>
    if (1 ≤ m ∧ m ≤ meqn) ∧ (1 ≤ i ∧ i ≤ mx) ∧ (1 ≤ j ∧ j ≤ my) then shown A (q m i j) else q m i j

/-- The file with the sizes of a frame. -/
def timeFile {R : Type} (A : Fmt R) (time : R) (values grids maux : Nat) : List Line :=
  let int (n : Nat) (label : String) := Fclaw.Ascii.i5 n ++ "                 ".toList ++ label.toList
  [A.e30 time ++ "    ".toList ++ "time".toList, int values "meqn", int grids "ngrids", int maux "num_aux",
   int 2 "num_dim"]

end Fclaw.GeoAscii.Spec
