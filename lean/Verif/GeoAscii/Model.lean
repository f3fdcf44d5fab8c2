/-
Model of GeoClaw's ASCII output:

* src/solvers/fc2d_geoclaw/fclaw2d_source/fc2d_geoclaw_output_ascii_fort.f (below: "ascii.f")
* src/solvers/fc2d_geoclaw/fc2d_geoclaw_output_ascii.c (below: "ascii.c")

What is simplified.
* Files, lines, integers and the formats are those of `Verif.Ascii.Model`; reals are an arbitrary type with an
  addition.
* The arrays `q` and `aux` are functions of the indices of their declarations. Only elements inside of the arrays are
  used, except that `q(1,i,j)` and `aux(1,i,j)` do not exist if there are no equations or no auxiliary data.
* The processes write in turn (`fclaw2d_domain_serialization_enter`, see `Verif.Output.Model`), so that the patches are
  given as one list in the order in which they are written.
-/
import Verif.Ascii.Model

set_option autoImplicit false

namespace Fclaw.GeoAscii

open Fclaw.ParFile (Outcome)
open Fclaw.Ascii

/-- One turn of the loop that fills in digits, ascii.f:17-22 and 61-65: the last digit of `nstp`. -/
def digitAt (nstp : Nat) : Char := Char.ofNat (48 + nstp % 10)

/-- The names of the files, ascii.f:12-22 and 57-65: the positions 10, 9, 8, 7 get the digits of the number of the
frame, beginning with the last one. -/
def frameName (letter : Char) (iframe : Nat) : Name :=
  ['f', 'o', 'r', 't', '.', letter, digitAt (iframe / 10 / 10 / 10), digitAt (iframe / 10 / 10),
    digitAt (iframe / 10), digitAt iframe]

/-- `fc2d_geoclaw_fort_write_header`, ascii.f:1-37. -/
def writeHeader {R : Type} (A : Fmt R) (iframe : Nat) (time : R) (meqn maux ngrids : Nat) : List Op :=
  [.clear (frameName 't' iframe),
   .append (frameName 't' iframe) (A.e30 time ++ gap4 ++ "time".toList),
   .append (frameName 't' iframe) (i5 (meqn + 1) ++ gap17 ++ "meqn".toList),
   .append (frameName 't' iframe) (i5 ngrids ++ gap17 ++ "ngrids".toList),
   .append (frameName 't' iframe) (i5 maux ++ gap17 ++ "num_aux".toList),
   .append (frameName 't' iframe) (i5 2 ++ gap17 ++ "num_dim".toList),
   .clear (frameName 'q' iframe)]

/-- What the callback passes on, ascii.c:38-71. -/
structure Patch (R : Type) where
  mx : Nat
  my : Nat
  meqn : Nat
  maux : Nat
  xlower : R
  ylower : R
  dx : R
  dy : R
  q : Nat → Int → Int → R
  aux : Nat → Int → Int → R
  num : Nat
  level : Nat
  blockno : Nat
  mpirank : Nat

/-- ascii.f:69-82. The '/' at the end of format 1002 begins an empty line. -/
def gridHeader {R : Type} (A : Fmt R) (p : Patch R) : List Line :=
  [i5 p.num ++ gap17 ++ "grid_number".toList,
   i5 p.level ++ gap17 ++ "AMR_level".toList,
   i5 p.blockno ++ gap17 ++ "block_number".toList,
   i5 p.mpirank ++ gap17 ++ "mpi_rank".toList,
   i5 p.mx ++ gap17 ++ "mx".toList,
   i5 p.my ++ gap17 ++ "my".toList,
   A.e24 p.xlower ++ gap4 ++ "xlow".toList,
   A.e24 p.ylower ++ gap4 ++ "ylow".toList,
   A.e24 p.dx ++ gap4 ++ "dx".toList,
   A.e24 p.dy ++ gap4 ++ "dy".toList,
   []]

/-- An assignment to `q(mq,i,j)`. -/
def setq {R : Type} (q : Nat → Int → Int → R) (mq : Nat) (i j : Int) (v : R) : Nat → Int → Int → R :=
  fun m a b => if m = mq ∧ a = i ∧ b = j then v else q m a b

/-- ascii.f:96-98. -/
def flushOne {R : Type} (A : Fmt R) (i j : Int) (q : Nat → Int → Int → R) (mq : Nat) : Nat → Int → Int → R :=
  if A.tiny (q mq i j) then setq q mq i j A.zero else q

/-- What is written with the format `5E26.16` (ascii.f:109): after five values the format begins again, in a new
line. The first argument bounds the number of lines. -/
def format5 {R : Type} (A : Fmt R) : Nat → List R → List Line
  | 0, _ => []
  | f + 1, vs =>
    if vs.length ≤ 5 then [vs.flatMap A.e26] else (vs.take 5).flatMap A.e26 :: format5 A f (vs.drop 5)

/-- One cell, ascii.f:95-106. `add` is the addition of reals. -/
def writeCell {R : Type} (A : Fmt R) (add : R → R → R) (p : Patch R) (j i : Nat)
    (s : List Line × (Nat → Int → Int → R)) : Outcome (List Line × (Nat → Int → Int → R)) :=
  if p.meqn = 0 ∨ p.maux = 0 then .ub
  else
    let q := (upTo p.meqn).foldl (flushOne A i j) s.2
    let eta := add (q 1 i j) (p.aux 1 i j)
    let eta := if A.tiny eta then A.zero else eta
    let vs := (upTo p.meqn).map (fun mq => q mq i j) ++ [eta]
    .ok (s.1 ++ format5 A vs.length vs, q)

/-- `write(matunit1,*) ' '`, ascii.f:107. -/
def writeBlank {R : Type} (s : List Line × (Nat → Int → Int → R)) :
    Outcome (List Line × (Nat → Int → Int → R)) :=
  .ok (s.1 ++ [blankLine], s.2)

/-- `fc2d_geoclaw_fort_write_file`, ascii.f:39-113: the lines, and the solution afterwards. -/
def writeFile {R : Type} (A : Fmt R) (add : R → R → R) (p : Patch R) :
    Outcome (List Line × (Nat → Int → Int → R)) :=
  if 5 < p.meqn then .abort
  else
    doLoop (upTo p.my) (fun j s => (doLoop (upTo p.mx) (writeCell A add p j) s).bind writeBlank)
      (gridHeader A p, p.q)

/-- `cb_geoclaw_output_ascii` (ascii.c:38-71) for the patches in turn. -/
def writePatches {R : Type} (A : Fmt R) (add : R → R → R) (iframe : Nat) : List (Patch R) → Outcome (List Op)
  | [] => .ok []
  | p :: ps =>
    (writeFile A add p).bind fun s =>
    (writePatches A add iframe ps).bind fun ops => .ok (s.1.map (Op.append (frameName 'q' iframe)) ++ ops)

/-- `fc2d_geoclaw_output_ascii` (ascii.c:73-110): the first process writes the header, then all patches follow.
`ngrids` is the number of all patches. -/
def outputAscii {R : Type} (A : Fmt R) (add : R → R → R) (iframe : Nat) (time : R) (meqn maux : Nat)
    (ps : List (Patch R)) : Outcome (List Op) :=
  (writePatches A add iframe ps).bind fun ops => .ok (writeHeader A iframe time meqn maux ps.length ++ ops)

end Fclaw.GeoAscii
