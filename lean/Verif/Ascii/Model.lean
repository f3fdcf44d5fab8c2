/-
Model of the ASCII output of `src/patches/clawpatch/fclaw2d_clawpatch_output_ascii.c`
(below: "ascii.c"; the same source is compiled for 3D patches on a 2D forest
through `fclaw3dx_clawpatch_output_ascii.c`) with the three Fortran writers

* `src/patches/clawpatch/fort_4.6/fclaw2d_clawpatch46_output_ascii.f` ("46.f"),
* `src/patches/clawpatch/fort_5.0/fclaw2d_clawpatch5_output_ascii.f` ("5.f"),
* `src/patches/clawpatch/fort3_4.6/fclaw3dx_clawpatch46_output_ascii.f90` ("3.f90").

One file "fort.tXXXX" with the sizes and one file "fort.qXXXX" with all patches
is written for each frame, by all processes in turn (`Verif.Output.Model`).

What is simplified.
* A file is the list of its lines.  Each line reaches the file when it is
  written; the calls of the I/O layer succeed.
* The numbers of type `int` are natural numbers (no number here is negative).
* Reals are an arbitrary type with the texts of the formats e30.20, e24.16 and
  e26.16 (`Fmt`).
* A name of a file that is passed to Fortran ends at the NUL character, or after
  eleven characters.
-/
import Verif.Output.Model

set_option autoImplicit false

namespace Fclaw.Ascii

open Fclaw.ParFile (Outcome)
open Fclaw.Output (Dom LocalBlock iteratePatches)

abbrev Line := List Char
abbrev Name := List Char

/-- The shared files. -/
abbrev Files := Name → Option (List Line)

/-- What is done with a file: replace its contents by nothing, or append a line
(`open` with `position='append'` creates the file). -/
inductive Op where
  | clear (name : Name)
  | append (name : Name) (line : Line)

def apply (fs : Files) : Op → Files
  | .clear name => fun x => if x = name then some [] else fs x
  | .append name line => fun x => if x = name then some ((fs name).getD [] ++ [line]) else fs x

/-- Reals: zero, the condition `abs(q) .lt. 1d-99`, and the three formats. -/
structure Fmt (R : Type) where
  zero : R
  tiny : R → Bool
  e24 : R → List Char
  e26 : R → List Char
  e30 : R → List Char

/-- The decimal digits of a number. -/
def digitsAux : Nat → Nat → List Char
  | 0, _ => []
  | f + 1, n => (if n < 10 then [] else digitsAux f (n / 10)) ++ [Char.ofNat (48 + n % 10)]
def digits (n : Nat) : List Char := digitsAux (n + 1) n

/-- Format `i5`: five columns, right-justified, asterisks if they are too few. -/
def i5 (n : Nat) : List Char :=
  if (digits n).length ≤ 5 then List.replicate (5 - (digits n).length) ' ' ++ digits n
  else List.replicate 5 '*'

/-- Format "%04d". -/
def d4 (n : Nat) : List Char := List.replicate (4 - (digits n).length) '0' ++ digits n

/-- Seventeen blanks. -/
abbrev gap17 : List Char := List.replicate 17 ' '
/-- Four blanks. -/
abbrev gap4 : List Char := List.replicate 4 ' '
/-- What `write(matunit1,*) ' '` writes: list-directed output begins with a blank. -/
abbrev blankLine : Line := [' ', ' ']

/-- The three writers. -/
inductive Writer where
  | v46 | v5 | v3

/-- The options of the patches and the prefix of the files (`src/fclaw_options.c` 177). -/
structure Params where
  writer : Writer
  mx : Nat
  my : Nat
  mz : Nat
  mbc : Nat
  meqn : Nat
  maux : Nat
  pre : List Char

/-- What the callback reads of a patch: its level, `fclaw2d_clawpatch_grid_data`
and the array of `fclaw2d_clawpatch_soln_data`. -/
structure Patch (R : Type) where
  level : Nat
  xlower : R
  ylower : R
  zlower : R
  dx : R
  dy : R
  dz : R
  q : List R

/-- `sprintf` of ascii.c 119–120 into `char[11]`: eleven characters and NUL do not fit. -/
def matname (letter : Char) (iframe : Nat) : Outcome Name :=
  let s := ['f', 'o', 'r', 't', '.', letter] ++ d4 iframe
  if s.length < 11 then .ok s else .ub

/-- The name of ascii.c 78 as Fortran sees it (`character(len=11)`). -/
def patchName (P : Params) (iframe : Nat) : Name := (P.pre ++ ['.', 'q'] ++ d4 iframe).take 11

/-- The number in the last line of the time header: 46.f 26, 5.f 26, 3.f90 16. -/
def numDim : Writer → Nat
  | .v46 => 2
  | .v5 => 2
  | .v3 => 3

/-- `fclaw2d_clawpatch46_fort_header_ascii`, 46.f 11–38; the same text in 5.f
11–38 and 3.f90 1–28.  Writing to `matname2` from its beginning leaves nothing of
its former contents. -/
def headerAscii {R : Type} (A : Fmt R) (dim : Nat) (matname1 matname2 : Name) (time : R)
    (meqn maux ngrids : Nat) : List Op :=
  [.clear matname2,
   .append matname2 (A.e30 time ++ gap4 ++ "time".toList),
   .append matname2 (i5 meqn ++ gap17 ++ "meqn".toList),
   .append matname2 (i5 ngrids ++ gap17 ++ "ngrids".toList),
   .append matname2 (i5 maux ++ gap17 ++ "num_aux".toList),
   .append matname2 (i5 dim ++ gap17 ++ "num_dim".toList),
   .clear matname1]

/-- `fclaw2d_clawpatch_time_header_ascii`, ascii.c 112–130. -/
def timeHeader {R : Type} (A : Fmt R) (P : Params) (time : R) (ngrids iframe : Nat) :
    Outcome (List Op) :=
  (matname 'q' iframe).bind fun matname1 =>
  (matname 't' iframe).bind fun matname2 =>
  .ok (headerAscii A (numDim P.writer) matname1 matname2 time P.meqn P.maux ngrids)

/-- `fclaw2d_clawpatch46_fort_write_grid_header`, 46.f 111–138, and
`fclaw2d_clawpatch5_fort_write_grid_header`, 5.f 108–135: the '/' at the end of
format 1002 begins an empty line. -/
def gridHeader2 {R : Type} (A : Fmt R) (P : Params) (pt : Patch R)
    (patchNum level blockno mpirank : Nat) : List Line :=
  [i5 patchNum ++ gap17 ++ "grid_number".toList,
   i5 level ++ gap17 ++ "AMR_level".toList,
   i5 blockno ++ gap17 ++ "block_number".toList,
   i5 mpirank ++ gap17 ++ "mpi_rank".toList,
   i5 P.mx ++ gap17 ++ "mx".toList,
   i5 P.my ++ gap17 ++ "my".toList,
   A.e24 pt.xlower ++ gap4 ++ "xlow".toList,
   A.e24 pt.ylower ++ gap4 ++ "ylow".toList,
   A.e24 pt.dx ++ gap4 ++ "dx".toList,
   A.e24 pt.dy ++ gap4 ++ "dy".toList,
   []]

/-- `fclaw3dx_clawpatch46_fort_write_grid_header`, 3.f90 85–113: format 1001
ends with '/' as well. -/
def gridHeader3 {R : Type} (A : Fmt R) (P : Params) (pt : Patch R)
    (patchNum level blockno mpirank : Nat) : List Line :=
  [i5 patchNum ++ gap17 ++ "grid_number".toList,
   i5 level ++ gap17 ++ "AMR_level".toList,
   i5 blockno ++ gap17 ++ "block_number".toList,
   i5 mpirank ++ gap17 ++ "mpi_rank".toList,
   i5 P.mx ++ gap17 ++ "mx".toList,
   i5 P.my ++ gap17 ++ "my".toList,
   i5 P.mz ++ gap17 ++ "mz".toList,
   [],
   A.e24 pt.xlower ++ gap4 ++ "xlow".toList,
   A.e24 pt.ylower ++ gap4 ++ "ylow".toList,
   A.e24 pt.zlower ++ gap4 ++ "zlow".toList,
   A.e24 pt.dx ++ gap4 ++ "dx".toList,
   A.e24 pt.dy ++ gap4 ++ "dy".toList,
   A.e24 pt.dz ++ gap4 ++ "dz".toList,
   []]

/-- A `do` loop. -/
def doLoop {σ : Type} : List Nat → (Nat → σ → Outcome σ) → σ → Outcome σ
  | [], _, s => .ok s
  | k :: ks, f, s => (f k s).bind (doLoop ks f)

/-- The values of `k` in `do k = 1,n`. -/
def upTo (n : Nat) : List Nat := List.range' 1 n

/-- The element `q(i,j,mq)` of `q(1-mbc:mx+mbc,1-mbc:my+mbc,meqn)`, 46.f 59. -/
def addr46 (P : Params) (i j mq : Nat) : Nat :=
  ((mq - 1) * (P.my + 2 * P.mbc) + (j + P.mbc - 1)) * (P.mx + 2 * P.mbc) + (i + P.mbc - 1)

/-- The element `q(mq,i,j)` of `q(meqn,1-mbc:mx+mbc,1-mbc:my+mbc)`, 5.f 58. -/
def addr5 (P : Params) (i j mq : Nat) : Nat :=
  ((j + P.mbc - 1) * (P.mx + 2 * P.mbc) + (i + P.mbc - 1)) * P.meqn + (mq - 1)

/-- The element `q(i,j,k,mq)` of
`q(1-mbc:mx+mbc,1-mbc:my+mbc,1-mbc:mz+mbc,meqn)`, 3.f90 42. -/
def addr3 (P : Params) (i j k mq : Nat) : Nat :=
  (((mq - 1) * (P.mz + 2 * P.mbc) + (k + P.mbc - 1)) * (P.my + 2 * P.mbc) + (j + P.mbc - 1))
    * (P.mx + 2 * P.mbc) + (i + P.mbc - 1)

/-- One cell: 46.f 82–87, 5.f 81–86, 3.f90 66–71.  Values below 1d-99 are set to
zero in the solution itself.  An access outside of the array is undefined. -/
def flushOne {R : Type} (A : Fmt R) (addr : Nat → Nat) (mq : Nat) (q : List R) : Outcome (List R) :=
  match q[addr mq]? with
  | some v => if A.tiny v then .ok (q.set (addr mq) A.zero) else .ok q
  | none => .ub
def writeOne {R : Type} (A : Fmt R) (addr : Nat → Nat) (q : List R) (mq : Nat) (l : Line) :
    Outcome Line :=
  match q[addr mq]? with
  | some v => .ok (l ++ A.e26 v)
  | none => .ub
def writeCell {R : Type} (A : Fmt R) (addr : Nat → Nat) (meqn : Nat)
    (s : List Line × List R) : Outcome (List Line × List R) :=
  (doLoop (upTo meqn) (flushOne A addr) s.2).bind fun q =>
  (doLoop (upTo meqn) (writeOne A addr q) []).bind fun l => .ok (s.1 ++ [l], q)

/-- `write(matunit1,*) ' '`. -/
def writeBlank {R : Type} (s : List Line × List R) : Outcome (List Line × List R) :=
  .ok (s.1 ++ [blankLine], s.2)

/-- `fclaw2d_clawpatch46_fort_output_ascii`, 46.f 47–96: the lines, and the
solution afterwards. -/
def output46 {R : Type} (A : Fmt R) (P : Params) (pt : Patch R)
    (patchNum level blockno mpirank : Nat) : Outcome (List Line × List R) :=
  if 20 < P.meqn then .abort
  else
    doLoop (upTo P.my) (fun j s =>
      (doLoop (upTo P.mx) (fun i s => writeCell A (addr46 P i j) P.meqn s) s).bind writeBlank)
      (gridHeader2 A P pt patchNum level blockno mpirank, pt.q)

/-- `fclaw2d_clawpatch5_fort_output_ascii`, 5.f 48–94. -/
def output5 {R : Type} (A : Fmt R) (P : Params) (pt : Patch R)
    (patchNum level blockno mpirank : Nat) : Outcome (List Line × List R) :=
  if 20 < P.meqn then .abort
  else
    doLoop (upTo P.my) (fun j s =>
      (doLoop (upTo P.mx) (fun i s => writeCell A (addr5 P i j) P.meqn s) s).bind writeBlank)
      (gridHeader2 A P pt patchNum level blockno mpirank, pt.q)

/-- `fclaw3dx_clawpatch46_fort_output_ascii`, 3.f90 30–82. -/
def output3 {R : Type} (A : Fmt R) (P : Params) (pt : Patch R)
    (patchNum level blockno mpirank : Nat) : Outcome (List Line × List R) :=
  if 5 < P.meqn then .abort
  else
    doLoop (upTo P.mz) (fun k s =>
      (doLoop (upTo P.my) (fun j s =>
        (doLoop (upTo P.mx) (fun i s => writeCell A (addr3 P i j k) P.meqn s) s).bind writeBlank)
        s).bind writeBlank)
      (gridHeader3 A P pt patchNum level blockno mpirank, pt.q)

/-- `clawpatch_vt->fort_output_ascii`. -/
def outputPatch {R : Type} (A : Fmt R) (P : Params) (pt : Patch R)
    (patchNum level blockno mpirank : Nat) : Outcome (List Line × List R) :=
  match P.writer with
  | .v46 => output46 A P pt patchNum level blockno mpirank
  | .v5 => output5 A P pt patchNum level blockno mpirank
  | .v3 => output3 A P pt patchNum level blockno mpirank

/-- `fclaw2d_patch_get_info`, `src/fclaw2d_patch.c` 823–843: the global number. -/
def globalNum {R : Type} (d : Dom (Patch R)) (b : LocalBlock (Patch R)) (patchno : Nat) : Nat :=
  d.globalNumPatchesBefore + (b.numPatchesBefore + patchno)

/-- `cb_clawpatch_output_ascii`, ascii.c 56–108. -/
def cbOutput {R : Type} (A : Fmt R) (P : Params) (iframe : Nat) (d : Dom (Patch R)) (blockno : Nat)
    (b : LocalBlock (Patch R)) (patchno : Nat) (pt : Patch R) : Outcome (List Op) :=
  (outputPatch A P pt (globalNum d b patchno) pt.level blockno d.mpirank).bind fun s =>
  .ok (s.1.map (Op.append (patchName P iframe)))

/-- `fclaw2d_clawpatch_output_ascii`, ascii.c 139–159, between enter and leave. -/
def outputAscii {R : Type} (A : Fmt R) (P : Params) (time : R) (iframe : Nat)
    (d : Dom (Patch R)) : Outcome (List Op) :=
  (if d.mpirank = 0 then timeHeader A P time d.globalNumPatches iframe else .ok []).bind fun a =>
  (iteratePatches (cbOutput A P iframe d) d).bind fun b => .ok (a ++ b)

end Fclaw.Ascii
