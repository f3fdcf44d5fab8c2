/-
Model of the TikZ output of the mesh, `src/fclaw2d_output_tikz.c` (below:
"tikz.c").  One file "tikz.XXXX.tex" is written per frame: process 0 writes the
beginning, all processes append their patches in turn, and process 0 appends the
end behind a barrier.

What is simplified.
* Process 0 writes the beginning before it enters the serialized section (tikz.c
  206–234); in the model these are its first operations inside.  It does not wait
  when it enters, so nobody can tell the difference.
* The calls of the I/O layer succeed, and what is written by one call of the
  operating system to a file opened for appending ends up in one piece at its end.
* `double` is `ℚ` with a function `fl` that rounds each result; `nan` and `inf` do
  not occur.  A double converted to an `int` is truncated.
* The formats %18.16f and %3.1f are functions (`Fmt`).
* The local numbers of patches do not overflow.
-/
import Verif.Output.Model
import Verif.Ascii.Model
import Verif.PowInt.Model
import Mathlib.Data.Rat.Floor

set_option autoImplicit false

namespace Fclaw.Tikz

open Fclaw.ParFile (Outcome)
open Fclaw.Output (Dom LocalBlock iteratePatches)
open Fclaw.Ascii (digits d4)
open Fclaw.PowInt (cmul powInt intMin intMax)

abbrev Text := List Char
abbrev Name := List Char

/-- The shared files. -/
abbrev Files := Name → Option Text

/-- `fopen (fname, "w")` empties a file, a call of the operating system appends text. -/
inductive Op where
  | clear (name : Name)
  | append (name : Name) (text : Text)

def apply (fs : Files) : Op → Files
  | .clear name => fun x => if x = name then some [] else fs x
  | .append name text => fun x => if x = name then some ((fs name).getD [] ++ text) else fs x

/-- The C library: what `fprintf` hands to the operating system while the text
goes through the buffer of a stream, and what is left for `fclose`. -/
structure Stdio where
  size : Nat
  full : Text → List Text
  rest : Text → Text

/-- A library that hands over the buffer each time it is full and more is to come. -/
def fullBlocks (size : Nat) : Nat → Text → List Text
  | 0, _ => []
  | f + 1, t => if size < t.length then t.take size :: fullBlocks size f (t.drop size) else []
def lastBlock (size : Nat) : Nat → Text → Text
  | 0, t => t
  | f + 1, t => if size < t.length then lastBlock size f (t.drop size) else t
def blockwise (size : Nat) : Stdio where
  size := size
  full t := fullBlocks size t.length t
  rest t := lastBlock size t.length t

/-- The formats of reals. -/
structure Fmt where
  f18 : ℚ → Text
  f3 : ℚ → Text

/-- The options, and the map: the lower left corners of the blocks of a brick
(`src/fclaw2d_map_brick.c`). -/
structure Params where
  mi : Nat
  mj : Nat
  maxlevel : Nat
  meshOnly : Bool
  plotPrefix : Text
  plotSuffix : Text
  figsize : ℚ × ℚ
  isBrick : Bool
  xv : Nat → ℚ
  yv : Nat → ℚ

/-- What the callback reads of a patch. -/
structure Patch where
  level : Nat
  xlower : ℚ
  ylower : ℚ

/-- Operations on `int`. -/
def defined {α : Type} : Option α → Outcome α
  | some a => .ok a
  | none => .ub
def cadd (a b : Int) : Outcome Int :=
  if intMin ≤ a + b ∧ a + b ≤ intMax then .ok (a + b) else .ub
def toInt (q : ℚ) : Outcome Int :=
  let t := if q < 0 then - ⌊-q⌋ else ⌊q⌋
  if intMin ≤ t ∧ t ≤ intMax then .ok t else .ub

/-- Format %d. -/
def dec (n : Int) : Text := if n < 0 then '-' :: digits n.natAbs else digits n.natAbs

/-- `mi*mx*pow_int(2,lmax)` with `mx = 1`: tikz.c 131–132 and 196–197. -/
def finest (mi lmax : Nat) : Outcome Int :=
  (defined (powInt 2 lmax)).bind fun p =>
  (defined (cmul mi 1)).bind fun m =>
  defined (cmul m p)

/-- One coordinate of `convert_brick`, tikz.c 51–92, with `fclaw2d_map_c2m_brick`,
`src/fclaw2d_map_brick.c` 68–78. -/
def convertBrick (fl : ℚ → ℚ) (isBrick : Bool) (corner : ℚ) (m : Nat) (low : ℚ) : ℚ :=
  if isBrick then fl (fl (corner + low) / m) else low

/-- The lower and upper edge of a patch in one direction, tikz.c 128–141. -/
def edges (fl : ℚ → ℚ) (isBrick : Bool) (corner : ℚ) (m lmax level : Nat) (low : ℚ) :
    Outcome (Int × Int) :=
  (defined (powInt 2 ((lmax : Int) - level))).bind fun p =>
  (defined (cmul 1 p)).bind fun mxf =>
  (finest m lmax).bind fun cells =>
  let dxf := fl (1 / cells)
  let xlower := convertBrick fl isBrick corner m low
  (toInt (fl (xlower / dxf))).bind fun lowD =>
  (cadd lowD mxf).bind fun upD =>
  .ok (lowD, upD)

/-- Four blanks. -/
abbrev indent : Text := "    ".toList

/-- The text of a patch, tikz.c 143–149. -/
def patchText (level : Nat) (patchNum rank : Nat) (xlow ylow xup yup : Int) : Text :=
  indent ++ "\\ifthenelse{\\level = ".toList ++ dec level ++ "}\n".toList ++
  indent ++ "{\n".toList ++
  indent ++ indent ++ "% Patch number ".toList ++ dec patchNum ++ "; rank = ".toList ++ dec rank ++
    "\n".toList ++
  indent ++ indent ++ "\\draw [ultra thin] (".toList ++ dec xlow ++ ",".toList ++ dec ylow ++
    ") rectangle (".toList ++ dec xup ++ ",".toList ++ dec yup ++ ");\n".toList ++
  indent ++ "}{}\n\n".toList

/-- `cb_tikz_output`, tikz.c 95–157: the text it prints. -/
def cbTikz (fl : ℚ → ℚ) (P : Params) (rank globalNumPatchesBefore : Nat) (blockno : Nat)
    (b : LocalBlock Patch) (patchno : Nat) (pt : Patch) : Outcome Text :=
  (edges fl P.isBrick (P.xv blockno) P.mi P.maxlevel pt.level pt.xlower).bind fun x =>
  (edges fl P.isBrick (P.yv blockno) P.mj P.maxlevel pt.level pt.ylower).bind fun y =>
  .ok (patchText pt.level (globalNumPatchesBefore + (b.numPatchesBefore + patchno)) rank
    x.1 y.1 x.2 y.2)

/-- `sprintf` of tikz.c 202 into `char[20]`. -/
def fname (iframe : Nat) : Outcome Name :=
  let s := "tikz.".toList ++ d4 iframe ++ ".tex".toList
  if s.length < 20 then .ok s else .ub

/-- The text of the beginning, tikz.c 198–233. -/
def headerText (A : Fmt) (fl : ℚ → ℚ) (P : Params) (iframe : Nat) (mxf myf : Int) : Text :=
  "\\documentclass{standalone}\n\\usepackage{tikz}\n\\usepackage{xifthen}\n\n".toList ++
    (if P.meshOnly then
      "\\newcommand{\\plotfig}[1]{}      % Change to {#1} to include PNG file\n".toList
    else "\\newcommand{\\plotfig}[1]{#1}     % Change to {} to plot mesh only\n".toList) ++
    "\\newcommand{\\plotgrid}[1]{#1}\n\n\\newcommand{\\figname}{".toList ++
    P.plotPrefix ++ "_".toList ++ d4 iframe ++ ".".toList ++ P.plotSuffix ++ "}\n\n".toList ++
    "\\begin{document}\n\\begin{tikzpicture}[x=".toList ++ A.f18 (fl (P.figsize.1 / mxf)) ++
    "in, y=".toList ++ A.f18 (fl (P.figsize.2 / myf)) ++ "in]\n".toList ++
    "    \\plotfig{\\node (forestclaw_plot) at (".toList ++ A.f3 (fl (mxf / 2)) ++ ",".toList ++
    A.f3 (fl (myf / 2)) ++ ")\n    {\\includegraphics{\\figname}};}\n\n".toList ++
    "% Maximum level is ".toList ++ dec P.maxlevel ++ "\n\\def \\maxlevel {".toList ++
    dec P.maxlevel ++ "}\n\n\\plotgrid{\n\n\\foreach \\level in {0,...,\\maxlevel}{\n\n".toList

/-- The beginning of the file, tikz.c 192–233. -/
def header (A : Fmt) (fl : ℚ → ℚ) (P : Params) (iframe : Nat) : Outcome Text :=
  (finest P.mi P.maxlevel).bind fun mxf =>
  (finest P.mj P.maxlevel).bind fun myf =>
  .ok (headerText A fl P iframe mxf myf)

/-- The end of the file, tikz.c 255–258. -/
def footer : Text :=
  "} % end \\foreach\n} % end plotgrid\n\\end{tikzpicture}\n\\end{document}\n".toList

/-- What a process prints in `fclaw2d_global_iterate_patches`, tikz.c 241. -/
def patchesText (fl : ℚ → ℚ) (P : Params) (d : Dom Patch) : Outcome Text :=
  iteratePatches (cbTikz fl P d.mpirank d.globalNumPatchesBefore) d

/-- What reaches the file before the process leaves the serialized section, tikz.c 201–242. -/
def beforeLeave (lib : Stdio) (A : Fmt) (fl : ℚ → ℚ) (P : Params) (iframe : Nat) (d : Dom Patch) :
    Outcome (List Op) :=
  (fname iframe).bind fun name =>
  (if d.mpirank = 0 then
    (header A fl P iframe).bind fun h => .ok [.clear name, .append name h]
  else .ok []).bind fun start =>
  (patchesText fl P d).bind fun t =>
  .ok (start ++ (lib.full t).map (.append name))

/-- What `fclose` (tikz.c 244) writes after the process has left the section. -/
def afterLeave (lib : Stdio) (fl : ℚ → ℚ) (P : Params) (iframe : Nat) (d : Dom Patch) :
    Outcome (List Op) :=
  (fname iframe).bind fun name =>
  (patchesText fl P d).bind fun t =>
  .ok (if lib.rest t = [] then [] else [.append name (lib.rest t)])

/-- Process 0 behind the barrier, tikz.c 246–260. -/
def finish (iframe : Nat) (fs : Files) : Outcome Files :=
  (fname iframe).bind fun name => .ok (apply fs (.append name footer))

end Fclaw.Tikz
