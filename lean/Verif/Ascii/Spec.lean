/-
What a reader of the ASCII files finds: the solution.

The reader skips blank lines, takes numbers from the columns in which the
format puts them, and checks the label behind each number.
-/
import Verif.Ascii.Model
import Verif.Output.Spec

set_option autoImplicit false

namespace Fclaw.Ascii

open Fclaw.ParFile (Distribution Outcome)
open Fclaw.Output (Forest localDom Dom Owns)

/-! ## The reader -/

/-- Lines with something else than blanks. -/
def nonblank (l : List Line) : List Line := l.filter fun x => x.any fun c => decide (c ≠ ' ')

/-- A number in decimal digits. -/
def digit (c : Char) : Option Nat :=
  if 48 ≤ c.toNat ∧ c.toNat ≤ 57 then some (c.toNat - 48) else none
def readDigits : Nat → List Char → Option Nat
  | acc, [] => some acc
  | acc, c :: cs => (digit c).bind fun d => readDigits (10 * acc + d) cs

/-- A number that may be preceded by blanks. -/
def readNat (s : List Char) : Option Nat :=
  match s.dropWhile fun c => decide (c = ' ') with
  | [] => none
  | c :: cs => readDigits 0 (c :: cs)

/-- A line with a number in the first five columns and a label. -/
def readInt (label : String) : List Line → Option (Nat × List Line)
  | [] => none
  | l :: rest =>
    if l.drop 5 = List.replicate 17 ' ' ++ label.toList then
      (readNat (l.take 5)).map fun n => (n, rest)
    else none

/-- A line with a real in the first `w` columns and a label; the text of the real. -/
def readReal (w : Nat) (label : String) : List Line → Option (List Char × List Line)
  | [] => none
  | l :: rest =>
    if l.drop w = List.replicate 4 ' ' ++ label.toList then some (l.take w, rest) else none

/-- A line with `m` reals in 26 columns each. -/
def readCols : Nat → Line → Option (List (List Char))
  | 0, l => if l = [] then some [] else none
  | m + 1, l => if 26 ≤ l.length then (readCols m (l.drop 26)).map fun r => l.take 26 :: r else none

/-- `n` such lines. -/
def readCells (m : Nat) : Nat → List Line → Option (List (List (List Char)) × List Line)
  | 0, ls => some ([], ls)
  | _ + 1, [] => none
  | n + 1, l :: ls =>
    (readCols m l).bind fun c => (readCells m n ls).map fun x => (c :: x.1, x.2)

/-- A patch as read: its header, and the values of its cells, all components of
the first cell first, the cells in the order of increasing x-index first, then
y-index, then z-index. -/
structure Grid where
  number : Nat
  level : Nat
  block : Nat
  rank : Nat
  mx : Nat
  my : Nat
  mz : Nat
  low : List (List Char)
  delta : List (List Char)
  cells : List (List (List Char))

/-- Read one patch. -/
def readGrid2 (meqn : Nat) (ls : List Line) : Option (Grid × List Line) := do
  let (number, ls) ← readInt "grid_number" ls
  let (level, ls) ← readInt "AMR_level" ls
  let (block, ls) ← readInt "block_number" ls
  let (rank, ls) ← readInt "mpi_rank" ls
  let (mx, ls) ← readInt "mx" ls
  let (my, ls) ← readInt "my" ls
  let (xlow, ls) ← readReal 24 "xlow" ls
  let (ylow, ls) ← readReal 24 "ylow" ls
  let (dx, ls) ← readReal 24 "dx" ls
  let (dy, ls) ← readReal 24 "dy" ls
  let (cells, ls) ← readCells meqn (my * mx) ls
  return (⟨number, level, block, rank, mx, my, 1, [xlow, ylow], [dx, dy], cells⟩, ls)

def readGrid3 (meqn : Nat) (ls : List Line) : Option (Grid × List Line) := do
  let (number, ls) ← readInt "grid_number" ls
  let (level, ls) ← readInt "AMR_level" ls
  let (block, ls) ← readInt "block_number" ls
  let (rank, ls) ← readInt "mpi_rank" ls
  let (mx, ls) ← readInt "mx" ls
  let (my, ls) ← readInt "my" ls
  let (mz, ls) ← readInt "mz" ls
  let (xlow, ls) ← readReal 24 "xlow" ls
  let (ylow, ls) ← readReal 24 "ylow" ls
  let (zlow, ls) ← readReal 24 "zlow" ls
  let (dx, ls) ← readReal 24 "dx" ls
  let (dy, ls) ← readReal 24 "dy" ls
  let (dz, ls) ← readReal 24 "dz" ls
  let (cells, ls) ← readCells meqn (mz * (my * mx)) ls
  return (⟨number, level, block, rank, mx, my, mz, [xlow, ylow, zlow], [dx, dy, dz], cells⟩, ls)

/-- Read `n` patches. -/
def readGrids (dim meqn : Nat) : Nat → List Line → Option (List Grid × List Line)
  | 0, ls => some ([], ls)
  | n + 1, ls =>
    (if dim = 2 then readGrid2 meqn ls else readGrid3 meqn ls).bind fun x =>
    (readGrids dim meqn n x.2).map fun y => (x.1 :: y.1, y.2)

/-- A frame as read. -/
structure Frame where
  time : List Char
  meqn : Nat
  maux : Nat
  dim : Nat
  grids : List Grid

/-- Read a frame from its two files: the sizes, then as many patches as they
announce; nothing may be left over. -/
def readFrame (tfile qfile : List Line) : Option Frame := do
  let (time, t) ← readReal 30 "time" (nonblank tfile)
  let (meqn, t) ← readInt "meqn" t
  let (ngrids, t) ← readInt "ngrids" t
  let (maux, t) ← readInt "num_aux" t
  let (dim, t) ← readInt "num_dim" t
  let (grids, ls) ← readGrids dim meqn ngrids (nonblank qfile)
  if t = [] ∧ ls = [] then some ⟨time, meqn, maux, dim, grids⟩ else none

/-! ## The solution -/

/-- A patch: its level and coordinates, and the component `m` of the cell
`(i, j, k)`, all counted from 0, where the `mbc` layers of ghost cells come
first. -/
structure Sol (R : Type) where
  level : Nat
  low : R × R × R
  delta : R × R × R
  u : Nat → Nat → Nat → Nat → R

/-- The solution in memory: `(i,j,m)`, `(m,i,j)` or `(i,j,k,m)`, the first index
first. -/
def memory {R : Type} (P : Params) (u : Nat → Nat → Nat → Nat → R) : List R :=
  let nx := P.mx + 2 * P.mbc
  let ny := P.my + 2 * P.mbc
  let nz := P.mz + 2 * P.mbc
  match P.writer with
  | .v46 => (List.range P.meqn).flatMap fun m => (List.range ny).flatMap fun j =>
      (List.range nx).map fun i => u i j 0 m
  | .v5 => (List.range ny).flatMap fun j => (List.range nx).flatMap fun i =>
      (List.range P.meqn).map fun m => u i j 0 m
  | .v3 => (List.range P.meqn).flatMap fun m => (List.range nz).flatMap fun k =>
      (List.range ny).flatMap fun j => (List.range nx).map fun i => u i j k m

/-- The patch of the program. -/
def patchOf {R : Type} (P : Params) (s : Sol R) : Patch R :=
  ⟨s.level, s.low.1, s.low.2.1, s.low.2.2, s.delta.1, s.delta.2.1, s.delta.2.2, memory P s.u⟩

/-- Values below 1d-99 count as zero. -/
def flush {R : Type} (A : Fmt R) (v : R) : R := if A.tiny v then A.zero else v

/-- Is the patch three-dimensional? -/
def is3 : Writer → Bool
  | .v3 => true
  | _ => false

/-- The cells of the interior, the x-index first. -/
def interior (P : Params) : List (Nat × Nat × Nat) :=
  if is3 P.writer then
    (List.range P.mz).flatMap fun k => (List.range P.my).flatMap fun j =>
      (List.range P.mx).map fun i => (i + P.mbc, j + P.mbc, k + P.mbc)
  else
    (List.range P.my).flatMap fun j => (List.range P.mx).map fun i => (i + P.mbc, j + P.mbc, 0)

/-- The text of all cells of the interior. -/
def cellTexts {R : Type} (A : Fmt R) (P : Params) (u : Nat → Nat → Nat → Nat → R) :
    List (List (List Char)) :=
  (interior P).map fun c => (List.range P.meqn).map fun m => A.e26 (flush A (u c.1 c.2.1 c.2.2 m))

/-- The reader's patch is number `g` of the forest: patch `s` in block `blockno`. -/
structure ShowsGrid {R : Type} (A : Fmt R) (P : Params) (g blockno : Nat) (s : Sol R) (G : Grid) :
    Prop where
  number : G.number = g
  level : G.level = s.level
  block : G.block = blockno
  sizes : G.mx = P.mx ∧ G.my = P.my ∧ G.mz = if is3 P.writer then P.mz else 1
  low : G.low = if is3 P.writer then [A.e24 s.low.1, A.e24 s.low.2.1, A.e24 s.low.2.2]
    else [A.e24 s.low.1, A.e24 s.low.2.1]
  delta : G.delta = if is3 P.writer then [A.e24 s.delta.1, A.e24 s.delta.2.1, A.e24 s.delta.2.2]
    else [A.e24 s.delta.1, A.e24 s.delta.2.1]
  cells : G.cells = cellTexts A P s.u

/-- An output frame: the options, the number of the frame, the time, all patches
block by block, and their distribution over the processes. -/
structure Setting (R : Type) where
  P : Params
  iframe : Nat
  time : R
  F : Forest (Sol R)
  D : Distribution F.count

/-- The reader's frame shows all patches in order, each once. -/
structure ShowsFrame {R : Type} (A : Fmt R) (X : Setting R) (f : Frame) : Prop where
  time : f.time = A.e30 X.time
  sizes : f.meqn = X.P.meqn ∧ f.maux = X.P.maux ∧ f.dim = if is3 X.P.writer then 3 else 2
  count : f.grids.length = X.F.count
  grids : ∀ (g : Nat) (x : Nat × Sol R), (Forest.patches 0 X.F)[g]? = some x →
    ∃ G : Grid, f.grids[g]? = some G ∧ ShowsGrid A X.P g x.1 x.2 G ∧ Owns X.D G.rank g

/-- The frame without the ranks of the processes. -/
def Frame.withoutRanks (f : Frame) : Frame :=
  { f with grids := f.grids.map fun G => { G with rank := 0 } }

/-- What process `r` does in frame `k`. -/
def inside {R : Type} (A : Fmt R) (X : Nat → Setting R) (k r : Nat) : Outcome (List Op) :=
  outputAscii A (X k).P (X k).time (X k).iframe
    ((localDom (X k).F (X k).D r).map (patchOf (X k).P))

/-- Nothing follows after leave. -/
def afterward (_ _ : Nat) : Outcome (List Op) := .ok []

/-- The files of a frame. -/
def tName (iframe : Nat) : Name := "fort.t".toList ++ d4 iframe
def qName (iframe : Nat) : Name := "fort.q".toList ++ d4 iframe

/-- The formats have the width they are named after. -/
structure Fmt.Wide {R : Type} (A : Fmt R) : Prop where
  e24 : ∀ v, (A.e24 v).length = 24
  e26 : ∀ v, (A.e26 v).length = 26
  e30 : ∀ v, (A.e30 v).length = 30
  shows : ∀ v, ∃ c ∈ A.e26 v, c ≠ ' '

/-- The prefix is "fort", the number of the frame has at most four digits, and
there are no more components than the writer can handle. -/
structure Named {R : Type} (X : Setting R) : Prop where
  pre : X.P.pre = "fort".toList
  iframe : X.iframe < 10000
  meqn : X.P.meqn ≤ if is3 X.P.writer then 5 else 20

/-- Moreover the numbers of the frame have at most five digits, and there are
components. -/
structure Fits {R : Type} (X : Setting R) : Prop where
  named : Named X
  meqn : 0 < X.P.meqn
  maux : X.P.maux < 100000
  mx : X.P.mx < 100000
  my : X.P.my < 100000
  mz : X.P.mz < 100000
  count : X.F.count < 100000
  blocks : X.F.length ≤ 100000
  ranks : X.D.mpisize ≤ 100000
  level : ∀ x ∈ Forest.patches 0 X.F, x.2.level < 100000

end Fclaw.Ascii
