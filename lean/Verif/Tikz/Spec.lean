/-
What TeX makes of the file: the mesh.
-/
import Verif.Tikz.Model
import Verif.Output.Spec
import Verif.Ascii.Spec

set_option autoImplicit false

namespace Fclaw.Tikz

open Fclaw.ParFile (Distribution Outcome)
open Fclaw.Output (Forest localDom Dom Owns World Reach Finished)

/-! ## Rounding -/

/-- The numbers with 53 binary digits. -/
def IsDouble (x : ℚ) : Prop := ∃ m e : ℤ, |m| < 2 ^ 53 ∧ x = m * (2 : ℚ) ^ e

/-- A rounding that leaves these numbers alone. -/
def Faithful (fl : ℚ → ℚ) : Prop := ∀ x, IsDouble x → fl x = x

/-- Rounding to a nearest double, as usual. -/
def Nearest (fl : ℚ → ℚ) : Prop := ∀ x, IsDouble (fl x) ∧ ∀ y, IsDouble y → |fl x - x| ≤ |y - x|

/-- A library that neither loses nor invents text, and that writes nothing before
its buffer is full. -/
structure Stdio.Lawful (lib : Stdio) : Prop where
  join : ∀ t, (lib.full t).flatten ++ lib.rest t = t
  small : ∀ t, t.length ≤ lib.size → lib.full t = []

/-! ## The reader -/

/-- A rectangle with its lower left and upper right corners. -/
structure Rect where
  x0 : Nat
  y0 : Nat
  x1 : Nat
  y1 : Nat
  deriving DecidableEq

/-- One patch in the file. -/
structure Entry where
  level : Nat
  number : Nat
  rank : Nat
  rect : Rect
  deriving DecidableEq

/-- Skip the given text. -/
def skip : Text → Text → Option Text
  | [], s => some s
  | _ :: _, [] => none
  | c :: cs, d :: ds => if c = d then skip cs ds else none

/-- Read a number. -/
def isDigit (c : Char) : Bool := (Ascii.digit c).isSome
def readNumber (s : Text) : Option (Nat × Text) :=
  match s.takeWhile isDigit with
  | [] => none
  | c :: cs => (Ascii.readDigits 0 (c :: cs)).map fun n => (n, s.dropWhile isDigit)

/-- Read one patch. -/
def readEntry (s : Text) : Option (Entry × Text) := do
  let s ← skip "    \\ifthenelse{\\level = ".toList s
  let (level, s) ← readNumber s
  let s ← skip "}\n    {\n        % Patch number ".toList s
  let (number, s) ← readNumber s
  let s ← skip "; rank = ".toList s
  let (rank, s) ← readNumber s
  let s ← skip "\n        \\draw [ultra thin] (".toList s
  let (x0, s) ← readNumber s
  let s ← skip ",".toList s
  let (y0, s) ← readNumber s
  let s ← skip ") rectangle (".toList s
  let (x1, s) ← readNumber s
  let s ← skip ",".toList s
  let (y1, s) ← readNumber s
  let s ← skip ");\n    }{}\n\n".toList s
  return (⟨level, number, rank, ⟨x0, y0, x1, y1⟩⟩, s)

/-- Read all patches. -/
def readEntriesAux : Nat → Text → Option (List Entry)
  | _, [] => some []
  | 0, _ :: _ => none
  | f + 1, c :: cs =>
    (readEntry (c :: cs)).bind fun x => (readEntriesAux f x.2).map fun es => x.1 :: es
def readEntries (s : Text) : Option (List Entry) := readEntriesAux s.length s

/-- The beginning of the loop over the levels, with the number of levels. -/
def loopStart (maxlevel : Nat) : Text :=
  "\\def \\maxlevel {".toList ++ Ascii.digits maxlevel ++
  "}\n\n\\plotgrid{\n\n\\foreach \\level in {0,...,\\maxlevel}{\n\n".toList

/-- The ends of the loop, the picture and the document. -/
def loopEnd : Text :=
  "} % end \\foreach\n} % end plotgrid\n\\end{tikzpicture}\n\\end{document}\n".toList

/-- What is drawn: for each level up to the largest one the patches of this level. -/
def picture (maxlevel : Nat) (es : List Entry) : List Rect :=
  (List.range (maxlevel + 1)).flatMap fun l =>
    (es.filter fun e => decide (e.level = l)).map Entry.rect

/-! ## The mesh -/

/-- A patch: its level and its place among the `2^level` by `2^level` patches of
that level in its block. -/
structure Square where
  level : Nat
  ix : Nat
  iy : Nat

/-- The patch of the program: coordinates in the unit square. -/
def patchOf (s : Square) : Patch :=
  ⟨s.level, s.ix / (2 : ℚ) ^ s.level, s.iy / (2 : ℚ) ^ s.level⟩

/-- A frame: the options, its number, the column and row of each block in the
brick, all patches block by block, and their distribution. -/
structure Setting where
  P : Params
  iframe : Nat
  col : Nat → Nat
  row : Nat → Nat
  F : Forest Square
  D : Distribution F.count

/-- Where a patch lies, in cells of the finest level, each of which is one patch wide. -/
def rectOf (X : Setting) (blockno : Nat) (s : Square) : Rect :=
  let w := 2 ^ (X.P.maxlevel - s.level)
  let x := (X.col blockno * 2 ^ s.level + s.ix) * w
  let y := (X.row blockno * 2 ^ s.level + s.iy) * w
  ⟨x, y, x + w, y + w⟩

/-- All patches in global order. -/
def rects (X : Setting) : List Rect := (Forest.patches 0 X.F).map fun x => rectOf X x.1 x.2

/-- The file draws the mesh: it consists of a preamble, the loop over the levels
with the patches, and the end; each patch of the mesh stands in it exactly once,
with its number, level, owner and place; and each is drawn exactly once. -/
structure DrawsMesh (X : Setting) (file : Text) (es : List Entry) : Prop where
  text : ∃ preamble body : Text, file = preamble ++ loopStart X.P.maxlevel ++ body ++ loopEnd ∧
    readEntries body = some es
  count : es.length = X.F.count
  entries : ∀ (g : Nat) (x : Nat × Square), (Forest.patches 0 X.F)[g]? = some x →
    ∃ r, Owns X.D r g ∧ (⟨x.2.level, g, r, rectOf X x.1 x.2⟩ : Entry) ∈ es
  drawn : (picture X.P.maxlevel es).Perm (rects X)

/-- What process `r` does inside of the section and after it. -/
def inside (lib : Stdio) (A : Fmt) (fl : ℚ → ℚ) (X : Setting) (_ r : Nat) : Outcome (List Op) :=
  beforeLeave lib A fl X.P X.iframe ((localDom X.F X.D r).map patchOf)
def afterward (lib : Stdio) (fl : ℚ → ℚ) (X : Setting) (_ r : Nat) : Outcome (List Op) :=
  afterLeave lib fl X.P X.iframe ((localDom X.F X.D r).map patchOf)

/-- Complete runs: every process has got to the barrier, and process 0 has
written the end. -/
def Completes (lib : Stdio) (A : Fmt) (fl : ℚ → ℚ) (X : Setting) (fs0 fs : Files) : Prop :=
  ∃ w : World Op Files, Reach X.D.mpisize 1 apply (inside lib A fl X) (afterward lib fl X) fs0 w ∧
    (∀ r, r < X.D.mpisize → Finished w 0 r) ∧ finish X.iframe w.fs = .ok fs

/-- The name of the file. -/
def fileName (iframe : Nat) : Name := "tikz.".toList ++ Ascii.d4 iframe ++ ".tex".toList

/-- What process `r` prints. -/
def printed (fl : ℚ → ℚ) (X : Setting) (r : Nat) : Outcome Text :=
  patchesText fl X.P ((localDom X.F X.D r).map patchOf)

/-- The place of the blocks: a brick with a power of two of blocks in each
direction, or one block. -/
inductive Placed (X : Setting) : Prop where
  | brick : X.P.isBrick = true → (∃ a, X.P.mi = 2 ^ a) → (∃ a, X.P.mj = 2 ^ a) →
      (∀ b, b < X.F.length → X.P.xv b = X.col b ∧ X.col b < X.P.mi ∧
        X.P.yv b = X.row b ∧ X.row b < X.P.mj) → Placed X
  | single : X.P.isBrick = false → X.P.mi = 1 → X.P.mj = 1 → X.F.length ≤ 1 →
      X.col 0 = 0 → X.row 0 = 0 → Placed X

/-- Frames that are drawn correctly. -/
structure Fits (X : Setting) : Prop where
  placed : Placed X
  maxlevel : X.P.maxlevel ≤ 15
  mi : X.P.mi * 2 ^ X.P.maxlevel < 2 ^ 31
  mj : X.P.mj * 2 ^ X.P.maxlevel < 2 ^ 31
  iframe : X.iframe < 10 ^ 10
  procs : 0 < X.D.mpisize
  squares : ∀ x ∈ Forest.patches 0 X.F,
    x.2.level ≤ X.P.maxlevel ∧ x.2.ix < 2 ^ x.2.level ∧ x.2.iy < 2 ^ x.2.level

end Fclaw.Tikz
