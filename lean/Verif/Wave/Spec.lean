import Verif.Wave.Model
import Mathlib.Algebra.BigOperators.Group.Finset.Basic
import Mathlib.Data.Int.Interval
/-
The wave propagation method as a formula for the new value in a cell, in terms of the values around it
(C70). It knows nothing about patches, slices, loops and work arrays.

Both directions are treated alike: an edge or a cell has a position `a` along the direction `dir` (1 for x,
2 for y) and a position `b` across it. Edge `a` lies between the cells `a - 1` and `a`.
-/
set_option autoImplicit false
namespace Fclaw.Wave

/-- What the formula depends on. -/
structure Scheme where
  R : Solver
  meqn : Nat
  mwaves : Nat
  /-- first or second order -/
  order : ℤ
  /-- no transverse propagation (0), of increment waves (1), also of correction waves (2) -/
  trans : ℤ
  /-- limiter for each family of waves, 0 for none -/
  lim : ℤ → ℤ
  /-- `dt/dx` and `dt/dy` -/
  ratio : Nat → ℚ
  /-- f-waves -/
  fw : Bool
  /-- How many cells to the left of the cell that a right-going wave enters its capacity is taken, when the
  wave is split. This is 0 in the method; the routine for f-waves has 1 instead. -/
  lag : ℤ

/-- The data: values in cells (as the sweep in direction `dir` sees them: they differ only in the corner ghost
cells of patches at points where three blocks meet), auxiliary values, capacity. -/
structure Field where
  Q : Nat → ℤ → ℤ → Vec
  A : ℤ → ℤ → Vec
  cap : ℤ → ℤ → ℚ

def pos (dir : Nat) (a b : ℤ) : ℤ × ℤ := if dir = 1 then (a, b) else (b, a)

def Field.val (F : Field) (dir : Nat) (a b : ℤ) : Vec := F.Q dir (pos dir a b).1 (pos dir a b).2
def Field.auxAt (F : Field) (dir : Nat) (a b : ℤ) : Vec := F.A (pos dir a b).1 (pos dir a b).2
def Field.capAt (F : Field) (dir : Nat) (a b : ℤ) : ℚ := F.cap (pos dir a b).1 (pos dir a b).2

/-! ### Limiters, as functions of the ratio of jumps -/

def minmod (r : ℚ) : ℚ := max 0 (min 1 r)
def superbee (r : ℚ) : ℚ := max 0 (max (min 1 (2 * r)) (min 2 r))
def vanLeer (r : ℚ) : ℚ := (r + |r|) / (1 + |r|)
def monotonizedCentered (r : ℚ) : ℚ := max 0 (min ((1 + r) / 2) (min 2 (2 * r)))
def beamWarming (r : ℚ) : ℚ := r
/-- with parameter 1.3 -/
def generalizedMinmod (r : ℚ) : ℚ := max 0 (min (theta13 * r) (min ((1 + r) / 2) theta13))

/-- By number. -/
def phi (mth : ℤ) : ℚ → ℚ :=
  if mth = 1 then minmod else if mth = 2 then superbee else if mth = 3 then vanLeer
  else if mth = 4 then monotonizedCentered else if mth = 5 then beamWarming else generalizedMinmod

/-! ### At an edge -/

section
variable (S : Scheme) (F : Field) (dir : Nat) (a b : ℤ)

/-- The waves, their speeds, and the fluctuations. -/
def wave (w m : ℤ) : ℚ :=
  S.R.wave dir (F.val dir (a - 1) b) (F.val dir a b) (F.auxAt dir (a - 1) b) (F.auxAt dir a b) w m
def speed (w : ℤ) : ℚ := S.R.s dir (F.val dir (a - 1) b) (F.val dir a b) (F.auxAt dir (a - 1) b) (F.auxAt dir a b) w
def left (m : ℤ) : ℚ := S.R.amdq dir (F.val dir (a - 1) b) (F.val dir a b) (F.auxAt dir (a - 1) b) (F.auxAt dir a b) m
def right (m : ℤ) : ℚ := S.R.apdq dir (F.val dir (a - 1) b) (F.val dir a b) (F.auxAt dir (a - 1) b) (F.auxAt dir a b) m

def dot (n : Nat) (u v : Vec) : ℚ := ∑ m ∈ Finset.Icc 1 (n : ℤ), u m * v m

/-- The edge that the wave comes from. -/
def upwind (w : ℤ) : ℤ := if 0 < speed S F dir a b w then a - 1 else a + 1

/-- The jump there, compared with the one here. -/
def jumpRatio (w : ℤ) : ℚ :=
  dot S.meqn (wave S F dir (upwind S F dir a b w) b w) (wave S F dir a b w) /
    dot S.meqn (wave S F dir a b w) (wave S F dir a b w)

/-- Limited waves; waves of size zero stay. -/
def limitedWave (w m : ℤ) : ℚ :=
  if S.lim w = 0 ∨ dot S.meqn (wave S F dir a b w) (wave S F dir a b w) = 0 then wave S F dir a b w m
  else phi (S.lim w) (jumpRatio S F dir a b w) * wave S F dir a b w m

/-- `dt / (dx κ)` of a cell. -/
def lam : ℚ := S.ratio dir / F.capAt dir a b

/-- Second order correction: twice the flux. -/
def corr (m : ℤ) : ℚ := ∑ w ∈ Finset.Icc 1 (S.mwaves : ℤ),
  (if S.fw then (if 0 ≤ speed S F dir a b w then 1 else -1) else |speed S F dir a b w|) *
  (1 - |speed S F dir a b w| * ((lam S F dir (a - 1) b + lam S F dir a b) / 2)) * limitedWave S F dir a b w m

/-- The fluctuations that are split for transverse propagation. -/
def leftSplit (m : ℤ) : ℚ := left S F dir a b m + if S.order = 2 ∧ S.trans = 2 then corr S F dir a b m else 0
def rightSplit (m : ℤ) : ℚ := right S F dir a b m - if S.order = 2 ∧ S.trans = 2 then corr S F dir a b m else 0

/-- Auxiliary values in the rows below, of the edge, and above. -/
def auxes (k : Nat) : Vec := F.auxAt dir a (if k = 1 then b - 1 else if k = 2 then b else b + 1)

/-- The part of a fluctuation that moves up or down. -/
def split (up : Bool) (ilr : Nat) (dq : Vec) (m : ℤ) : ℚ :=
  (if up then S.R.up else S.R.down) dir ilr (F.val dir (a - 1) b) (F.val dir a b) (auxes F dir (a - 1) b)
    (auxes F dir a b) (comps S.meqn dq) m

/-- What the waves that enter cell `(a, b)` from its two edges add to the flux through its upper or lower
edge. -/
def spill (up : Bool) (m : ℤ) : ℚ :=
  -(1 / 2 * lam S F dir a b * split S F dir (a + 1) b up 1 (leftSplit S F dir (a + 1) b) m +
    1 / 2 * lam S F dir (a - S.lag) b * split S F dir a b up 2 (rightSplit S F dir a b) m)

end

section
variable (S : Scheme) (F : Field) (dir : Nat) (a b : ℤ)

def secondOrder (m : ℤ) : ℚ := if S.order = 2 then 1 / 2 * corr S F dir a b m else 0

/-- From the cells on both sides, in the other direction. -/
def transverse (m : ℤ) : ℚ :=
  if 0 < S.trans then spill S F (3 - dir) b a false m + spill S F (3 - dir) b (a - 1) true m else 0

/-- Change of the cell to the left of the edge, and to the right, as fluxes. -/
def fluxMinus (m : ℤ) : ℚ := left S F dir a b m + secondOrder S F dir a b m + transverse S F dir a b m
def fluxPlus (m : ℤ) : ℚ := -right S F dir a b m + secondOrder S F dir a b m + transverse S F dir a b m

end

/-- The new value in cell `(i, j)`. -/
def newValue (S : Scheme) (F : Field) (i j m : ℤ) : ℚ :=
  F.Q 1 i j m - (S.ratio 1 * (fluxMinus S F 1 (i + 1) j m - fluxPlus S F 1 i j m) +
    S.ratio 2 * (fluxMinus S F 2 (j + 1) i m - fluxPlus S F 2 j i m)) / F.cap i j

/-! ### The data of a patch -/

section
variable (z : Shape) (i j : ℤ)

/-- In the ghost cells at a corner, -/
def atCorner : Prop := (i < 1 ∨ (z.mx : ℤ) < i) ∧ (j < 1 ∨ (z.my : ℤ) < j)
/-- which is number -/
def cornerNo : ℤ := (if (z.mx : ℤ) < i then 1 else 0) + if (z.my : ℤ) < j then 2 else 0
/-- How far out. -/
def depthX : ℤ := if (z.mx : ℤ) < i then i - z.mx else 1 - i
def depthY : ℤ := if (z.my : ℤ) < j then j - z.my else 1 - j

instance : Decidable (atCorner z i j) :=
  inferInstanceAs (Decidable ((i < 1 ∨ (z.mx : ℤ) < i) ∧ (j < 1 ∨ (z.my : ℤ) < j)))

/-- Where three blocks meet, there is no block beyond the corner. Going around it, a sweep finds in the ghost cells
at the corner the cells of the neighbour in the direction of the sweep, turned by a right angle: what is `d` cells
out in the direction across comes to be `d` cells out in the direction of the sweep. -/
def turned (dir : Nat) : ℤ × ℤ :=
  if dir = 1 then
    (if (z.mx : ℤ) < i then z.mx + depthY z j else 1 - depthY z j,
     if (z.my : ℤ) < j then z.my + 1 - depthX z i else depthX z i)
  else
    (if (z.mx : ℤ) < i then z.mx + 1 - depthY z j else depthY z j,
     if (z.my : ℤ) < j then z.my + depthX z i else 1 - depthX z i)

/-- The cell whose value is seen at `(i, j)`; `count`: number of blocks that meet at the corners. -/
def sweepCell (count : ℤ → ℤ) (dir : Nat) : ℤ × ℤ :=
  if atCorner z i j ∧ count (cornerNo z i j) = 3 then turned z i j dir else (i, j)

end

def fieldOf (z : Shape) (o : Method) (count : ℤ → ℤ) (M : Mem) : Field :=
  { Q := fun dir i j => comps z.meqn fun m => M (.q (sweepCell z i j count dir).1 (sweepCell z i j count dir).2 m)
    A := fun i j => comps z.maux fun m => M (.aux i j m)
    cap := fun i j => if o.mcapa = 0 then 1 else M (.aux i j o.mcapa) }

/-! ### Options -/

/-- The scheme that the options ask for. -/
abbrev scheme (z : Shape) (o : Method) (R : Solver) (fw : Bool) (dx dy dt : ℚ) : Scheme :=
  { R := R, meqn := z.meqn, mwaves := z.mwaves, order := o.order, trans := o.trans, lim := o.lim
    ratio := fun dir => if dir = 1 then dt / dx else dt / dy, fw := fw
    lag := if fw then 1 else 0 }

/-- Options that make sense. -/
structure Usable (z : Shape) (o : Method) : Prop where
  order : o.order = 1 ∨ o.order = 2
  trans : 0 ≤ o.trans ∧ o.trans ≤ 2
  lim : ∀ w, 1 ≤ w → w ≤ (z.mwaves : ℤ) → 0 ≤ o.lim w ∧ o.lim w ≤ 6

/-- Sizes and options. -/
structure Setting (z : Shape) (o : Method) : Prop where
  mbc : 2 ≤ z.mbc
  capa : o.mcapa = 0 ∨ z.auxn o.mcapa

/-! ### Courant numbers -/

/-- `c` is the largest of the numbers for which `P`, or zero. -/
def IsMax (P : ℚ → Prop) (c : ℚ) : Prop := 0 ≤ c ∧ (∀ x, P x → x ≤ c) ∧ (c = 0 ∨ P c)

/-- The Courant numbers of row `b`. -/
def rowCourant (z : Shape) (S : Scheme) (F : Field) (dir : Nat) (n b : ℤ) (x : ℚ) : Prop :=
  ∃ i w, ((1 ≤ i ∧ i ≤ n + 1) ∧ 1 ≤ w ∧ w ≤ (z.mwaves : ℤ)) ∧
    x = max (lam S F dir i b * speed S F dir i b w) (-lam S F dir (i - 1) b * speed S F dir i b w)

/-- The Courant numbers of a patch. -/
def patchCourant (z : Shape) (S : Scheme) (F : Field) (x : ℚ) : Prop :=
  (∃ b, (2 - (z.mbc : ℤ) ≤ b ∧ b ≤ (z.my : ℤ) + z.mbc - 1) ∧ rowCourant z S F 1 z.mx b x) ∨
    ∃ b, (2 - (z.mbc : ℤ) ≤ b ∧ b ≤ (z.mx : ℤ) + z.mbc - 1) ∧ rowCourant z S F 2 z.my b x

end Fclaw.Wave
