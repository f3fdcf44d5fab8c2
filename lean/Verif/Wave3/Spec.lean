import Verif.Wave3.Model
import Verif.Wave.Spec
/-
The wave propagation method in three dimensions as a formula for the new value in a cell, in terms of the values
around it (C88). It knows nothing about patches, slices, loops and work arrays.

All directions are treated alike. For a sweep in direction `d` a cell has a position `a` along `d`, a position `b` in
the direction after `d` (in the order x, y, z, x, …) and a position `c` in the one after that. Edge `a` (a face of two
cells) lies between the cells `a - 1` and `a`.
-/
set_option autoImplicit false
namespace Fclaw.Wave3

open Wave (Vec comps dot phi)

def Dir.next : Dir → Dir | .x => .y | .y => .z | .z => .x

/-- The direction itself (0) and the two others (1, 2). -/
def Dir.turn (d : Dir) : Nat → Dir | 0 => d | 1 => d.next | _ => d.next.next

/-- What the formula depends on. -/
structure Scheme where
  R : Solver
  meqn : Nat
  mwaves : Nat
  /-- Are there auxiliary values? If not, the solver is not told to which side correction waves go. -/
  hasAux : Bool
  order : ℤ
  /-- transverse propagation as in two dimensions: none (0), of increment waves (1), also of correction waves (2) -/
  single : ℤ
  /-- propagation to cells that share only an edge or a corner: none (0), of increment waves (1), also of correction
  waves (2) -/
  double : ℤ
  lim : ℤ → ℤ
  /-- `dt/dx`, `dt/dy`, `dt/dz` -/
  ratio : Dir → ℚ
  fw : Bool
  /-- The method is obtained with `false`. With `true` one obtains what `flux3` does instead: correction waves are
  not propagated twice if the second time is in the direction after the one of the sweep, and capacities are taken
  from the wrong one of two cells in some places. -/
  quirks : Bool

/-- The data: values in cells as seen by the sweep in direction `d` (see `sweepCell`), auxiliary values, capacity. -/
structure Field where
  Q : Dir → ℤ → ℤ → ℤ → Vec
  A : ℤ → ℤ → ℤ → Vec
  cap : ℤ → ℤ → ℤ → ℚ

/-- `f` at a cell given by its position in a sweep. -/
def place {α : Type} (f : ℤ → ℤ → ℤ → α) : Dir → ℤ → ℤ → ℤ → α
  | .x, a, b, c => f a b c
  | .y, a, b, c => f c a b
  | .z, a, b, c => f b c a

section
variable (S : Scheme) (F : Field) (d : Dir) (a b c : ℤ)

def Field.val : Vec := place (F.Q d) d a b c
def Field.auxAt : Vec := place F.A d a b c

/-! ### At an edge -/

/-- The waves, their speeds, and the fluctuations. -/
def wave (w m : ℤ) : ℚ := S.R.wave d (F.val d (a - 1) b c) (F.val d a b c) (F.auxAt d (a - 1) b c) (F.auxAt d a b c) w m
def speed (w : ℤ) : ℚ := S.R.s d (F.val d (a - 1) b c) (F.val d a b c) (F.auxAt d (a - 1) b c) (F.auxAt d a b c) w
def left (m : ℤ) : ℚ := S.R.amdq d (F.val d (a - 1) b c) (F.val d a b c) (F.auxAt d (a - 1) b c) (F.auxAt d a b c) m
def right (m : ℤ) : ℚ := S.R.apdq d (F.val d (a - 1) b c) (F.val d a b c) (F.auxAt d (a - 1) b c) (F.auxAt d a b c) m

/-- The edge that the wave comes from, and the jump there, compared with the one here. -/
def upwind (w : ℤ) : ℤ := if 0 < speed S F d a b c w then a - 1 else a + 1
def jumpRatio (w : ℤ) : ℚ :=
  dot S.meqn (wave S F d (upwind S F d a b c w) b c w) (wave S F d a b c w) /
    dot S.meqn (wave S F d a b c w) (wave S F d a b c w)

/-- Limited waves; waves of size zero stay. -/
def limitedWave (w m : ℤ) : ℚ :=
  if S.lim w = 0 ∨ dot S.meqn (wave S F d a b c w) (wave S F d a b c w) = 0 then wave S F d a b c w m
  else phi (S.lim w) (jumpRatio S F d a b c w) * wave S F d a b c w m

/-- `dt / (h κ)` of a cell; `h` is the mesh width in the direction of the sweep (`t = 0`) or in one of the others. -/
def lam (t : Nat) : ℚ := S.ratio (d.turn t) / place F.cap d a b c

/-- Second order correction of the flux. -/
def corr (m : ℤ) : ℚ := ∑ w ∈ Finset.Icc 1 (S.mwaves : ℤ),
  1 / 2 * (if S.fw then (if 0 ≤ speed S F d a b c w then 1 else -1) else |speed S F d a b c w|) *
  (1 - |speed S F d a b c w| * ((lam S F d (a - 1) b c 0 + lam S F d a b c 0) / 2)) * limitedWave S F d a b c w m

/-! ### Transverse propagation -/

/-- Auxiliary values in the cells around a cell: index 1 is for the position before, 2 for the same, 3 for the next. -/
def around (r s : Nat) : Vec :=
  let off := fun n : Nat => if n = 1 then (-1 : ℤ) else if n = 2 then 0 else 1
  F.auxAt d a (b + off r) (c + off s)

/-- The part of a jump `dq` that moves up or down in direction `t` (1 or 2). -/
def split (t : Nat) (up : Bool) (imp : Nat) (dq : Vec) (m : ℤ) : ℚ :=
  (if up then S.R.up else S.R.down) d (t + 1) imp (F.val d (a - 1) b c) (F.val d a b c) (around F d (a - 1) b c)
    (around F d a b c) (comps S.meqn dq) m

/-- The part of such a part that moves up or down in direction `t`. -/
def split2 (t : Nat) (up : Bool) (imp impt : Nat) (dq : Vec) (m : ℤ) : ℚ :=
  (if up then S.R.up2 else S.R.down2) d (t + 1) imp impt (F.val d (a - 1) b c) (F.val d a b c)
    (around F d (a - 1) b c) (around F d a b c) (comps S.meqn dq) m

/-- Do correction waves take part in the second splitting, when that is in direction `t`? -/
def corrTwice (t : Nat) : Bool := decide (S.double = 2) && !(S.quirks && decide (t = 1))

/-- What is split for a second time, in direction `t`: the parts of the left going (`1`) and of the right going waves (`2`)
that have moved up or down in the other direction. -/
def firstPart (t : Nat) (up : Bool) (side : Nat) (m : ℤ) : ℚ :=
  let imp := if S.hasAux then side else 0
  if side = 1 then
    split S F d a b c (3 - t) up 1 (left S F d a b c) m +
      if corrTwice S t then 3 * split S F d a b c (3 - t) up imp (corr S F d a b c) m else 0
  else
    split S F d a b c (3 - t) up 2 (right S F d a b c) m -
      if corrTwice S t then 3 * split S F d a b c (3 - t) up imp (corr S F d a b c) m else 0

/-- The parts that have moved first up or down (`first`) in the other direction, then in direction `t`. -/
def twice (t : Nat) (up first : Bool) (side : Nat) (m : ℤ) : ℚ :=
  split2 S F d a b c t up side (if first then 2 else 1) (firstPart S F d a b c t first side) m

end

section
variable (S : Scheme) (F : Field) (d : Dir) (a b c : ℤ)

/-- What the waves that enter cell `(a, b, c)` through its two edges add to the flux through its lower or upper face
in direction `t`. -/
def spill1 (t : Nat) (up : Bool) (m : ℤ) : ℚ :=
  -(1 / 2 * lam S F d a b c 0 *
    (split S F d (a + 1) b c t up 1 (left S F d (a + 1) b c) m + split S F d a b c t up 2 (right S F d a b c) m)) +
  if S.single = 2 then
    lam S F d a b c 0 * (split S F d a b c t up (if S.hasAux then 2 else 0) (corr S F d a b c) m -
      split S F d (a + 1) b c t up (if S.hasAux then 1 else 0) (corr S F d (a + 1) b c) m)
  else 0

/-- One sixth of the products of ratios, for left going and right going waves. -/
def weightL (t : Nat) : ℚ := 1 / 6 * lam S F d a b c 0 * lam S F d (if S.quirks then a + 1 else a) b c (3 - t)
def weightR (t : Nat) : ℚ := 1 / 6 * lam S F d a b c 0 * lam S F d a b c (3 - t)
def weightR0 (t : Nat) (up : Bool) : ℚ :=
  1 / 6 * lam S F d (if S.quirks && decide (t = 1) && up then a - 1 else a) b c 0 * lam S F d a b c (3 - t)

/-- What the waves that enter cell `(a, b, c)`, and then move to the neighbour `s` (-1, 1) in the other direction, or
stay there (0), add to the flux through the lower or upper face in direction `t` of that cell. -/
def spill2 (t : Nat) (up : Bool) (s : ℤ) (m : ℤ) : ℚ :=
  if s = 0 then
    weightL S F d a b c t * (twice S F d (a + 1) b c t up true 1 m - twice S F d (a + 1) b c t up false 1 m) +
      weightR0 S F d a b c t up * (twice S F d a b c t up true 2 m - twice S F d a b c t up false 2 m)
  else if s = 1 then
    -(weightL S F d a b c t * twice S F d (a + 1) b c t up true 1 m +
      weightR S F d a b c t * twice S F d a b c t up true 2 m)
  else
    weightL S F d a b c t * twice S F d (a + 1) b c t up false 1 m +
      weightR S F d a b c t * twice S F d a b c t up false 2 m

def spill (t : Nat) (up : Bool) (s : ℤ) (m : ℤ) : ℚ :=
  (if s = 0 then spill1 S F d a b c t up m else 0) + if 0 < S.double then spill2 S F d a b c t up s m else 0

/-! ### Fluxes -/

def secondOrder (m : ℤ) : ℚ := if S.order = 1 then 0 else corr S F d a b c m

/-- The flux at edge `(a, b, c)` of direction `d` from the sweep in the next direction, for which `d` is direction 2, and
from the one after that, for which `d` is direction 1. -/
def transverse (m : ℤ) : ℚ :=
  if 0 < S.single then
    ∑ s ∈ ({-1, 0, 1} : Finset ℤ),
      (spill S F d.next b (c - s) a 2 false s m + spill S F d.next b (c - s) (a - 1) 2 true s m +
        spill S F d.next.next c a (b - s) 1 false s m + spill S F d.next.next c (a - 1) (b - s) 1 true s m)
  else 0

/-- Change of the cell to the left of the edge, and to the right, as fluxes. -/
def fluxMinus (m : ℤ) : ℚ := left S F d a b c m + secondOrder S F d a b c m + transverse S F d a b c m
def fluxPlus (m : ℤ) : ℚ := -right S F d a b c m + secondOrder S F d a b c m + transverse S F d a b c m

end

/-- The change of cell `(i, j, k)`. -/
def outflow (S : Scheme) (F : Field) (i j k m : ℤ) : ℚ :=
  S.ratio .x * (fluxMinus S F .x (i + 1) j k m - fluxPlus S F .x i j k m) +
  S.ratio .y * (fluxMinus S F .y (j + 1) k i m - fluxPlus S F .y j k i m) +
  S.ratio .z * (fluxMinus S F .z (k + 1) i j m - fluxPlus S F .z k i j m)

/-- The new value in cell `(i, j, k)`. -/
def newValue (S : Scheme) (F : Field) (i j k m : ℤ) : ℚ := F.Q .x i j k m - outflow S F i j k m / F.cap i j k

/-! ### The data of a patch -/

/-- The patch as seen from above, for the cells at its corners; see `Wave.sweepCell`. -/
def Shape.plane (z : Shape) : Wave.Shape :=
  { mx := z.mx, my := z.my, mbc := z.mbc, meqn := z.meqn, maux := z.maux, mwaves := z.mwaves }

/-- The cell whose value a sweep sees at `(i, j)`: where three blocks meet, a sweep in x finds beyond the corner the cells
of the neighbour in x, a sweep in y or z those of the neighbour in y. -/
def sweepCell (z : Shape) (count : ℤ → ℤ) (d : Dir) (i j : ℤ) : ℤ × ℤ :=
  Wave.sweepCell z.plane i j count (if d = .x then 1 else 2)

def fieldOf (z : Shape) (o : Method) (count : ℤ → ℤ) (q aux : QArr) : Field :=
  { Q := fun d i j k => comps z.meqn fun m => q ((sweepCell z count d i j).1, (sweepCell z count d i j).2, k, m)
    A := fun i j k => comps z.maux fun m => aux (i, j, k, m)
    cap := fun i j k => if o.mcapa = 0 then 1 else aux (i, j, k, o.mcapa) }

/-! ### Options -/

/-- The scheme that the options ask for; `method(3)` has two digits. -/
def scheme (z : Shape) (o : Method) (R : Solver) (dx dy dz dt : ℚ) (quirks : Bool) : Scheme :=
  { R := R, meqn := z.meqn, mwaves := z.mwaves, hasAux := decide (0 < z.maux), order := o.order
    single := if o.trans < 10 then 0 else o.trans / 10
    double := if o.trans < 10 then 0 else o.trans % 10
    lim := o.lim
    ratio := fun | .x => dt / dx | .y => dt / dy | .z => dt / dz
    fw := o.fw, quirks := quirks }

/-- Options that make sense, fc3d_clawpack46_flux3.f:32-71 (`method(3) < 10` is without transverse propagation). -/
structure Usable (z : Shape) (o : Method) : Prop where
  order : o.order = 1 ∨ o.order = 2
  trans : o.trans ≤ 0 ∨ o.trans = 10 ∨ o.trans = 11 ∨ (o.order = 2 ∧ (o.trans = 20 ∨ o.trans = 21 ∨ o.trans = 22))
  lim : ∀ w, 1 ≤ w → w ≤ (z.mwaves : ℤ) → 0 ≤ o.lim w ∧ o.lim w ≤ 6

/-- Components in the cells of the patch. -/
def inside (z : Shape) (i j k m : ℤ) : Prop :=
  (1 ≤ i ∧ i ≤ (z.mx : ℤ)) ∧ (1 ≤ j ∧ j ≤ (z.my : ℤ)) ∧ (1 ≤ k ∧ k ≤ (z.mz : ℤ)) ∧ 1 ≤ m ∧ m ≤ (z.meqn : ℤ)

/-- Cells of the arrays. -/
def inArray (z : Shape) (i j k : ℤ) : Prop :=
  (1 - (z.mbc : ℤ) ≤ i ∧ i ≤ z.mx + z.mbc) ∧ (1 - (z.mbc : ℤ) ≤ j ∧ j ≤ z.my + z.mbc) ∧ 1 - (z.mbc : ℤ) ≤ k ∧ k ≤ z.mz + z.mbc

/-- A patch and options with which a step can be made. -/
structure Ready (z : Shape) (o : Method) (dx dy dz : ℚ) (aux : QArr) : Prop where
  usable : Usable z o
  mbc : 2 ≤ z.mbc
  fitx : z.mbc ≤ z.mx
  fity : z.mbc ≤ z.my
  dx : dx ≠ 0
  dy : dy ≠ 0
  dz : dz ≠ 0
  capa : 0 ≤ o.mcapa ∧ o.mcapa ≤ z.maux
  capa0 : o.mcapa ≠ 0 → ∀ i j k, inArray z i j k → aux (i, j, k, o.mcapa) ≠ 0

/-! ### Courant numbers -/

def rowCourant (S : Scheme) (F : Field) (d : Dir) (n b c : ℤ) (x : ℚ) : Prop :=
  ∃ i w, ((1 ≤ i ∧ i ≤ n + 1) ∧ 1 ≤ w ∧ w ≤ (S.mwaves : ℤ)) ∧
    x = max (lam S F d i b c 0 * speed S F d i b c w) (-lam S F d (i - 1) b c 0 * speed S F d i b c w)

/-- The Courant numbers of a patch. -/
def patchCourant (z : Shape) (S : Scheme) (F : Field) (x : ℚ) : Prop :=
  (∃ j k, ((0 ≤ j ∧ j ≤ (z.my : ℤ) + 1) ∧ 0 ≤ k ∧ k ≤ (z.mz : ℤ) + 1) ∧ rowCourant S F .x z.mx j k x) ∨
  (∃ k i, ((0 ≤ k ∧ k ≤ (z.mz : ℤ) + 1) ∧ 0 ≤ i ∧ i ≤ (z.mx : ℤ) + 1) ∧ rowCourant S F .y z.my k i x) ∨
  ∃ i j, ((0 ≤ i ∧ i ≤ (z.mx : ℤ) + 1) ∧ 0 ≤ j ∧ j ≤ (z.my : ℤ) + 1) ∧ rowCourant S F .z z.mz i j x

end Fclaw.Wave3
