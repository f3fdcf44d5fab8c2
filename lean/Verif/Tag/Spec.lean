/-
What it means that a patch, or a family of patches, meets a refinement
criterion.
-/
import Verif.Tag.Model

set_option autoImplicit false

namespace Fclaw.Tag

open Fclaw.Fort

/-- A cell of the patch, ghost cells included. -/
def IsCell (d : Dims) (i j : ℤ) : Prop :=
  (1 - (d.mbc : ℤ) ≤ i ∧ i ≤ d.mx + d.mbc) ∧ 1 - (d.mbc : ℤ) ≤ j ∧ j ≤ d.my + d.mbc

/-- A cell of the patch that is not a ghost cell. -/
def Interior (d : Dims) (i j : ℤ) : Prop := (1 ≤ i ∧ i ≤ d.mx) ∧ 1 ≤ j ∧ j ≤ d.my

/-- The coordinates of the centre of a cell. -/
def centerX (sh : Shared) (p : Patch) (i : ℤ) : ℚ := p.xlower + (i - 1 / 2) * sh.dx
def centerY (sh : Shared) (p : Patch) (j : ℤ) : ℚ := p.ylower + (j - 1 / 2) * sh.dy

/-- The two tangent vectors of a mapped grid at the centre of a cell, by central
differences. -/
def tangent1 (c2m : ℤ → ℚ → ℚ → Vec) (sh : Shared) (p : Patch) (i j : ℤ) : Vec :=
  quotient (c2m sh.blockno (centerX sh p i + sh.dx) (centerY sh p j))
    (c2m sh.blockno (centerX sh p i - sh.dx) (centerY sh p j)) (2 * sh.dx)
def tangent2 (c2m : ℤ → ℚ → ℚ → Vec) (sh : Shared) (p : Patch) (i j : ℤ) : Vec :=
  quotient (c2m sh.blockno (centerX sh p i) (centerY sh p j + sh.dy))
    (c2m sh.blockno (centerX sh p i) (centerY sh p j - sh.dy)) (2 * sh.dy)

/-- `g` is the gradient of variable `mq` in a cell: without a mapping the central
difference quotients, with a mapping the tangent vector whose products with the
two tangents are these quotients. -/
def IsGradient (map : Option (ℤ → ℚ → ℚ → Vec)) (sh : Shared) (p : Patch) (mq i j : ℤ)
    (g : Vec) : Prop :=
  let dqx := (p.q (i + 1, j, mq) - p.q (i - 1, j, mq)) / (2 * sh.dx)
  let dqy := (p.q (i, j + 1, mq) - p.q (i, j - 1, mq)) / (2 * sh.dy)
  match map with
  | none => g = (dqx, dqy, 0)
  | some c2m =>
    (∃ a b, g = comb a b (tangent1 c2m sh p i j) (tangent2 c2m sh p i j)) ∧
      dot g (tangent1 c2m sh p i j) = dqx ∧ dot g (tangent2 c2m sh p i j) = dqy

/-- The grid has cells of nonzero size and, if it is mapped, its tangents are
linearly independent in every interior cell. -/
def Nondegenerate (map : Option (ℤ → ℚ → ℚ → Vec)) (sh : Shared) (p : Patch) : Prop :=
  sh.dx ≠ 0 ∧ sh.dy ≠ 0 ∧ ∀ c2m, map = some c2m → ∀ i j, Interior sh.dims i j →
    dot (tangent1 c2m sh p i j) (tangent1 c2m sh p i j)
      * dot (tangent2 c2m sh p i j) (tangent2 c2m sh p i j)
      - dot (tangent1 c2m sh p i j) (tangent2 c2m sh p i j)
        * dot (tangent1 c2m sh p i j) (tangent2 c2m sh p i j) ≠ 0

/-- A user criterion that looks at the cell and, except in ghost cells, at its
eight neighbours, but not at the running minimum and maximum. -/
def Local (f : Args → ℤ) : Prop :=
  ∀ (a : Args) (lo hi : ℤ → Option ℚ) (val' : ℤ → Option ℚ) (quad' : ℤ → ℤ → ℤ → Option ℚ),
    (∀ mq, 1 ≤ mq → mq ≤ a.meqn → val' mq = a.qval mq) →
    (a.isGhost = false → ∀ ii jj mq, -1 ≤ ii → ii ≤ 1 → -1 ≤ jj → jj ≤ 1 → 1 ≤ mq →
      mq ≤ a.meqn → quad' ii jj mq = a.quad ii jj mq) →
    f { a with qmin := lo, qmax := hi, qval := val', quad := quad' } = f a

/-- What a user criterion sees of a cell. -/
def argsOf (ivar : ℤ) (sh : Shared) (p : Patch) (i j : ℤ) : Args :=
  { blockno := sh.blockno, meqn := sh.dims.meqn, qval := fun mq => some (p.q (i, j, mq)),
    qmin := fun _ => none, qmax := fun _ => none,
    quad := fun ii jj mq => some (p.q (i + ii, j + jj, mq)), dx := sh.dx, dy := sh.dy,
    xc := centerX sh p i, yc := centerY sh p j, ivar := ivar, threshold := sh.threshold,
    initFlag := sh.initFlag, isGhost := isGhost sh.dims i j }

/-- A single cell meets the criterion. -/
def Meets (env : Env) (sh : Shared) (p : Patch) (i j : ℤ) : Prop :=
  match env.criterion with
  | .value => sh.threshold < p.q (i, j, env.ivar)
  | .difference => Interior sh.dims i j ∧
      (sh.threshold < |p.q (i + 1, j, env.ivar) - p.q (i - 1, j, env.ivar)| ∨
        sh.threshold < |p.q (i, j + 1, env.ivar) - p.q (i, j - 1, env.ivar)|)
  | .gradient => Interior sh.dims i j ∧ ∃ g, IsGradient env.map sh p env.ivar i j g ∧
      (sh.threshold < 0 ∨ sh.threshold ^ 2 < dot g g)
  | .user (some f) => 0 < f (argsOf env.ivar sh p i j)
  | _ => False

/-- Some cell of the patches meets the criterion; for the criterion `minmax`,
two cells of them differ by more than the threshold. -/
def Found (env : Env) (sh : Shared) (ps : List Patch) : Prop :=
  match env.criterion with
  | .minmax => ∃ p ∈ ps, ∃ i j, IsCell sh.dims i j ∧ ∃ p' ∈ ps, ∃ i' j', IsCell sh.dims i' j' ∧
      sh.threshold < p.q (i, j, env.ivar) - p'.q (i', j', env.ivar)
  | _ => ∃ p ∈ ps, ∃ i j, IsCell sh.dims i j ∧ Meets env sh p i j

/-- The grid has cells and at least one layer of ghost cells, and the variable
exists. -/
structure Shared.Ok (sh : Shared) (ivar : ℤ) : Prop where
  mx : 1 ≤ sh.dims.mx
  my : 1 ≤ sh.dims.my
  mbc : 1 ≤ sh.dims.mbc
  lower : 1 ≤ ivar
  upper : ivar ≤ sh.dims.meqn

/-- The criterion is one of those treated here, and fits to the patches. -/
def Fits (env : Env) (sh : Shared) (ps : List Patch) : Prop :=
  match env.criterion with
  | .value => True
  | .difference => True
  | .minmax => True
  | .gradient => ∀ p ∈ ps, Nondegenerate env.map sh p
  | .user (some f) => Local f
  | .user none => False
  | .other => False

end Fclaw.Tag
