import Verif.Tag3.Model
import Verif.Tag.Spec
/-
What it means that a patch with layers, or a family of them, meets a refinement criterion.
-/
set_option autoImplicit false

namespace Fclaw.Tag3

open Fclaw.Fort Fclaw.Extrude

/-- The layers with cells of the patch. -/
def Layers (D : Dims3) (k : ℤ) : Prop := 1 ≤ k ∧ k ≤ D.mz

/-- All layers: ghost cells above and below included. -/
def AllLayers (D : Dims3) (k : ℤ) : Prop := 1 - (D.mbc : ℤ) ≤ k ∧ k ≤ D.mz + D.mbc

/-- A cell of the patch or a ghost cell at its sides, in one of the layers `K`. -/
def IsCell (D : Dims3) (K : ℤ → Prop) (c : Pos) : Prop :=
  (1 - (D.mbc : ℤ) ≤ c.1 ∧ c.1 ≤ D.mx + D.mbc) ∧ (1 - (D.mbc : ℤ) ≤ c.2.1 ∧ c.2.1 ≤ D.my + D.mbc) ∧ K c.2.2

/-- A cell of the patch that is not a ghost cell. -/
def Interior (D : Dims3) (c : Pos) : Prop :=
  (1 ≤ c.1 ∧ c.1 ≤ D.mx) ∧ (1 ≤ c.2.1 ∧ c.2.1 ≤ D.my) ∧ 1 ≤ c.2.2 ∧ c.2.2 ≤ D.mz

/-- The value of a variable in a cell. -/
def Patch.at (p : Patch) (c : Pos) (mq : ℤ) : ℚ := p.q (c.1, c.2.1, c.2.2, mq)

/-- The difference of the values to both sides of a cell. -/
def dX (p : Patch) (c : Pos) (mq : ℤ) : ℚ := p.at (c.1 + 1, c.2.1, c.2.2) mq - p.at (c.1 - 1, c.2.1, c.2.2) mq
def dY (p : Patch) (c : Pos) (mq : ℤ) : ℚ := p.at (c.1, c.2.1 + 1, c.2.2) mq - p.at (c.1, c.2.1 - 1, c.2.2) mq
def dZ (p : Patch) (c : Pos) (mq : ℤ) : ℚ := p.at (c.1, c.2.1, c.2.2 + 1) mq - p.at (c.1, c.2.1, c.2.2 - 1) mq

/-- What a user criterion sees of a cell. -/
def argsOf (ivar : ℤ) (sh : Shared) (p : Patch) (c : Pos) : Args :=
  { blockno := sh.blockno, meqn := sh.dims.meqn, qval := fun mq => some (p.at c mq),
    qmin := fun _ => none, qmax := fun _ => none, quad := fun o mq => some (p.at (c + o) mq),
    dx := sh.dx, dy := sh.dy, dz := sh.dz, xc := p.xlower + (c.1 - 1 / 2) * sh.dx,
    yc := p.ylower + (c.2.1 - 1 / 2) * sh.dy, zc := sh.zlower + (c.2.2 - 1 / 2) * sh.dz, ivar := ivar,
    threshold := sh.threshold, initFlag := sh.initFlag, isGhost := isGhost sh.dims c }

/-- A user criterion that looks at the cell and, except in ghost cells, at its 26 neighbours, but not at the running
minimum and maximum. -/
def Local (f : Args → ℤ) : Prop :=
  ∀ (a : Args) (lo hi : ℤ → Option ℚ) (val' : ℤ → Option ℚ) (quad' : Pos → ℤ → Option ℚ),
    (∀ mq, 1 ≤ mq → mq ≤ a.meqn → val' mq = a.qval mq) →
    (a.isGhost = false → ∀ (o : Pos) (mq : ℤ), -1 ≤ o.1 ∧ o.1 ≤ 1 → -1 ≤ o.2.1 ∧ o.2.1 ≤ 1 → -1 ≤ o.2.2 ∧ o.2.2 ≤ 1 →
      1 ≤ mq → mq ≤ a.meqn → quad' o mq = a.quad o mq) →
    f { a with qmin := lo, qmax := hi, qval := val', quad := quad' } = f a

/-- A single cell meets the criterion. -/
def Meets (env : Env) (sh : Shared) (p : Patch) (c : Pos) : Prop :=
  match env.criterion with
  | .value => sh.threshold < p.at c env.ivar
  | .difference => Interior sh.dims c ∧ (sh.threshold < |dX p c env.ivar| ∨ sh.threshold < |dY p c env.ivar| ∨
      sh.threshold < |dZ p c env.ivar|)
  | .gradient => Interior sh.dims c ∧ (sh.threshold < 0 ∨ sh.threshold ^ 2 <
      (dX p c env.ivar / (2 * sh.dx)) ^ 2 + (dY p c env.ivar / (2 * sh.dy)) ^ 2 + (dZ p c env.ivar / (2 * sh.dz)) ^ 2)
  | .user (some f) => 0 < f (argsOf env.ivar sh p c)
  | _ => False

/-- Some cell in the layers `K` of the patches meets the criterion; for the criterion `minmax`, two cells of them differ
by more than the threshold. -/
def Found (env : Env) (sh : Shared) (K : ℤ → Prop) (ps : List Patch) : Prop :=
  match env.criterion with
  | .minmax => ∃ p ∈ ps, ∃ c, IsCell sh.dims K c ∧ ∃ p' ∈ ps, ∃ c', IsCell sh.dims K c' ∧
      sh.threshold < p.at c env.ivar - p'.at c' env.ivar
  | _ => ∃ p ∈ ps, ∃ c, IsCell sh.dims K c ∧ Meets env sh p c

/-- The grid has cells and at least one layer of ghost cells, and the variable exists. -/
structure Shared.Ok (sh : Shared) (ivar : ℤ) : Prop where
  mx : 1 ≤ sh.dims.mx
  my : 1 ≤ sh.dims.my
  mz : 1 ≤ sh.dims.mz
  mbc : 1 ≤ sh.dims.mbc
  lower : 1 ≤ ivar
  upper : ivar ≤ sh.dims.meqn

/-- The criterion is one of those treated here; for gradients the cells have a size. -/
def Fits (env : Env) (sh : Shared) : Prop :=
  match env.criterion with
  | .value => True
  | .difference => True
  | .minmax => True
  | .gradient => sh.dx ≠ 0 ∧ sh.dy ≠ 0 ∧ sh.dz ≠ 0
  | .user (some f) => Local f
  | .user none => False
  | .other => False

/-- A user criterion that is met at a lower threshold whenever it is met at a higher one. -/
def Antitone (f : Args → ℤ) : Prop :=
  ∀ (a : Args) (lower : ℚ), lower ≤ a.threshold → 0 < f a → 0 < f { a with threshold := lower }

/-- In the ghost cells above and below there are no other values than in the layers of the patch, for instance because
the boundary condition extrapolates the values of the cells next to the boundary, or copies them from the other side. -/
def Repeats (sh : Shared) (mq : ℤ) (p : Patch) : Prop :=
  ∀ c, IsCell sh.dims (AllLayers sh.dims) c → ∃ c', IsCell sh.dims (Layers sh.dims) c' ∧ p.at c mq = p.at c' mq

/-- The ghost cells above and below cannot matter: the criterion does not look at them, or there is nothing new there. -/
def Harmless (env : Env) (sh : Shared) (p : Patch) : Prop :=
  match env.criterion with
  | .value => Repeats sh env.ivar p
  | .minmax => Repeats sh env.ivar p
  | .user (some f) => ∀ (th : ℚ) (c : Pos), IsCell sh.dims (AllLayers sh.dims) c → ¬ Layers sh.dims c.2.2 →
      ¬ 0 < f (argsOf env.ivar { sh with threshold := th } p c)
  | _ => True

/-! ### Without layers -/

/-- The same patch in two dimensions, for a solution that is the same in all layers. -/
def flat (p : Patch) : Tag.Patch := ⟨fun c => p.q (c.1, c.2.1, 1, c.2.2), p.xlower, p.ylower⟩

def Shared.flat (sh : Shared) : Tag.Shared := ⟨sh.dims.toDims, sh.blockno, sh.dx, sh.dy, sh.threshold, sh.initFlag⟩

/-- The solution does not depend on the layer. -/
def SameLayers (sh : Shared) (p : Patch) : Prop :=
  ∀ i j k mq : ℤ, AllLayers sh.dims k → p.q (i, j, k, mq) = p.q (i, j, 1, mq)

/-- The same criterion in two dimensions, without a mapping. -/
inductive Same : Criterion → Tag.Criterion → Prop
  | value : Same .value .value
  | difference : Same .difference .difference
  | minmax : Same .minmax .minmax
  | gradient : Same .gradient .gradient

end Fclaw.Tag3
