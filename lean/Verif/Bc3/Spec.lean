/-
What the default boundary conditions in three dimensions mean.
-/
import Verif.Bc3.Model

set_option autoImplicit false

namespace Fclaw.Bc3

open Fclaw.Fort Fclaw.Extrude

/-- The boundary condition of a side: none (there is a neighbour), extrapolation of the first cell, periodic
continuation, or a solid wall. -/
inductive Kind where
  | none | extrap | periodic | wall
  deriving DecidableEq

/-- The condition that a code asks for. -/
def ofCode (code : ℤ) : Kind := if code = 1 then .extrap else if code = 2 then .periodic else .wall

/-- The condition of side `k` (0 to 3 at the sides, 4 below, 5 above). -/
def kind (blockMthbc : Nat → ℤ) (intersects : Nat → Bool) (k : Nat) : Kind :=
  if k < 4 ∧ intersects k = false then .none else ofCode (blockMthbc k)

/-- In one direction with cells `1 … n`: the cell whose value the cell `i` takes. -/
def image (n : ℤ) (lo hi : Kind) (i : ℤ) : ℤ :=
  if i < 1 then
    match lo with
    | .none => i
    | .extrap => 1
    | .periodic => i + n
    | .wall => 1 - i
  else if n < i then
    match hi with
    | .none => i
    | .extrap => n
    | .periodic => i - n
    | .wall => 2 * n + 1 - i
  else i

/-- The cell `i` lies behind a wall. -/
def behindWall (n : ℤ) (lo hi : Kind) (i : ℤ) : Prop :=
  (i < 1 ∧ lo = .wall) ∨ (n < i ∧ hi = .wall)

instance (n : ℤ) (lo hi : Kind) (i : ℤ) : Decidable (behindWall n lo hi i) := by
  unfold behindWall; infer_instance

/-- The sign of component `m`: `normal` is the component normal to the wall. -/
def sign (n : ℤ) (lo hi : Kind) (i : ℤ) (m normal : ℤ) : ℚ :=
  if behindWall n lo hi i ∧ m = normal then -1 else 1

/-- What a grid should be: in all directions the image, with the sign of components 2, 3 and 4 for walls in x, y and z. -/
def filled (D : Dims3) (k : Nat → Kind) (q : Grid3 ℚ) (c : Cell3) : ℚ :=
  sign D.mx (k 0) (k 1) c.1 c.2.2.2 2 * sign D.my (k 2) (k 3) c.2.1 c.2.2.2 3 * sign D.mz (k 4) (k 5) c.2.2.1 c.2.2.2 4 *
    q (image D.mx (k 0) (k 1) c.1, image D.my (k 2) (k 3) c.2.1, image D.mz (k 4) (k 5) c.2.2.1, c.2.2.2)

/-- Options and sizes for which the default conditions are meant: the codes are 1 or 3, or 2 along z, with a component to
negate for 3; there are at least as many cells as layers of ghost cells. -/
structure Usable (D : Dims3) (blockMthbc : Nat → ℤ) (intersects : Nat → Bool) : Prop where
  cellsX : 1 ≤ D.mx ∧ D.mbc ≤ D.mx
  cellsY : 1 ≤ D.my ∧ D.mbc ≤ D.my
  cellsZ : 1 ≤ D.mz ∧ D.mbc ≤ D.mz
  codes : ∀ k, k < 4 → intersects k = true → blockMthbc k = 1 ∨ blockMthbc k = 3
  codesZ : ∀ k, k = 4 ∨ k = 5 → blockMthbc k = 1 ∨ blockMthbc k = 2 ∨ blockMthbc k = 3
  wallX : ∀ k, k < 2 → intersects k = true → blockMthbc k = 3 → 2 ≤ D.meqn
  wallY : ∀ k, k = 2 ∨ k = 3 → intersects k = true → blockMthbc k = 3 → 3 ≤ D.meqn
  wallZ : ∀ k, k = 4 ∨ k = 5 → blockMthbc k = 3 → 4 ≤ D.meqn

end Fclaw.Bc3
