/-
What the default boundary conditions mean.
-/
import Verif.Bc.Model

set_option autoImplicit false

namespace Fclaw.Bc

open Fclaw.Fort

/-- The boundary condition of a side: none (there is a neighbour), extrapolation of the first cell, or
a solid wall. -/
inductive Kind where
  | none | extrap | wall
  deriving DecidableEq

/-- The condition of side `k`: none unless it is at the physical boundary; the option has the codes 1
and 3. -/
def kind (blockMthbc : Nat → ℤ) (intersects : Nat → Bool) (k : Nat) : Kind :=
  if intersects k = true then (if blockMthbc k = 1 then .extrap else .wall) else .none

/-- In one direction with cells `1 … n`: the cell whose value the cell `i` takes; beyond a wall it is
the mirror image. -/
def image (n : ℤ) (lo hi : Kind) (i : ℤ) : ℤ :=
  if i < 1 then
    match lo with
    | .none => i
    | .extrap => 1
    | .wall => 1 - i
  else if n < i then
    match hi with
    | .none => i
    | .extrap => n
    | .wall => 2 * n + 1 - i
  else i

/-- The cell `i` lies behind a wall. -/
def behindWall (n : ℤ) (lo hi : Kind) (i : ℤ) : Prop :=
  (i < 1 ∧ lo = .wall) ∨ (n < i ∧ hi = .wall)

instance (n : ℤ) (lo hi : Kind) (i : ℤ) : Decidable (behindWall n lo hi i) := by
  unfold behindWall; infer_instance

/-- The sign of component `m`: `normal` is the component normal to the wall. -/
def sign (n : ℤ) (lo hi : Kind) (i : ℤ) (m normal : ℤ) : ℚ :=
  if behindWall n lo hi i ∧ m = normal then -1 else 1

/-- What a grid should be: in both directions the image, with the sign of component 2 for walls in x
and of component 3 for walls in y. -/
def filled (d : Dims) (k : Nat → Kind) (q : Grid ℚ) (c : Cell) : ℚ :=
  sign d.mx (k 0) (k 1) c.1 c.2.2 2 * sign d.my (k 2) (k 3) c.2.1 c.2.2 3 *
    q (image d.mx (k 0) (k 1) c.1, image d.my (k 2) (k 3) c.2.1, c.2.2)

/-- Options and sizes for which the default conditions are meant: at the physical boundary the codes
are 1 or 3, with a component to negate for 3; there are at least as many cells as layers of ghost
cells. -/
structure Usable (d : Dims) (blockMthbc : Nat → ℤ) (intersects : Nat → Bool) : Prop where
  cellsX : 1 ≤ d.mx ∧ d.mbc ≤ d.mx
  cellsY : 1 ≤ d.my ∧ d.mbc ≤ d.my
  codes : ∀ k, k < 4 → intersects k = true → blockMthbc k = 1 ∨ blockMthbc k = 3
  wallX : ∀ k, k < 2 → intersects k = true → blockMthbc k = 3 → 2 ≤ d.meqn
  wallY : ∀ k, 2 ≤ k → k < 4 → intersects k = true → blockMthbc k = 3 → 3 ≤ d.meqn

end Fclaw.Bc
