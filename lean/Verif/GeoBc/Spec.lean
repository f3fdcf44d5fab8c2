import Verif.GeoBc.Model
import Verif.Bc.Spec
/-
What the boundary conditions of GeoClaw mean. `Kind`, `image` and `sign` are those of the other solvers (C66).
-/
set_option autoImplicit false
namespace Fclaw.GeoBc

open Fort
open Bc (Out ofOption Kind image sign behindWall)

/-- The condition of side `k`: 1 is extrapolation, 3 a wall; otherwise, and at neighbours, nothing is done. -/
def kind (block : ℕ → ℤ) (intersects : ℕ → Bool) (k : ℕ) : Kind :=
  if intersects k then (if block k = 1 then .extrap else if block k = 3 then .wall else .none) else .none

/-- Cells that belong to the boundary condition: behind a side with a condition. -/
def image2 (d : Sizes) (k : ℕ → Kind) (i j : ℤ) : ℤ × ℤ := (image d.mx (k 0) (k 1) i, image d.my (k 2) (k 3) j)

/-- What an array should hold: the solution `a` and the height of the ground (component 1 of `aux`) come from the image of the cell; the momentum
normal to a wall changes its sign. All else is as before. -/
def filled (d : Sizes) (a : Arr) (k : ℕ → Kind) (M : Mem) (e : El) : ℚ :=
  let p := image2 d k e.2.1 e.2.2.1
  if e.1 = a then
    sign d.mx (k 0) (k 1) e.2.1 e.2.2.2 2 * sign d.my (k 2) (k 3) e.2.2.1 e.2.2.2 3 * M (a, p.1, p.2, e.2.2.2)
  else if e.1 = .aux ∧ e.2.2.2 = 1 then M (.aux, p.1, p.2, 1)
  else M e

/-- Depth and two momenta, ground, enough cells, and no condition of the user at the physical boundary. -/
structure Usable (d : Sizes) (block : ℕ → ℤ) (intersects : ℕ → Bool) : Prop where
  cellsX : 1 ≤ d.mx ∧ d.mbc ≤ d.mx
  cellsY : 1 ≤ d.my ∧ d.mbc ≤ d.my
  meqn : 3 ≤ d.meqn
  maux : 1 ≤ d.maux
  codes : ∀ k, k < 4 → intersects k = true → block k ≠ 0

/-- A cell is at rest: its surface is at sea level `eta` or it is dry, and nothing moves. -/
def AtRest (a : Arr) (eta : ℚ) (M : Mem) (i j : ℤ) : Prop :=
  (M (a, i, j, 1) = 0 ∨ M (a, i, j, 1) + M (.aux, i, j, 1) = eta) ∧ M (a, i, j, 2) = 0 ∧ M (a, i, j, 3) = 0

end Fclaw.GeoBc
