import Verif.CoarseFine.Spec
import Verif.Geo.Model
/-
What is expected of the transfer of shallow water solutions between patches of different size (C82).
-/
set_option autoImplicit false
namespace Fclaw.Geo

open Fort Transform CopyGhost CoarseFine

/-- Depth and momenta of the water in a cell. -/
structure Water where
  h : ℚ
  hu : ℚ
  hv : ℚ

/-- Height of the ground in a cell, and the capacity of the cell. -/
structure Ground where
  b : ℚ
  κ : ℚ

def waterAt (q : Grid ℚ) (c : ℤ × ℤ) : Water := ⟨q (c.1, c.2, 1), q (c.1, c.2, 2), q (c.1, c.2, 3)⟩

def groundAt (P : Params) (aux : Grid ℚ) (c : ℤ × ℤ) : Ground :=
  ⟨aux (c.1, c.2, 1), if P.mcapa = 0 then 1 else aux (c.1, c.2, P.mcapa)⟩

/-! ### Averaging -/

/-- The sum over four cells. -/
def sum4 (a : Nat → Nat → ℚ) : ℚ := a 0 0 + a 1 0 + a 0 1 + a 1 1

/-- The amount of water in a cell that counts as wet. -/
def Wet (tol : ℚ) (w : Water) (g : Ground) : Prop := tol < w.h * g.κ

instance (tol : ℚ) (w : Water) (g : Ground) : Decidable (Wet tol w g) := by unfold Wet; infer_instance

/-- The sum over those of four cells that are wet. -/
def wetSum (tol : ℚ) (w : Nat → Nat → Water) (g : Nat → Nat → Ground) (a : Nat → Nat → ℚ) : ℚ :=
  sum4 fun x y => if Wet tol (w x y) (g x y) then a x y else 0

/-- The number of wet cells. -/
def wetCells (tol : ℚ) (w : Nat → Nat → Water) (g : Nat → Nat → Ground) : ℚ := wetSum tol w g fun _ _ => 1

/-- The water of four cells in one large cell. The surface is the mean of the surfaces in the wet cells, but no
more water than the total over the wet cells; the velocity is the mean of the velocities, by the amount of
water; no water if no cell is wet. -/
def merged (tol : ℚ) (w : Nat → Nat → Water) (g : Nat → Nat → Ground) (G : Ground) : Water :=
  let n := wetCells tol w g
  let total := sum4 fun x y => (w x y).h * (g x y).κ
  let surface := (wetSum tol w g fun x y => (w x y).h * (g x y).κ + (g x y).b * (g x y).κ) / n
  let h := if n = 0 then 0 else min (total / n) (max (surface - G.b * G.κ) 0) / G.κ
  ⟨h, h * ((wetSum tol w g fun x y => (w x y).hu * (g x y).κ) / total),
      h * ((wetSum tol w g fun x y => (w x y).hv * (g x y).κ) / total)⟩

/-- The ground of the large cell is the mean of the ground in the four cells. -/
def Consistent (g : Nat → Nat → Ground) (G : Ground) : Prop :=
  sum4 (fun x y => (g x y).κ) = 4 * G.κ ∧ sum4 (fun x y => (g x y).b * (g x y).κ) = 4 * (G.b * G.κ)

/-- Water that does not move and has its surface at height `s`; where it would be no deeper than the tolerance
there may be none. -/
def AtRest (tol s : ℚ) (w : Water) (g : Ground) : Prop :=
  w.hu = 0 ∧ w.hv = 0 ∧ (w.h = max (s - g.b) 0 ∨ w.h = 0 ∧ (s - g.b) * g.κ ≤ tol)

/-! ### Interpolation -/

/-- Height of the water in each cell, or the sea level where there is none. -/
def surface (P : Params) (q aux : Grid ℚ) : Grid ℚ := fun c =>
  if q (c.1, c.2.1, 1) < P.dryTolerance then P.seaLevel else q (c.1, c.2.1, 1) + aux (c.1, c.2.1, 1)

/-- The depth expected in quarter `(x, y)` of cell `(i, j)`, with ground at height `b`: up to the
reconstructed surface. It is negative if the ground is higher. -/
def refinedDepth (P : Params) (q aux : Grid ℚ) (i j : ℤ) (x y : Nat) (b : ℚ) : ℚ :=
  reconstruct (surface P q aux) i j 1 x y - b

/-! ### A patch and its four children -/

/-- The child that covers coarse cell `C`: number 0 or 1 in the lower row, 2 or 3 in the upper one. -/
def subPatch (d : Dims) (C : ℤ × ℤ) : ℤ :=
  (if 2 * C.1 ≤ d.mx then 0 else 1) + (if 2 * C.2 ≤ d.my then 0 else 2)

/-- The cell of that child in quarter `(x, y)` of coarse cell `C`. -/
def subCell (d : Dims) (C : ℤ × ℤ) (x y : Nat) : ℤ × ℤ :=
  (2 * C.1 - 1 + x - (if 2 * C.1 ≤ d.mx then 0 else (d.mx : ℤ)), 2 * C.2 - 1 + y - (if 2 * C.2 ≤ d.my then 0 else (d.my : ℤ)))

/-- The half of its coarse cell that fine index `i` is in. -/
def half (i : ℤ) : Nat := ((i + 1) % 2).toNat

/-- The cells of child `g`, with those of two more layers that lie within one of the other children. -/
def window (d : Dims) (g i j : ℤ) : Prop :=
  1 - 2 * (g % 2) ≤ i ∧ i ≤ d.mx + 2 * (1 - g % 2) ∧ 1 - 2 * (g / 2) ≤ j ∧ j ≤ d.my + 2 * (1 - g / 2)

/-- Sizes of the arrays. -/
structure Sizes (d : Dims) (P : Params) : Prop where
  meqn : 3 ≤ d.meqn
  maux : 1 ≤ P.maux
  mcapa : P.mcapa = 0 ∨ 1 ≤ P.mcapa ∧ P.mcapa ≤ P.maux

/-- Water is nowhere less than none, and capacities are positive. -/
structure Sound (P : Params) (q aux : Grid ℚ) (S : ℤ → ℤ → Prop) : Prop where
  depth : ∀ i j, S i j → 0 ≤ (waterAt q (i, j)).h
  capacity : ∀ i j, S i j → 0 < (groundAt P aux (i, j)).κ

end Fclaw.Geo
