import Verif.GeoStep.Model
/-
What the theorems about GeoClaw's time step talk about: water at rest, the flow of water through an edge, the
amount of water in a patch.
-/
set_option autoImplicit false
namespace Fclaw.GeoStep

/-- A cell of a grid: depth of the water, its two momenta, height of the ground. -/
structure Column where
  h : ℝ
  hu : ℝ
  hv : ℝ
  b : ℝ

/-- The column of cell `(i, j)`. -/
def column (q : Field) (aux : Aux) (i j : ℤ) : Column := ⟨q i j 0, q i j 1, q i j 2, aux 1 i j⟩

/-- Nothing moves, and the cell has no water or more of it than the dry tolerance. -/
def Column.Still (tol : ℝ) (c : Column) : Prop := c.hu = 0 ∧ c.hv = 0 ∧ (c.h = 0 ∨ tol < c.h)

/-- Two neighbouring cells are in balance: where both have water, its surface is at the same height; where
one has water, the ground of the other one is not below that surface. -/
def Balanced (tol : ℝ) (c d : Column) : Prop :=
  (tol < c.h → tol < d.h → c.h + c.b = d.h + d.b) ∧
  (tol < c.h → d.h = 0 → c.h + c.b ≤ d.b) ∧
  (tol < d.h → c.h = 0 → d.h + d.b ≤ c.b)

/-- Water at rest in a patch and one row of cells around it. There may be several lakes, at different levels. -/
structure AtRest (tol : ℝ) (d : Dims) (q : Field) (aux : Aux) : Prop where
  still : ∀ i j : ℤ, (column q aux i j).Still tol
  inX : ∀ i j : ℤ, 1 ≤ i → i ≤ d.mx + 1 → 0 ≤ j → j ≤ d.my + 1 →
    Balanced tol (column q aux (i - 1) j) (column q aux i j)
  inY : ∀ i j : ℤ, 0 ≤ i → i ≤ d.mx + 1 → 1 ≤ j → j ≤ d.my + 1 →
    Balanced tol (column q aux i (j - 1)) (column q aux i j)

/-- The flow of water in direction `m` in a cell: none if there is not enough water. -/
noncomputable def flow (tol : ℝ) (m : Fin 3) (q : V) : ℝ := if tol < q 0 then q m else 0

/-- The sum of the depths of the cells of a patch. -/
def water (mx my : ℕ) (q : Field) : ℝ :=
  ∑ i ∈ Finset.range mx, ∑ j ∈ Finset.range my, q (i + 1) (j + 1) 0

/-- The same, weighted by the capacities `aux(mcapa,i,j)`: the volume up to a factor. -/
def volume (mcapa : ℤ) (mx my : ℕ) (aux : Aux) (q : Field) : ℝ :=
  ∑ i ∈ Finset.range mx, ∑ j ∈ Finset.range my, aux mcapa (i + 1) (j + 1) * q (i + 1) (j + 1) 0

/-- How high water of depth `h` with momentum `hu` towards a wall is taken to rise there. -/
noncomputable def runup (g h hu : ℝ) : ℝ := max h ((max 0 (Real.sqrt h + hu / h / (2 * Real.sqrt g))) ^ 2)

/-- The cell `outer`, with ground `bo`, next to the cell `inner`, with ground `bi`, is a wall for it: it has no
water, and its ground is higher than what the water of the other one, with momentum `hu` towards it, rises to. -/
def Wall (g tol : ℝ) (inner outer : V) (bi bo hu : ℝ) : Prop :=
  outer 0 ≤ tol ∧ (tol < inner 0 → runup g (inner 0) hu + bi < bo)

/-- The cell `outer` is the mirror image of `inner`: same depth, same ground, opposite momentum in direction `m`. -/
def Reflects (tol : ℝ) (m : Fin 3) (inner outer : V) (bi bo : ℝ) : Prop :=
  tol < inner 0 ∧ outer 0 = inner 0 ∧ outer m = -inner m ∧ bo = bi

/-- A patch that is closed on all sides, by walls or by mirrored ghost cells. -/
structure Closed (g tol : ℝ) (mx my : ℤ) (q : Field) (aux : Aux) : Prop where
  west : ∀ j : ℤ, 1 ≤ j → j ≤ my → Wall g tol (q 1 j) (q 0 j) (aux 1 1 j) (aux 1 0 j) (-q 1 j 1) ∨
    Reflects tol 1 (q 1 j) (q 0 j) (aux 1 1 j) (aux 1 0 j)
  east : ∀ j : ℤ, 1 ≤ j → j ≤ my →
    Wall g tol (q mx j) (q (mx + 1) j) (aux 1 mx j) (aux 1 (mx + 1) j) (q mx j 1) ∨
    Reflects tol 1 (q mx j) (q (mx + 1) j) (aux 1 mx j) (aux 1 (mx + 1) j)
  south : ∀ i : ℤ, 1 ≤ i → i ≤ mx → Wall g tol (q i 1) (q i 0) (aux 1 i 1) (aux 1 i 0) (-q i 1 2) ∨
    Reflects tol 2 (q i 1) (q i 0) (aux 1 i 1) (aux 1 i 0)
  north : ∀ i : ℤ, 1 ≤ i → i ≤ mx →
    Wall g tol (q i my) (q i (my + 1)) (aux 1 i my) (aux 1 i (my + 1)) (q i my 2) ∨
    Reflects tol 2 (q i my) (q i (my + 1)) (aux 1 i my) (aux 1 i (my + 1))

/-- Kinetic energy times twice the depth. -/
def momentumSq (q : V) : ℝ := q 1 ^ 2 + q 2 ^ 2

end Fclaw.GeoStep
