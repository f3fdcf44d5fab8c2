import Verif.GeoGauge.Model
/-
Vocabulary for C107: positions in a grid of cells.
-/
set_option autoImplicit false
namespace Fclaw.GeoGauge

open Fort

noncomputable section

/-- The centre of cell `(i, j)`. -/
def Patch.centre (P : Patch) (i j : ℤ) : ℝ × ℝ := (P.xlower + ((i : ℝ) - 1 / 2) * P.dx, P.ylower + ((j : ℝ) - 1 / 2) * P.dy)

/-- The point is in cell `(i, j)`; cells contain their left and lower boundaries. -/
def Patch.In (P : Patch) (i j : ℤ) (p : ℝ × ℝ) : Prop :=
  (P.xlower + ((i : ℝ) - 1) * P.dx ≤ p.1 ∧ p.1 < P.xlower + (i : ℝ) * P.dx) ∧
  (P.ylower + ((j : ℝ) - 1) * P.dy ≤ p.2 ∧ p.2 < P.ylower + (j : ℝ) * P.dy)

/-- The point is in the patch, boundary included. -/
def Patch.Has (P : Patch) (p : ℝ × ℝ) : Prop :=
  (P.xlower ≤ p.1 ∧ p.1 ≤ P.xlower + (P.mx : ℝ) * P.dx) ∧ (P.ylower ≤ p.2 ∧ p.2 ≤ P.ylower + (P.my : ℝ) * P.dy)

/-- A patch with two layers of ghost cells. -/
structure Patch.Valid (P : Patch) : Prop where
  dx : 0 < P.dx
  dy : 0 < P.dy
  mbc : 2 ≤ P.mbc

/-- The cell `(i, j)`, its neighbours to the right and above, and the one between these. -/
def four (i j : ℤ) : List (ℤ × ℤ) := [(i, j), (i + 1, j), (i, j + 1), (i + 1, j + 1)]

/-- All four cells have water. -/
def Wet (dryTolerance : ℝ) (q : Grid ℝ) (i j : ℤ) : Prop := ∀ c ∈ four i j, dryTolerance / 10 ≤ q (c.1, c.2, 1)

/-- `w` is written for `v`: numbers that are too small for other programs become zero. -/
def Written (v w : ℝ) : Prop := (|v| < 1 / 10 ^ 99 → w = 0) ∧ (1 / 10 ^ 99 ≤ |v| → w = v)

/-- The components of a record. -/
def Entry.comp (e : Entry) (m : ℤ) : ℝ := if m = 1 then e.s.h else if m = 2 then e.s.hu else e.s.hv

/-- The values of the array in the four cells are those of the function `F` at their centres. -/
def Samples (P : Patch) (q : Grid ℝ) (m i j : ℤ) (F : ℝ × ℝ → ℝ) : Prop := ∀ c ∈ four i j, q (c.1, c.2, m) = F (P.centre c.1 c.2)

/-- A function that is linear in each coordinate. -/
def Bilinear (F : ℝ × ℝ → ℝ) : Prop := ∃ a b c d : ℝ, ∀ p, F p = a + b * p.1 + c * p.2 + d * p.1 * p.2

end

end Fclaw.GeoGauge
