import Verif.Elliptic.Model
import Mathlib.Algebra.BigOperators.Group.Finset.Basic
import Mathlib.Order.Interval.Finset.Basic
import Mathlib.Data.Int.Interval
/-
The discrete elliptic equation on a patch: in every cell the sum over the four sides of (coefficient of the side) times
(difference across the side) over (size of the cell)², plus `lambda` times the value.
-/
set_option autoImplicit false
namespace Fclaw.Elliptic

open Fort

/-- Cell `(i, j)` belongs to the patch. -/
def Inside (I : Info) (i j : ℤ) : Prop := (1 ≤ i ∧ i ≤ I.d.mx) ∧ 1 ≤ j ∧ j ≤ I.d.my

/-- `m` is one of the fields. -/
def Field (I : Info) (m : ℤ) : Prop := 1 ≤ m ∧ m ≤ I.d.meqn

instance (I : Info) (i j : ℤ) : Decidable (Inside I i j) := by unfold Inside; infer_instance

instance (I : Info) (m : ℤ) : Decidable (Field I m) := by unfold Field; infer_instance

/-- The cell touches side `k` of the patch: 0 west, 1 east, 2 south, 3 north. -/
def AtSide (I : Info) (k : Nat) (i j : ℤ) : Prop :=
  match k with
  | 0 => i = 1
  | 1 => i = I.d.mx
  | 2 => j = 1
  | 3 => j = I.d.my
  | _ => False

instance (I : Info) (k : Nat) (i j : ℤ) : Decidable (AtSide I k i j) := by
  unfold AtSide; split <;> infer_instance

/-- The cell next to `(i, j)` in direction `k`. -/
def next (k : Nat) (i j : ℤ) : ℤ × ℤ :=
  match k with
  | 0 => (i - 1, j)
  | 1 => (i + 1, j)
  | 2 => (i, j - 1)
  | _ => (i, j + 1)

/-- The size of the cells across side `k`. -/
def Info.h (I : Info) (k : Nat) : ℚ := if k / 2 = 0 then I.dx else I.dy

/-- The coefficient at side `k` of a cell: the mean of both cells. -/
def Op.coeff (op : Op) (k : Nat) (i j : ℤ) : ℚ :=
  match op with
  | .varPoisson beta => (beta (i, j, 1) + beta ((next k i j).1, (next k i j).2, 1)) / 2
  | _ => 1

/-- The coefficient of the value itself. -/
def Op.lambda : Op → ℚ
  | .heat lambda _ => lambda
  | _ => 0

/-- A value for every side of every cell at the sides of the patch: what is taken as the value on the other side. -/
abbrev Ghosts := Nat → ℤ → ℤ → ℤ → ℚ

/-- The value across side `k` of a cell. -/
def across (I : Info) (G : Ghosts) (u : Grid ℚ) (k : Nat) (i j m : ℤ) : ℚ :=
  if AtSide I k i j then G k i j m else u ((next k i j).1, (next k i j).2, m)

/-- The discrete operator. -/
def discrete (I : Info) (op : Op) (G : Ghosts) (u : Grid ℚ) (i j m : ℤ) : ℚ :=
  (∑ k ∈ Finset.range 4, op.coeff k i j * (across I G u k i j m - u (i, j, m)) / I.h k ^ 2) + op.lambda * u (i, j, m)

/-- Neighbours' values as they are in the ghost cells; at the boundary a multiple of the value in the cell. -/
def outer (I : Info) (op : Op) (u : Grid ℚ) : Ghosts := fun k i j m =>
  if I.nbr k then u ((next k i j).1, (next k i j).2, m) else op.sign k * u (i, j, m)

/-- The patch by itself: zero on the sides where there is a neighbour. -/
def alone (I : Info) (op : Op) (u : Grid ℚ) : Ghosts := fun k i j m =>
  if I.nbr k then -u (i, j, m) else op.sign k * u (i, j, m)

/-- The patch has cells. -/
structure Cells (I : Info) : Prop where
  mx : 1 ≤ I.d.mx
  my : 1 ≤ I.d.my

/-- There are ghost cells and the cells have a size; `lambda` is not positive. -/
structure Ok (I : Info) (op : Op) : Prop where
  mbc : 1 ≤ I.d.mbc
  dx : I.dx ≠ 0
  dy : I.dy ≠ 0
  lambda : op.lambda ≤ 0

/-- The operator on a single patch can be inverted: coefficients are positive, boundary conditions are of the types 1 and
2, and either `lambda` is negative or there is a side with a neighbour or with a Dirichlet condition. -/
structure Definite (I : Info) (op : Op) : Prop where
  coeff : ∀ k < 4, ∀ i j : ℤ, Inside I i j → 0 < op.coeff k i j
  sign : ∀ k < 4, I.nbr k = false → op.sign k = -1 ∨ op.sign k = 1
  pinned : op.lambda < 0 ∨ ∃ k < 4, I.nbr k = true ∨ op.sign k = -1

/-! ### Inhomogeneous boundary conditions -/

/-- The value `x` on this side and the ghost value `y` on the other side of the boundary meet the condition: the value at
the boundary is `g` (type 1), or the derivative in direction of the normal is `g` (type 2). -/
def Meets (bctype : ℤ) (h g x y : ℚ) : Prop :=
  (bctype = 1 ∧ (x + y) / 2 = g) ∨ (bctype = 2 ∧ (y - x) / h = g)

/-- The place of a cell along side `k`. -/
def place (k : Nat) (i j : ℤ) : ℤ := if k / 2 = 0 then j else i

/-- Ghost values that meet the boundary conditions on the sides without a neighbour, and are the neighbours' elsewhere. -/
def MeetsAll (I : Info) (bctype : Nat → ℤ) (g : Nat → ℤ → ℚ) (u : Grid ℚ) (G : Ghosts) : Prop :=
  ∀ k < 4, ∀ i j : ℤ, Inside I i j → AtSide I k i j →
    if I.nbr k then G k i j 1 = u ((next k i j).1, (next k i j).2, 1)
    else Meets (bctype k) (I.h k) (g k (place k i j)) (u (i, j, 1)) (G k i j 1)

/-- The operator's factors fit the types of the boundary conditions. -/
def Fits (I : Info) (op : Op) (bctype : Nat → ℤ) : Prop :=
  ∀ k < 4, I.nbr k = false → (bctype k = 1 ∧ op.sign k = -1) ∨ (bctype k = 2 ∧ op.sign k = 1)

/-- How often the routine subtracts what belongs to side `k`: once for every boundary side from `k` on. -/
def times (I : Info) (k : Nat) : ℚ := ∑ l ∈ Finset.range 4, if k ≤ l ∧ I.nbr l = false then 1 else 0

/-- The ghost value that belongs to the value zero inside. -/
def lift (bctype : ℤ) (h g : ℚ) : ℚ := if bctype = 1 then 2 * g else h * g

/-- What the boundary values on side `k` contribute to the right-hand side in a cell. -/
def share (I : Info) (bctype : Nat → ℤ) (g : Nat → ℤ → ℚ) (k : Nat) (i j : ℤ) : ℚ :=
  if AtSide I k i j then lift (bctype k) (I.h k) (g k (place k i j)) / I.h k ^ 2 else 0

end Fclaw.Elliptic
