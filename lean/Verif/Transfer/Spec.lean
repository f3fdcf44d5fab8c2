import Verif.Transfer.Model
import Verif.CopyGhost.Spec
import Mathlib.Algebra.BigOperators.Group.Finset.Sigma
import Mathlib.Order.Interval.Finset.Basic
import Mathlib.Data.Int.Interval
/-
Mass on a patch and on its four children (C37, C38, C40), and the neighbourhood that bounds
interpolated values (C39).
-/
set_option autoImplicit false
namespace Fclaw.Transfer

open Fort CopyGhost

/-- Even numbers of cells. -/
def Even2 (d : Dims) : Prop := 2 ≤ d.mx ∧ 2 ≤ d.my ∧ d.mx % 2 = 0 ∧ d.my % 2 = 0

/-- The cells of the four children: `(igrid, i, j)`. -/
def fineCells (d : Dims) : Finset (ℤ × ℤ × ℤ) :=
  Finset.Icc 0 3 ×ˢ Finset.Icc 1 (d.mx : ℤ) ×ˢ Finset.Icc 1 (d.my : ℤ)

def coarseCells (d : Dims) : Finset (ℤ × ℤ) := Finset.Icc 1 (d.mx : ℤ) ×ˢ Finset.Icc 1 (d.my : ℤ)

/-- The coarse cell that a fine cell is part of: child `igrid` covers the quadrant with number `igrid % 2`
in x and `igrid / 2` in y, each coarse cell two fine cells in both directions. -/
def parent (d : Dims) (c : ℤ × ℤ × ℤ) : ℤ × ℤ :=
  (c.1 % 2 * ((d.mx : ℤ) / 2) + (c.2.1 + 1) / 2, c.1 / 2 * ((d.my : ℤ) / 2) + (c.2.2 + 1) / 2)

/-- Mass of component `mq` in a fine cell. -/
def fineMass (kf : ℤ → Area) (qf : ℤ → Grid ℚ) (mq : ℤ) (c : ℤ × ℤ × ℤ) : ℚ :=
  kf c.1 (c.2.1, c.2.2) * qf c.1 (c.2.1, c.2.2, mq)

def coarseMass (kc : Area) (q : Grid ℚ) (mq : ℤ) (c : ℤ × ℤ) : ℚ := kc c * q (c.1, c.2, mq)

/-- The mass of all fine cells in a coarse cell. -/
def massIn (d : Dims) (kf : ℤ → Area) (qf : ℤ → Grid ℚ) (mq : ℤ) (C : ℤ × ℤ) : ℚ :=
  ∑ c ∈ fineCells d with parent d c = C, fineMass kf qf mq c

/-- Proper areas: on a mapped grid (`manifold = 1`) any positive areas; otherwise those of a uniform grid, a
coarse cell being four times as large as a fine one. -/
def Areas (d : Dims) (manifold : ℤ) (kc : Area) (kf : ℤ → Area) : Prop :=
  (∀ C ∈ coarseCells d, 0 < kc C) ∧ (∀ c ∈ fineCells d, 0 < kf c.1 (c.2.1, c.2.2)) ∧
  (manifold = 1 ∨ manifold = 0 ∧ ∃ κ : ℚ, (∀ C ∈ coarseCells d, kc C = 4 * κ) ∧
    ∀ c ∈ fineCells d, kf c.1 (c.2.1, c.2.2) = κ)

/-- Position of the centre of a fine cell, in units of coarse cells, so that coarse cell `I` has its centre
at `I`. -/
def centreX (d : Dims) (c : ℤ × ℤ × ℤ) : ℚ := ((c.1 % 2 * ((d.mx : ℤ) / 2) : ℤ) : ℚ) + ((c.2.1 : ℚ) + 1 / 2) / 2

def centreY (d : Dims) (c : ℤ × ℤ × ℤ) : ℚ := ((c.1 / 2 * ((d.my : ℤ) / 2) : ℤ) : ℚ) + ((c.2.2 : ℚ) + 1 / 2) / 2

/-- A coarse cell and its four face neighbours. -/
def cross (C : ℤ × ℤ) : List (ℤ × ℤ) := [C, (C.1 - 1, C.2), (C.1 + 1, C.2), (C.1, C.2 - 1), (C.1, C.2 + 1)]

end Fclaw.Transfer
