/-
What the diagnostics should report.
-/
import Verif.Diag.Model
import Mathlib.Algebra.BigOperators.Group.Finset.Basic
import Mathlib.Data.Int.Interval
import Mathlib.Algebra.BigOperators.Group.List.Basic

set_option autoImplicit false

namespace Fclaw.Diag

open Fclaw.Fort

/-- The area of a cell: from the metric terms if a mapping is used, otherwise
that of a Cartesian cell. -/
def cellArea (o : Opts) (p : Patch) (i j : ℤ) : ℚ :=
  match o.mapped, p.area with
  | true, some a => a i j
  | _, _ => p.dx * p.dy

/-- The sum of a quantity over the interior cells of a patch. -/
def overCells (d : Dims) (f : ℤ → ℤ → ℚ) : ℚ :=
  ∑ i ∈ Finset.Icc (1 : ℤ) d.mx, ∑ j ∈ Finset.Icc (1 : ℤ) d.my, f i j

/-- The mass of variable `m` (from 0) in some patches. -/
def mass (o : Opts) (d : Dims) (ps : List Patch) (m : Nat) : ℚ :=
  (ps.map fun p => overCells d fun i j => cellArea o p i j * p.q (i, j, m + 1)).sum

/-- The area of some patches. -/
def area (o : Opts) (d : Dims) (ps : List Patch) : ℚ :=
  (ps.map fun p => overCells d fun i j => cellArea o p i j).sum

/-- The sums in the error norms. -/
def sum1 (o : Opts) (d : Dims) (ps : List Patch) (m : Nat) : ℚ :=
  (ps.map fun p => overCells d fun i j => cellArea o p i j * |p.error (i, j, m + 1)|).sum
def sum2 (o : Opts) (d : Dims) (ps : List Patch) (m : Nat) : ℚ :=
  (ps.map fun p => overCells d fun i j => cellArea o p i j * |p.error (i, j, m + 1)| ^ 2).sum

/-- An interior cell. -/
def Interior (d : Dims) (i j : ℤ) : Prop := (1 ≤ i ∧ i ≤ d.mx) ∧ 1 ≤ j ∧ j ≤ d.my

/-- `x` is the largest error of variable `m`, or zero. -/
def IsMax (d : Dims) (ps : List Patch) (m : Nat) (x : ℚ) : Prop :=
  (0 ≤ x ∧ ∀ p ∈ ps, ∀ i j, Interior d i j → |p.error (i, j, m + 1)| ≤ x) ∧
  (x = 0 ∨ ∃ p ∈ ps, ∃ i j, Interior d i j ∧ x = |p.error (i, j, m + 1)|)

/-- All patches of a call, of all processes. -/
def Call.all (c : Call) : List Patch := c.patches.flatten

/-- The mass to compare with: that of the last of the calls with `init_flag`. -/
def reference (o : Opts) (d : Dims) : List Call → Nat → ℚ → ℚ
  | [], _, old => old
  | c :: cs, m, old => reference o d cs m (if c.init then mass o d c.all m else old)

/-- A call for which the diagnostics are defined: every process has a list of
patches, the patches have areas if a mapping is used, and the total area is not
zero if errors are to be computed. -/
structure Call.Ok (o : Opts) (d : Dims) (n : Nat) (c : Call) : Prop where
  processes : c.patches.length = n
  areas : o.mapped = true → ∀ p ∈ c.all, p.area ≠ none
  positive : o.computeError = true → area o d c.all ≠ 0

end Fclaw.Diag
