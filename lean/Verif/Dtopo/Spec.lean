import Verif.Dtopo.Model
import Mathlib.Algebra.BigOperators.Group.Finset.Basic
import Mathlib.Data.Int.Interval
/-
Vocabulary for C100: displacements of the ground that are given at nodes and times, and what they are in between.
-/
set_option autoImplicit false
namespace Fclaw.Dtopo

noncomputable section

/-- The value in the file for time `k`, row `j` (from the north) and column `i`: columns vary fastest, times slowest. -/
def Move.value (m : Move) (k j i : ℤ) : ℝ := m.work (1 + (k - 1) * (m.mx * m.my) + (j - 1) * m.mx + (i - 1))

/-- Position of columns, rows and times. -/
def Move.col (m : Move) (i : ℤ) : ℝ := m.xlow + ((i : ℝ) - 1) * m.dx
def Move.row (m : Move) (j : ℤ) : ℝ := m.yhi - ((j : ℝ) - 1) * m.dy
def Move.at (m : Move) (k : ℤ) : ℝ := m.t0 + ((k : ℝ) - 1) * m.dt

/-- From `a` to `b`. -/
def lerp (a b s : ℝ) : ℝ := (1 - s) * a + s * b

/-- Linear interpolation, in both directions, between the four nodes of a cell at time `k`. -/
def Move.plane (m : Move) (k j i : ℤ) (x y : ℝ) : ℝ :=
  lerp (lerp (m.value k j i) (m.value k j (i + 1)) ((x - m.col i) / m.dx))
    (lerp (m.value k (j + 1) i) (m.value k (j + 1) (i + 1)) ((x - m.col i) / m.dx)) ((m.row j - y) / m.dy)

/-- The file makes sense. -/
structure Move.Valid (m : Move) : Prop where
  mx : 2 ≤ m.mx
  my : 2 ≤ m.my
  mt : 1 ≤ m.mt
  dx : 0 < m.dx
  dy : 0 < m.dy
  dt : 0 ≤ m.dt
  dtpos : m.mt ≠ 1 → 0 < m.dt
  xhi : m.xhi = m.xlow + m.dx * ((m.mx : ℝ) - 1)
  yhi : m.yhi = m.ylow + m.dy * ((m.my : ℝ) - 1)
  tf : m.tf = m.t0 + m.dt * ((m.mt : ℝ) - 1)

/-- The point lies in the area of the file. -/
def Move.Covers (m : Move) (x y : ℝ) : Prop := (m.xlow ≤ x ∧ x ≤ m.xhi) ∧ m.ylow ≤ y ∧ y ≤ m.yhi

/-- `d` is the displacement at a point and time: none outside of the area and before the beginning; in every cell of the grid that contains
the point, and every interval of time that contains the time, the linear interpolation; after the end the last one. -/
def Move.Displaces (m : Move) (x y t d : ℝ) : Prop :=
  (¬ m.Covers x y → d = 0) ∧ (t < m.t0 → d = 0) ∧
  (m.Covers x y → m.t0 ≤ t → ∀ i j : ℤ, 1 ≤ i → i < m.mx → 1 ≤ j → j < m.my →
    m.col i ≤ x → x ≤ m.col (i + 1) → m.row (j + 1) ≤ y → y ≤ m.row j →
      (m.tf ≤ t → d = m.plane m.mt j i x y) ∧
      ∀ k : ℤ, 1 ≤ k → k < m.mt → m.at k ≤ t → t ≤ m.at (k + 1) →
        d = lerp (m.plane k j i x y) (m.plane (k + 1) j i x y) ((t - m.at k) / m.dt))

/-- The height of the ground at node `(i, j)` (rows from the north) of a file. -/
def node (mx : ℕ) (j i : ℤ) : ℤ := 1 + (j - 1) * mx + (i - 1)

/-- The heights `h` of file `f` are the initial ones plus the displacements at time `t` of all files. -/
def Setup.GroundAt (S : Setup) (f : ℤ) (t : ℝ) (h : ℤ → ℝ) : Prop :=
  ∀ i j : ℤ, 1 ≤ i → i ≤ (S.file f).mx → 1 ≤ j → j ≤ (S.file f).my →
    ∃ d : ℤ → ℝ, (∀ m : ℤ, 1 ≤ m → m ≤ S.moves.n →
        (S.moves.move m).Displaces ((S.file f).xlow + ((i : ℝ) - 1) * (S.file f).dx)
          ((S.file f).yhi - ((j : ℝ) - 1) * (S.file f).dy) t (d m)) ∧
      h (node (S.file f).mx j i) = (S.file f).topo0 (node (S.file f).mx j i) + ∑ m ∈ Finset.Icc (1 : ℤ) S.moves.n, d m

/-- A file with heights makes sense. -/
structure Heights.Valid (h : Heights) : Prop where
  mx : 1 ≤ h.mx
  my : 1 ≤ h.my
  dx : 0 < h.dx
  dy : 0 < h.dy
  xhi : h.xhi = h.xlow + h.dx * ((h.mx : ℝ) - 1)
  yhi : h.yhi = h.ylow + h.dy * ((h.my : ℝ) - 1)

/-- The area of a file with heights and that of a file with displacements have a point in common. -/
def Touch (h : Heights) (m : Move) : Prop := ∃ x y : ℝ, (h.xlow ≤ x ∧ x ≤ h.xhi) ∧ (h.ylow ≤ y ∧ y ≤ h.yhi) ∧ m.Covers x y

/-- A setup that makes sense: all files are valid, and the last files with heights have the areas of the files with displacements
(topo_module.f90:168-183). The displacements begin after `-huge`. -/
structure Setup.Valid (S : Setup) (huge : ℝ) : Prop where
  moves : ∀ m : ℤ, 1 ≤ m → m ≤ S.moves.n → (S.moves.move m).Valid
  files : ∀ f : ℤ, 1 ≤ f → f ≤ S.nfiles → (S.file f).Valid
  count : S.moves.n ≤ S.nfiles
  same : ∀ m : ℤ, 1 ≤ m → m ≤ S.moves.n →
    (S.file ((S.nfiles : ℤ) - S.moves.n + m)).xlow = (S.moves.move m).xlow ∧
    (S.file ((S.nfiles : ℤ) - S.moves.n + m)).xhi = (S.moves.move m).xhi ∧
    (S.file ((S.nfiles : ℤ) - S.moves.n + m)).ylow = (S.moves.move m).ylow ∧
    (S.file ((S.nfiles : ℤ) - S.moves.n + m)).yhi = (S.moves.move m).yhi
  begins : ∀ m : ℤ, 1 ≤ m → m ≤ S.moves.n → -huge < (S.moves.move m).t0

end

end Fclaw.Dtopo
