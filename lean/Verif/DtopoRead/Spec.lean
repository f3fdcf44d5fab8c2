import Verif.DtopoRead.Model
import Verif.Dtopo.Spec
/-
Vocabulary for C103: displacements at the nodes of a grid and at several times, and the ways to write them to a file.
-/
set_option autoImplicit false
namespace Fclaw.DtopoRead

open Dtopo

noncomputable section

/-- Displacements `d k j i`: time, row from the north, column from the west, all from 0. -/
structure Motion where
  cols : ℕ
  rows : ℕ
  times : ℕ
  west : ℝ
  south : ℝ
  t0 : ℝ
  dx : ℝ
  dy : ℝ
  dt : ℝ
  d : ℕ → ℕ → ℕ → ℝ

structure Motion.Valid (M : Motion) : Prop where
  cols : 2 ≤ M.cols
  rows : 2 ≤ M.rows
  times : 1 ≤ M.times
  dx : 0 < M.dx
  dy : 0 < M.dy
  dt : 0 < M.dt

/-- Position of columns, rows and times. -/
def Motion.x (M : Motion) (i : ℕ) : ℝ := M.west + i * M.dx
def Motion.y (M : Motion) (j : ℕ) : ℝ := M.south + ((M.rows : ℝ) - 1 - j) * M.dy
def Motion.t (M : Motion) (k : ℕ) : ℝ := M.t0 + k * M.dt

/-- The displacements of a row from west to east. -/
def Motion.row (M : Motion) (k j : ℕ) : List ℝ := (List.range M.cols).map fun i => M.d k j i

/-- A line for each node and time: times vary most slowly, then rows from the north. -/
def Motion.txyz (M : Motion) : List Line :=
  (List.range M.times).flatMap fun k => (List.range M.rows).flatMap fun j => (List.range M.cols).map fun i =>
    ⟨M.t k, M.x i, M.y j, M.d k j i⟩

/-- The same with the displacements alone. -/
def Motion.column (M : Motion) : List (List ℝ) :=
  (List.range M.times).flatMap fun k => (List.range M.rows).flatMap fun j => (M.row k j).map fun v => [v]

/-- Each row begins on a new line and fills one or more lines. -/
def Motion.IsRows (M : Motion) (lines : List (List ℝ)) : Prop :=
  ∃ rec : ℕ → ℕ → List (List ℝ), (∀ k < M.times, ∀ j < M.rows, (rec k j).flatten = M.row k j ∧ ∀ r ∈ rec k j, r ≠ []) ∧
    lines = (List.range M.times).flatMap fun k => (List.range M.rows).flatMap (rec k)

/-- The header of the grid. -/
def Motion.head (M : Motion) : Head := ⟨M.cols, M.rows, M.times, M.west, M.south, M.t0, M.dx, M.dy, M.dt⟩

/-- The file lists the displacements. -/
inductive Lists (M : Motion) : Contents → Prop
  | txyz : Lists M (.txyz M.txyz)
  | column (more : List (List ℝ)) : Lists M (.column M.head (M.column ++ more))
  | rows (lines more : List (List ℝ)) : M.IsRows lines → Lists M (.rows M.head (lines ++ more))

/-- `m` describes the motion: it has its area and times, and at each node and time the program finds the displacement of the motion. -/
structure Motion.Gives (M : Motion) (m : Move) : Prop where
  valid : m.Valid
  area : (m.xlow = M.x 0 ∧ m.xhi = M.x (M.cols - 1)) ∧ m.ylow = M.y (M.rows - 1) ∧ m.yhi = M.y 0
  spacing : m.dx = M.dx ∧ m.dy = M.dy
  duration : m.t0 = M.t 0 ∧ m.tf = M.t (M.times - 1)
  nodes : ∀ k j i : ℕ, k < M.times → j < M.rows → i < M.cols → m.dz (M.x i) (M.y j) (M.t k) = some (M.d k j i)

end

end Fclaw.DtopoRead
