import Verif.TopoRead.Model
import Verif.Topo.Spec
/-
Vocabulary for C102: a grid of heights, and the ways to write it to a file.
-/
set_option autoImplicit false
namespace Fclaw.TopoRead

noncomputable section

/-- Heights at the nodes of a grid. Columns are counted from the west, rows from the north, both from 0. -/
structure Raster where
  cols : ℕ
  rows : ℕ
  west : ℝ
  south : ℝ
  dx : ℝ
  dy : ℝ
  z : ℕ → ℕ → ℝ

structure Raster.Valid (R : Raster) : Prop where
  cols : 2 ≤ R.cols
  rows : 2 ≤ R.rows
  dx : 0 < R.dx
  dy : 0 < R.dy

/-- Position of columns and rows. -/
def Raster.x (R : Raster) (i : ℕ) : ℝ := R.west + i * R.dx
def Raster.y (R : Raster) (j : ℕ) : ℝ := R.south + ((R.rows : ℝ) - 1 - j) * R.dy

/-- The heights of a row from west to east. -/
def Raster.row (R : Raster) (j : ℕ) : List ℝ := (List.range R.cols).map fun i => R.z j i

/-- A line for each node, row by row from the north, each row from west to east. -/
def Raster.xyz (R : Raster) : List Line :=
  (List.range R.rows).flatMap fun j => (List.range R.cols).map fun i => ⟨R.x i, R.y j, R.z j i⟩

/-- The same with the heights alone. -/
def Raster.column (R : Raster) : List (List ℝ) := (List.range R.rows).flatMap fun j => (R.row j).map fun v => [v]

/-- The heights of each row begin on a new line and fill one or more lines. -/
def Raster.IsRows (R : Raster) (lines : List (List ℝ)) : Prop :=
  ∃ rec : ℕ → List (List ℝ), (∀ j < R.rows, (rec j).flatten = R.row j ∧ ∀ r ∈ rec j, r ≠ []) ∧
    lines = (List.range R.rows).flatMap rec

/-- The header belongs to the grid: the position given is that of the node in the south-west, or that of the corner of the cell around
this node. -/
structure Raster.HasHead (R : Raster) (h : Head) : Prop where
  mx : h.mx = R.cols
  my : h.my = R.rows
  xll : h.xll = if h.xcorner then R.west - R.dx / 2 else R.west
  yll : h.yll = if h.ycorner then R.south - R.dy / 2 else R.south
  dx : h.cellsize = R.dx
  dy : h.cellsize2 = some R.dy ∨ h.cellsize2 = none ∧ R.dy = R.dx

/-- The two kinds of files with a header; more lines may follow. -/
inductive Lists (R : Raster) (h : Head) : Contents → Prop
  | column (more : List (List ℝ)) : Lists R h (.column h (R.column ++ more))
  | rows (lines more : List (List ℝ)) : R.IsRows lines → Lists R h (.rows h (lines ++ more))

/-- The ground of `T` is given by the values `v` at the nodes of the grid. -/
structure Raster.Gives (R : Raster) (v : ℕ → ℕ → ℝ) (T : Topo.File) : Prop where
  valid : T.Valid
  spacing : T.dx = R.dx ∧ T.dy = R.dy
  extent : T.extent = Set.Icc (R.x 0) (R.x (R.cols - 1)) ×ˢ Set.Icc (R.y (R.rows - 1)) (R.y 0)
  nodes : ∀ i j : ℕ, i < R.cols → j < R.rows → T.height (R.x i, R.y j) = v j i

/-- Heights or depths. -/
def signed (negative : Bool) (z : ℝ) : ℝ := if negative then -z else z

open Classical in
/-- A value in place of the one that marks missing heights. -/
def filled (noData topoMissing z : ℝ) : ℝ := if z = noData then topoMissing else z

/-- The grid has a node without a height. -/
def Raster.Gap (R : Raster) (noData : ℝ) : Prop := ∃ i j : ℕ, i < R.cols ∧ j < R.rows ∧ R.z j i = noData

end

end Fclaw.TopoRead
