import Verif.Topo.Model
import Mathlib.MeasureTheory.Integral.Prod
import Mathlib.MeasureTheory.Measure.Lebesgue.Basic
/-
What the height of the ground in a cell should be: the average, over the area of the cell, of a surface
that is given, at each point, by the finest file with data there, interpolated between the four nearest
values.
-/
set_option autoImplicit false
namespace Fclaw.Topo

open MeasureTheory

noncomputable section

/-- The points of a rectangle. -/
def Rect.set (R : Rect) : Set (ℝ × ℝ) := Set.Icc R.xlo R.xhi ×ˢ Set.Icc R.ylo R.yhi

/-- The points for which a file has data. -/
def File.extent (T : File) : Set (ℝ × ℝ) := Set.Icc T.xlow T.xhi ×ˢ Set.Icc T.ylow T.yhi

/-- A file as `read_topo_header` leaves it (topo_module.f90:790-845): values at the nodes of a grid with
`mx` times `my` points, at least two in each direction. -/
structure File.Valid (T : File) : Prop where
  mx : 2 ≤ T.mx
  my : 2 ≤ T.my
  dx : 0 < T.dx
  dy : 0 < T.dy
  xhi : T.xhi = T.xlow + ((T.mx : ℝ) - 1) * T.dx
  yhi : T.yhi = T.ylow + ((T.my : ℝ) - 1) * T.dy

/-- The value at the node `(xlow + i*dx, ylow + j*dy)`, where `i` and `j` count from zero. The rows of a
file run from north to south. -/
def File.node (T : File) (i j : ℤ) : ℝ := T.zz (i + 1, T.my - j)

/-- The bilinear function through the nodes `(i, j)`, `(i+1, j)`, `(i, j+1)`, `(i+1, j+1)`. -/
def File.bilinear (T : File) (i j : ℤ) (p : ℝ × ℝ) : ℝ :=
  let s := (p.1 - T.xlow) / T.dx - i
  let t := (p.2 - T.ylow) / T.dy - j
  (1 - s) * (1 - t) * T.node i j + s * (1 - t) * T.node (i + 1) j
    + (1 - s) * t * T.node i (j + 1) + s * t * T.node (i + 1) (j + 1)

/-- The ground according to a file: between the nodes, bilinear interpolation. (Where two cells of the
grid of nodes meet, both give the same value: `File.height_eq` in Props.lean.) -/
def File.height (T : File) (p : ℝ × ℝ) : ℝ :=
  T.bilinear (max 0 (⌈(p.1 - T.xlow) / T.dx⌉ - 1)) (max 0 (⌈(p.2 - T.ylow) / T.dy⌉ - 1)) p

/-- The number of a file. -/
def Files.IsFile (F : Files) (a : ℤ) : Prop := 1 ≤ a ∧ a ≤ F.n

/-- Every file is valid. -/
def Files.Valid (F : Files) : Prop := ∀ a, F.IsFile a → (F.file a).Valid

/-- File `a` is the finest one with data at the point `p`; of files with the same resolution the last one
counts. -/
def Files.IsFinest (F : Files) (p : ℝ × ℝ) (a : ℤ) : Prop :=
  F.IsFile a ∧ p ∈ (F.file a).extent ∧
  ∀ b, F.IsFile b → b ≠ a → p ∈ (F.file b).extent →
    (F.file a).dx * (F.file a).dy < (F.file b).dx * (F.file b).dy ∨
    ((F.file a).dx * (F.file a).dy = (F.file b).dx * (F.file b).dy ∧ b < a)

/-- A description of the ground: at each point for which there are data it is what the finest file says. -/
def Files.IsGround (F : Files) (S : ℝ × ℝ → ℝ) : Prop :=
  ∀ p a, F.IsFinest p a → S p = (F.file a).height p

/-- The points for which there are data. -/
def Files.covered (F : Files) : Set (ℝ × ℝ) := {p | ∃ a, F.IsFile a ∧ p ∈ (F.file a).extent}

/-- The element of area: on a sphere, with coordinates longitude and latitude in degrees, a degree of
latitude is `R * pi/180` long, a degree of longitude `R * pi/180 * cos(latitude)`. -/
def World.element (w : World) (p : ℝ × ℝ) : ℝ :=
  if w.coord = 2 then
    (w.earthRadius * (Real.pi / 180)) * (w.earthRadius * (Real.pi / 180) * Real.cos (p.2 * (Real.pi / 180)))
  else 1

/-- The area of a set of points. -/
def World.area (w : World) (A : Set (ℝ × ℝ)) : ℝ := ∫ p in A, w.element p

/-- The volume between zero and a surface. -/
def World.volume (w : World) (A : Set (ℝ × ℝ)) (S : ℝ × ℝ → ℝ) : ℝ := ∫ p in A, S p * w.element p

/-- The average height of a surface. -/
def World.average (w : World) (A : Set (ℝ × ℝ)) (S : ℝ × ℝ → ℝ) : ℝ := w.volume A S / w.area A

/-- Cell `(I, J)` of the domain, counted from one, for cells of size `dx` times `dy`. -/
def domainCell (D : Domain) (dx dy : ℝ) (I J : ℤ) : Rect :=
  ⟨D.xlo + ((I : ℝ) - 1) * dx, D.xlo + (I : ℝ) * dx, D.ylo + ((J : ℝ) - 1) * dy, D.ylo + (J : ℝ) * dy⟩

/-- The nearest of the numbers `1 … n`. -/
def nearest (n k : ℤ) : ℤ := max 1 (min n k)

/-- A patch is `I0` by `J0` cells away from the lower left corner of a domain of `N` by `M` such cells. -/
structure Placed (D : Domain) (P : Patch) (N M I0 J0 : ℤ) : Prop where
  dx : 0 < P.dx
  dy : 0 < P.dy
  mx : 1 ≤ P.d.mx
  my : 1 ≤ P.d.my
  xhi : D.xhi = D.xlo + (N : ℝ) * P.dx
  yhi : D.yhi = D.ylo + (M : ℝ) * P.dy
  xlow : P.xlow = D.xlo + (I0 : ℝ) * P.dx
  ylow : P.ylow = D.ylo + (J0 : ℝ) * P.dy
  left : 0 ≤ I0
  right : I0 + P.d.mx ≤ N
  bottom : 0 ≤ J0
  top : J0 + P.d.my ≤ M

/-- Is the cell part of the patch, ghost cells included? -/
def Patch.HasCell (P : Patch) (i j : ℤ) : Prop :=
  1 - (P.d.mbc : ℤ) ≤ i ∧ i ≤ P.d.mx + P.d.mbc ∧ 1 - (P.d.mbc : ℤ) ≤ j ∧ j ≤ P.d.my + P.d.mbc

/-- Must the cell be set? On a patch that belongs to another process (a ghost patch) this is so for the
cells within `mint` layers of its boundary, and `nghost` layers of ghost cells, and on other patches for
all cells. -/
def Patch.MustSet (P : Patch) (i j : ℤ) : Prop :=
  P.isGhost = true →
    (1 - P.nghost ≤ i ∧ i ≤ P.d.mx + P.nghost ∧ 1 - P.nghost ≤ j ∧ j ≤ P.d.my + P.nghost) ∧
    (i ≤ P.mint ∨ P.d.mx - P.mint + 1 ≤ i ∨ j ≤ P.mint ∨ P.d.my - P.mint + 1 ≤ j)

/-- The arguments that `setaux` accepts: in Cartesian coordinates no capacity, in longitude and latitude a
capacity in the second component, and at least three components. -/
def Accepts (w : World) (P : Patch) : Prop :=
  (w.coord = 1 ∧ P.mcapa ≤ 0 ∧ 1 ≤ P.d.meqn) ∨ (w.coord = 2 ∧ P.mcapa = 2 ∧ 3 ≤ P.d.meqn)

/-- The area in the plane. -/
def planeArea (A : Set (ℝ × ℝ)) : ℝ := (MeasureTheory.volume A).toReal

end

end Fclaw.Topo
