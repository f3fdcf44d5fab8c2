import Verif.Perturb.Model
import Verif.Topo.Spec
/-
Vocabulary for C105: water at rest, and a disturbance given by a file.
-/
set_option autoImplicit false
namespace Fclaw.Perturb

open Fclaw.Topo

noncomputable section

/-- The area of a cell. -/
def cell (P : Topo.Patch) (i j : ℤ) : Rect :=
  ⟨P.xlow + ((i : ℝ) - 1) * P.dx, P.xlow + (i : ℝ) * P.dx, P.ylow + ((j : ℝ) - 1) * P.dy, P.ylow + (j : ℝ) * P.dy⟩

/-- Water at rest: it fills the ground below sea level, and has no momentum. -/
def rest (seaLevel ground : ℝ) (m : ℤ) : ℝ := if m = 1 then max 0 (seaLevel - ground) else 0

/-- The state of a cell with the ground `b`, if the disturbance has the mean `a` in this cell. Kinds 1, 2, 3: it is added to the depth or to
one of the momenta, where the ground is not above sea level. Kind 4: it is the height of the surface. -/
def disturbed (kind : ℤ) (seaLevel b a : ℝ) (m : ℤ) : ℝ :=
  if kind = 4 then if m = 1 then max 0 (a - b) else 0
  else rest seaLevel b m + if m = kind ∧ b ≤ seaLevel then a else 0

/-- Two areas have at most boundaries in common. -/
def Apart (R : Rect) (T : File) : Prop := R.xhi ≤ T.xlow ∨ T.xhi ≤ R.xlo ∨ R.yhi ≤ T.ylow ∨ T.yhi ≤ R.ylo

/-- The arrays have the components that are used. -/
structure Fits (G : Settings) (P : Topo.Patch) (meqn : ℕ) : Prop where
  file : G.file.Valid
  dx : 0 < P.dx
  dy : 0 < P.dy
  kind : 1 ≤ G.qinitType ∧ G.qinitType ≤ 4
  meqn : 3 ≤ meqn
  maux : 1 ≤ P.d.meqn
  coord : G.world.coord = 1 ∨ G.world.coord = 2 ∧ 1 ≤ P.mcapa ∧ P.mcapa ≤ P.d.meqn

/-- The capacity of a cell is its area divided by that in the plane of the coordinates. -/
def Capacity (w : World) (P : Topo.Patch) (aux : Fort.Grid ℝ) (i j : ℤ) : Prop :=
  w.coord = 2 → aux (i, j, P.mcapa) * (P.dx * P.dy) = w.area (cell P i j).set

end

end Fclaw.Perturb
