import Verif.Topo.Model
import Mathlib.Data.EReal.Basic
/-
Model of the field of friction coefficients in GeoClaw:

* src/solvers/fc2d_geoclaw/geolib_source/friction_module.f90: `set_friction_field` (lines 128-190)
* src/solvers/fc2d_geoclaw/fortran_source/geoclaw_setaux_fort.f90, lines 82-92 and 248-252, where it is used

Simplifications: numbers are real numbers without rounding; the depths of a region can be infinite (`inf` in the data file), so they are extended real
numbers. An access outside of the bounds of an array and a `stop` are `none`. Not modelled: `setup_variable_friction`, which reads the
data of the regions, and fields for storms, which are other components of `aux`.
-/
set_option autoImplicit false
namespace Fclaw.Friction

open Fort

noncomputable section

/-- `friction_region_type` (friction_module.f90:33-41) -/
structure Region where
  xlo : ℝ
  ylo : ℝ
  xhi : ℝ
  yhi : ℝ
  depths : List EReal
  coefficients : List ℝ

/-- The variables of the modules; `useRegions` is `variable_friction`, `index` is `friction_index`. -/
structure Settings where
  seaLevel : ℝ
  useRegions : Bool
  index : ℤ
  regions : List Region
  numFiles : ℕ

/-- An element of an array with indices from one. -/
def at1 {α : Type} (l : List α) (k : ℤ) : Option α := if 1 ≤ k then l[(k - 1).toNat]? else none

/-- Lines 170-177 of friction_module.f90: the body of the loop over `k`. -/
def setLevel (S : Settings) (P : Topo.Patch) (R : Region) (i j k : ℤ) (aux : Grid ℝ) : Option (Grid ℝ) :=
  (at1 R.depths (k + 1)).bind fun lo =>
  (at1 R.depths k).bind fun hi =>
  (rd P.d aux (i, j, 1)).bind fun b =>
  if lo ≤ ((b - S.seaLevel : ℝ) : EReal) ∧ hi > ((b - S.seaLevel : ℝ) : EReal) then
    (at1 R.coefficients k).bind fun c => wr P.d aux (i, j, S.index) c
  else some aux

/-- Lines 155-179: a cell. -/
def setCell (S : Settings) (P : Topo.Patch) (R : Region) (i j : ℤ) (aux : Grid ℝ) : Option (Grid ℝ) :=
  if P.skip i j then some aux
  else
    let x := P.xlow + ((i : ℝ) - 1 / 2) * P.dx
    let y := P.ylow + ((j : ℝ) - 1 / 2) * P.dy
    if R.xlo < x ∧ R.ylo < y ∧ R.xhi ≥ x ∧ R.yhi ≥ y then
      doLoop 1 ((R.depths.length : ℤ) - 1) (setLevel S P R i j) aux
    else some aux

/-- Lines 153-181: a region. -/
def setRegion (S : Settings) (P : Topo.Patch) (R : Region) (aux : Grid ℝ) : Option (Grid ℝ) :=
  doLoop (1 - (P.d.mbc : ℤ)) (P.d.mx + P.d.mbc) (fun i =>
    doLoop (1 - (P.d.mbc : ℤ)) (P.d.my + P.d.mbc) (fun j => setCell S P R i j)) aux

/-- `set_friction_field` -/
def setFrictionField (S : Settings) (P : Topo.Patch) (aux : Grid ℝ) : Option (Grid ℝ) :=
  if S.useRegions then
    (doLoop 1 (S.regions.length : ℤ) (fun m aux => (at1 S.regions m).bind fun R => setRegion S P R aux) aux).bind fun aux =>
    if S.numFiles > 0 then none else some aux
  else some aux

/-- Lines 82-92 of geoclaw_setaux_fort.f90. -/
def clear (S : Settings) (P : Topo.Patch) (aux : Grid ℝ) : Option (Grid ℝ) :=
  if S.useRegions then P.cells (fun ii jj aux => if P.skip ii jj then some aux else wr P.d aux (ii, jj, S.index) 0) aux
  else some aux

/-- What `fc2d_geoclaw_setaux` does for friction. `ground`: the lines in between set component 1 (see `Topo`). -/
def setaux (S : Settings) (P : Topo.Patch) (ground : ℤ → ℤ → ℝ) (aux : Grid ℝ) : Option (Grid ℝ) :=
  (clear S P aux).bind fun aux =>
  let aux : Grid ℝ := fun c => if c.2.2 = 1 then ground c.1 c.2.1 else aux c
  if S.index > 0 then setFrictionField S P aux else some aux

end

end Fclaw.Friction
