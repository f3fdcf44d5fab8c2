import Verif.TopoRead.Model
/-
Model of the initial state of the water in GeoClaw:

* src/solvers/fc2d_geoclaw/fortran_source/geoclaw_qinit_fort.f90: `fc2d_geoclaw_qinit`
* src/solvers/fc2d_geoclaw/geolib_source/qinit_module.f90: `add_perturbation` (lines 112-172), `read_qinit` (181-261)

Simplifications: numbers are real numbers without rounding. A file is a list of lines with three numbers. An access outside of the bounds
of an array, the end of a file and a `stop` are `none`, and so is a division by zero when the header is found. Not modelled: `set_qinit`, which
finds the name of the file, and `read_force_dry`, `read_eta_init`, whose data are not used in the routines above.
-/
set_option autoImplicit false
namespace Fclaw.Perturb

open Fort
open Fclaw.Topo (World File Rect topointegral)
open Fclaw.TopoRead (Line firstRow otherRows read1Line)

noncomputable section

/-- `read_qinit` (qinit_module.f90:181-261). The loops over the lines are those of `read_topo_header` for files of type 1: the first row
(lines 220-228), and the other lines (231-235). `w` is what is in `qinit` before. -/
def readQinit (file : List Line) (w : ℤ → ℝ) : Option File :=
  match file with
  | [] => none
  | first :: lines =>
    (firstRow first.y lines 1 1).bind fun r =>
    let mx := r.1.2 - 1
    let e := otherRows r.2.1 r.2.2 r.1.1
    let numPoints := e.2
    let xhi := e.1.x
    let ylow := e.1.y
    let my := numPoints.tdiv mx
    if mx - 1 = 0 ∨ my - 1 = 0 then none
    else (doLoop 1 numPoints (read1Line numPoints) (first :: lines, w)).map fun s =>
      ⟨mx.toNat, my.toNat, first.x, xhi, ylow, first.y, (xhi - first.x) / ((mx - 1 : ℤ) : ℝ), (first.y - ylow) / ((my - 1 : ℤ) : ℝ),
        fun c => s.2 ((c.2 - 1) * mx + c.1)⟩

/-- The variables of the modules: `sea_level`, `qinit_type`, and the file if `qinit_type > 0`. -/
structure Settings where
  world : World
  seaLevel : ℝ
  qinitType : ℤ
  file : File

/-- The sizes of `q`: `P.d` are those of `aux`, with `maux` components. -/
def qDims (P : Topo.Patch) (meqn : ℕ) : Dims :=
  { P.d with
    meqn := meqn }

/-- Lines 155-160 of qinit_module.f90: `dq` is divided by the area. -/
def perCell (G : Settings) (P : Topo.Patch) (aux : Grid ℝ) (i j : ℤ) (R : Rect) (dq : ℝ) : Option ℝ :=
  if G.world.coord = 2 then
    (rd P.d aux (i, j, P.mcapa)).bind fun cap => some (dq / ((R.xhi - R.xlo) * (R.yhi - R.ylo) * cap))
  else some (dq / ((R.xhi - R.xlo) * (R.yhi - R.ylo)))

/-- Lines 162-168. -/
def addTo (G : Settings) (P : Topo.Patch) (meqn : ℕ) (aux : Grid ℝ) (i j : ℤ) (dq : ℝ) (q : Grid ℝ) : Option (Grid ℝ) :=
  if G.qinitType < 4 then
    (rd P.d aux (i, j, 1)).bind fun b =>
    if b ≤ G.seaLevel then
      (rd (qDims P meqn) q (i, j, G.qinitType)).bind fun v => wr (qDims P meqn) q (i, j, G.qinitType) (v + dq)
    else some q
  else if G.qinitType = 4 then
    (rd P.d aux (i, j, 1)).bind fun b => wr (qDims P meqn) q (i, j, 1) (max (dq - b) 0)
  else some q

/-- The body of the loops of `add_perturbation` (lines 132-169). -/
def addCell (G : Settings) (P : Topo.Patch) (meqn : ℕ) (aux : Grid ℝ) (i j : ℤ) (q : Grid ℝ) : Option (Grid ℝ) :=
  let x := P.xlow + ((i : ℝ) - 1 / 2) * P.dx
  let xim := x - 1 / 2 * P.dx
  let xip := x + 1 / 2 * P.dx
  let y := P.ylow + ((j : ℝ) - 1 / 2) * P.dy
  let yjm := y - 1 / 2 * P.dy
  let yjp := y + 1 / 2 * P.dy
  let T := G.file
  if xip > T.xlow ∧ xim < T.xhi ∧ yjp > T.ylow ∧ yjm < T.yhi then
    let xipc := min xip T.xhi
    let ximc := max xim T.xlow
    let yjpc := min yjp T.yhi
    let yjmc := max yjm T.ylow
    (topointegral G.world ⟨ximc, xipc, yjmc, yjpc⟩ T).bind fun dq =>
    (perCell G P aux i j ⟨ximc, xipc, yjmc, yjpc⟩ dq).bind fun dq =>
    addTo G P meqn aux i j dq q
  else some q

/-- `add_perturbation`. -/
def addPerturbation (G : Settings) (P : Topo.Patch) (meqn : ℕ) (aux : Grid ℝ) (q : Grid ℝ) : Option (Grid ℝ) :=
  if G.qinitType > 0 then
    doLoop (1 - (P.d.mbc : ℤ)) (P.d.mx + P.d.mbc) (fun i =>
      doLoop (1 - (P.d.mbc : ℤ)) (P.d.my + P.d.mbc) (fun j => addCell G P meqn aux i j)) q
  else some q

/-- Lines 18-22 of geoclaw_qinit_fort.f90. -/
def flat (G : Settings) (P : Topo.Patch) (meqn : ℕ) (aux q : Grid ℝ) : Grid ℝ := fun c =>
  if inBox (qDims P meqn) c then if c.2.2 = 1 then max 0 (G.seaLevel - aux (c.1, c.2.1, 1)) else 0
  else q c

/-- `fc2d_geoclaw_qinit`. -/
def qinit (G : Settings) (P : Topo.Patch) (meqn : ℕ) (aux q : Grid ℝ) : Option (Grid ℝ) :=
  let q := flat G P meqn aux q
  if G.qinitType > 0 then addPerturbation G P meqn aux q else some q

end

end Fclaw.Perturb
