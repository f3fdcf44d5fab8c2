import Verif.Fort.Basic
import Mathlib.Data.Real.Archimedean
import Mathlib.Algebra.Order.Floor.Ring
/-
Model of what a gauge records in GeoClaw:

* src/solvers/fc2d_geoclaw/fortran_source/geoclaw_gauges_fort.f90: `fc2d_geoclaw_update_gauge`
* src/solvers/fc2d_geoclaw/fc2d_geoclaw_gauges_default.c: `geoclaw_gauge_update_default` (lines 235-287), and the numbers that
  `geoclaw_print_gauges_default` (289-323) writes

Simplifications: numbers are real numbers without rounding; that the printed numbers have eight digits is not modelled. An access outside of the
bounds of an array is `none`. The assertions (lines 258-259), which are not active in optimized programs, are not modelled: they are hypotheses. When
gauges are updated, and how records are kept until they are written, is modelled in `Gauges`.
-/
set_option autoImplicit false
namespace Fclaw.GeoGauge

open Fort

noncomputable section

/-- The grid of a patch (`fclaw2d_clawpatch_grid_data`). -/
structure Patch where
  mx : ℕ
  my : ℕ
  mbc : ℕ
  xlower : ℝ
  ylower : ℝ
  dx : ℝ
  dy : ℝ

/-- The sizes of `q` and `aux`. -/
def Patch.dims (P : Patch) (n : ℕ) : Dims := ⟨P.mx, P.my, P.mbc, n⟩

/-- `int`: towards zero. -/
def int (x : ℝ) : ℤ := if 0 ≤ x then ⌊x⌋ else ⌈x⌉

/-- Lines 19-20 of geoclaw_gauges_fort.f90. -/
def Patch.iindex (P : Patch) (xc : ℝ) : ℤ := int ((xc - P.xlower) / P.dx) + 1
def Patch.jindex (P : Patch) (yc : ℝ) : ℤ := int ((yc - P.ylower) / P.dy) + 1

/-- Lines 22-25. -/
def Patch.xoff (P : Patch) (xc : ℝ) : ℝ :=
  let xcent := P.xlower + ((P.iindex xc : ℝ) - 1 / 2) * P.dx
  (xc - xcent) / P.dx
def Patch.yoff (P : Patch) (yc : ℝ) : ℝ :=
  let ycent := P.ylower + ((P.jindex yc : ℝ) - 1 / 2) * P.dy
  (yc - ycent) / P.dy

/-- Lines 51-62: interpolation between four cells, for component `m` of an array with `n` components. -/
def interp (P : Patch) (n : ℕ) (q : Grid ℝ) (xoff yoff : ℝ) (i j m : ℤ) : Option ℝ :=
  (rd (P.dims n) q (i, j, m)).bind fun a =>
  (rd (P.dims n) q (i + 1, j, m)).bind fun b =>
  (rd (P.dims n) q (i, j + 1, m)).bind fun c =>
  (rd (P.dims n) q (i + 1, j + 1, m)).bind fun d =>
  some ((1 - xoff) * (1 - yoff) * a + xoff * (1 - yoff) * b + (1 - xoff) * yoff * c + xoff * yoff * d)

/-- Lines 71-73. -/
def zeroOut (v : ℝ) : ℝ := if |v| < 1 / 10 ^ 99 then 0 else v

/-- `qvar` (three numbers) and `avar(1)`. -/
structure Sample where
  h : ℝ
  hu : ℝ
  hv : ℝ
  topo : ℝ

/-- `fc2d_geoclaw_update_gauge`. -/
def sample (dryTolerance : ℝ) (P : Patch) (meqn maux : ℕ) (q aux : Grid ℝ) (xc yc : ℝ) : Option Sample :=
  let i := P.iindex xc
  let j := P.jindex yc
  let xoff := P.xoff xc
  let yoff := P.yoff yc
  let drytol2 := 1 / 10 * dryTolerance
  (rd (P.dims meqn) q (i, j, 1)).bind fun h1 =>
  (rd (P.dims meqn) q (i + 1, j, 1)).bind fun h2 =>
  (rd (P.dims meqn) q (i, j + 1, 1)).bind fun h3 =>
  (rd (P.dims meqn) q (i + 1, j + 1, 1)).bind fun h4 =>
  if h1 < drytol2 ∨ h2 < drytol2 ∨ h3 < drytol2 ∨ h4 < drytol2 then
    (rd (P.dims meqn) q (i, j, 1)).bind fun v1 =>
    (rd (P.dims meqn) q (i, j, 2)).bind fun v2 =>
    (rd (P.dims meqn) q (i, j, 3)).bind fun v3 =>
    (rd (P.dims maux) aux (i, j, 1)).bind fun b =>
    some ⟨zeroOut v1, zeroOut v2, zeroOut v3, b⟩
  else
    (interp P meqn q xoff yoff i j 1).bind fun v1 =>
    (interp P meqn q xoff yoff i j 2).bind fun v2 =>
    (interp P meqn q xoff yoff i j 3).bind fun v3 =>
    (interp P maux aux xoff yoff i j 1).bind fun b =>
    some ⟨zeroOut v1, zeroOut v2, zeroOut v3, b⟩

/-- `geoclaw_user_t`: an entry in the buffer of a gauge. -/
structure Entry where
  level : ℤ
  tcurr : ℝ
  s : Sample

/-- `geoclaw_gauge_update_default`: the loop over `meqn` components (lines 279-282) needs room for them in arrays with three numbers. -/
def update (dryTolerance : ℝ) (P : Patch) (level : ℤ) (meqn maux : ℕ) (q aux : Grid ℝ) (xc yc tcurr : ℝ) : Option Entry :=
  (sample dryTolerance P meqn maux q aux xc yc).bind fun s =>
  if meqn ≤ 3 then some ⟨level, tcurr, s⟩ else none

/-- A line of the file of a gauge: level, time, depth, momenta and surface. -/
structure Row where
  level : ℤ
  t : ℝ
  h : ℝ
  hu : ℝ
  hv : ℝ
  eta : ℝ

/-- Lines 310-317 of fc2d_geoclaw_gauges_default.c. -/
def Entry.row (e : Entry) : Row :=
  let eta := e.s.h + e.s.topo
  let eta := if |eta| < 1 / 10 ^ 99 then 0 else eta
  ⟨e.level, e.tcurr, e.s.h, e.s.hu, e.s.hv, eta⟩

end

end Fclaw.GeoGauge
