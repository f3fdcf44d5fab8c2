import Mathlib.Analysis.SpecialFunctions.Pow.Real
/-
Model of the criteria for refinement and coarsening of GeoClaw:

* src/solvers/fc2d_geoclaw/fc2d_geoclaw.cpp:398-501: `geoclaw_patch_tag4refinement`, `geoclaw_patch_tag4coarsening`
* src/solvers/fc2d_geoclaw/fclaw2d_source: fc2d_geoclaw_test_regions.f90, fc2d_geoclaw_tag4refinement_fort.f90,
  fc2d_geoclaw_tag4coarsening_fort.f90, fc2d_geoclaw_flag2refine_fort.f90
* src/solvers/fc2d_geoclaw/amrlib_source/regions_module.f90: `region_type`

Simplifications: numbers are real numbers, without rounding. A loop that returns at the first cell with a property
is written as the question if there is such a cell. `fc2d_geoclaw_coarsen_using_regions` and `allowcoarsen` are not
called.
-/
set_option autoImplicit false
namespace Fclaw.GeoTag

noncomputable section

/-- `region_type` (regions_module.f90:12-15). -/
structure Region where
  minLevel : ℤ
  maxLevel : ℤ
  xLow : ℝ
  yLow : ℝ
  xHi : ℝ
  yHi : ℝ
  tLow : ℝ
  tHi : ℝ

/-- `fc2d_geoclaw_P_intersects_R` (fc2d_geoclaw_test_regions.f90:72-96). -/
def intersects (xlower ylower xupper yupper t : ℝ) (r : Region) : Bool :=
  if t < r.tLow ∨ t > r.tHi then false
  else if xupper < r.xLow ∨ xlower > r.xHi then false
  else if yupper < r.yLow ∨ ylower > r.yHi then false
  else true

/-- `fc2d_geoclaw_test_regions` (fc2d_geoclaw_test_regions.f90:2-67). -/
def testRegions (regions : List Region) (level : ℤ) (xlower ylower xupper yupper t : ℝ) (refine : ℤ) : ℤ :=
  let inregion := intersects xlower ylower xupper yupper t
  if ¬ regions.any inregion then -1
  else
    let minLevel := regions.foldl (fun a r => if inregion r then min a r.minLevel else a) 100
    let maxLevel := regions.foldl (fun a r => if inregion r then max a r.maxLevel else a) 0
    if refine ≠ 0 then
      if level < minLevel then 1
      else if level ≥ maxLevel then 0
      else -1
    else
      if level ≤ minLevel then 0
      else if level > maxLevel then 1
      else -1

/-- Parameters of the criteria: `dry_tolerance`, `sea_level`, `wave_tolerance`, `speed_tolerance(1:size)`, the options, and
the function `allowflag(x,y,t,level)`, which an application may replace. -/
structure Params where
  regions : List Region
  dryTolerance : ℝ
  seaLevel : ℝ
  waveTolerance : ℝ
  numSpeeds : ℕ
  speedTolerance : ℕ → ℝ
  maxlevel : ℤ
  allowflag : ℝ → ℝ → ℝ → ℤ → Bool

/-- What is used of a cell: `qvec(1:3)` and `auxvec(1)`. -/
structure Cell where
  h : ℝ
  hu : ℝ
  hv : ℝ
  b : ℝ

/-- `fc2d_geoclaw_flag2refine` (fc2d_geoclaw_flag2refine_fort.f90:1-58). -/
def flag2refine (P : Params) (c : Cell) (xc yc t : ℝ) (level initFlag : ℤ) (isCoarsening : Bool) : ℤ :=
  if initFlag ≠ 0 ∧ isCoarsening then 0
  else if ¬ P.allowflag xc yc t level then -1
  else
    let maxNumSpeeds := min (P.numSpeeds : ℤ) P.maxlevel
    let thFactor : ℝ := if isCoarsening then 1 / 2 else 1
    if c.h > P.dryTolerance then
      let eta := c.h + c.b
      if |eta - P.seaLevel| > thFactor * P.waveTolerance then 1
      else
        let speed := Real.sqrt (c.hu ^ 2 + c.hv ^ 2) / c.h
        if (List.range maxNumSpeeds.toNat).any fun k =>
            decide (speed > thFactor * P.speedTolerance (k + 1) ∧ level ≤ (k + 1 : ℕ)) then 1
        else 0
    else 0

/-- A patch: its number of cells, place, cell sizes, and cells with indices from 1. -/
structure Patch where
  mx : ℕ
  my : ℕ
  xlower : ℝ
  ylower : ℝ
  dx : ℝ
  dy : ℝ
  cell : ℕ → ℕ → Cell

/-- Is there a cell with `flag_patch > 0`? (tag4refinement_fort.f90:35-57, tag4coarsening_fort.f90:94-121) -/
def flagged (P : Params) (p : Patch) (t : ℝ) (level initFlag : ℤ) (isCoarsening : Bool) : Bool :=
  (List.range p.my).any fun j => (List.range p.mx).any fun i =>
    let xc := p.xlower + (((i + 1 : ℕ) : ℝ) - 1 / 2) * p.dx
    let yc := p.ylower + (((j + 1 : ℕ) : ℝ) - 1 / 2) * p.dy
    decide (0 < flag2refine P (p.cell (i + 1) (j + 1)) xc yc t level initFlag isCoarsening)

/-- `geoclaw_patch_tag4refinement` (fc2d_geoclaw.cpp:398-451) with `fc2d_geoclaw_fort_tag4refinement`. -/
def tag4refinement (P : Params) (p : Patch) (t : ℝ) (level initFlag : ℤ) : ℤ :=
  let xupper := p.xlower + p.mx * p.dx
  let yupper := p.ylower + p.my * p.dy
  let tag := testRegions P.regions level p.xlower p.ylower xupper yupper t 1
  if tag < 0 then (if flagged P p t level initFlag false then 1 else 0)
  else tag

/-- `fc2d_geoclaw_test_coarsen` (fc2d_geoclaw_tag4coarsening_fort.f90:55-123). -/
def testCoarsen (P : Params) (p : Patch) (t : ℝ) (level initFlag : ℤ) : ℤ :=
  if flagged P p t level initFlag true then 0 else 1

/-- `fc2d_geoclaw_fort_tag4coarsening` (fc2d_geoclaw_tag4coarsening_fort.f90:1-52). -/
def fortTag4coarsening (P : Params) (p : Fin 4 → Patch) (t : ℝ) (level initFlag : ℤ) : ℤ :=
  let t0 := testCoarsen P (p 0) t level initFlag
  if t0 = 0 then t0 else
  let t1 := testCoarsen P (p 1) t level initFlag
  if t1 = 0 then t1 else
  let t2 := testCoarsen P (p 2) t level initFlag
  if t2 = 0 then t2 else
  testCoarsen P (p 3) t level initFlag

/-- `geoclaw_patch_tag4coarsening` (fc2d_geoclaw.cpp:454-501). `mx`, `my`, `dx`, `dy` are those of the last patch. -/
def tag4coarsening (P : Params) (p : Fin 4 → Patch) (t : ℝ) (level initFlag : ℤ) : ℤ :=
  let xupper := (p 1).xlower + (p 3).mx * (p 3).dx
  let yupper := (p 2).ylower + (p 3).my * (p 3).dy
  let tag := testRegions P.regions level (p 0).xlower (p 0).ylower xupper yupper t 0
  if tag < 0 then fortTag4coarsening P p t level initFlag
  else tag

end

end Fclaw.GeoTag
