import Verif.Topo.Model
import Verif.GeoRun.Model
/-
Model of the motion of the ground in GeoClaw:

* src/solvers/fc2d_geoclaw/geolib_source/topo_update.f90
* src/solvers/fc2d_geoclaw/fortran_source/geoclaw_topo_update_fort.f
* src/solvers/fc2d_geoclaw/geolib_source/topo_module.f90:167-216 (`topo0save`, `topotime`), 256-279 (`topo0work`),
  1104-1124 (`mdtopoorder`)
* src/solvers/fc2d_geoclaw/fortran_source/geoclaw_b4step2_fort.f90: `fc2d_geoclaw_check_dtopotime` (112-147) and its use
  (58-72)

Simplifications: numbers are real numbers without rounding, `int` of a number does not overflow. Each file has its own
array; in the program these are consecutive parts of `dtopowork`, `topowork` and `topo0work`. The index of a value within
the part of a file is computed as in the program, and an access outside of the part is `none`. The minimum or maximum over an
array in a comparison is written as a comparison with all of its elements.
-/
set_option autoImplicit false
namespace Fclaw.Dtopo

open Fort

noncomputable section

/-- A file with displacements: `mxdtopo`, `mydtopo`, `mtdtopo`, `xlowdtopo`, …, `dtdtopo`, and its part of `dtopowork`,
with indices from 1. -/
structure Move where
  mx : ℕ
  my : ℕ
  mt : ℕ
  xlow : ℝ
  xhi : ℝ
  ylow : ℝ
  yhi : ℝ
  t0 : ℝ
  tf : ℝ
  dx : ℝ
  dy : ℝ
  dt : ℝ
  work : ℤ → ℝ

/-- `dtopowork(ij)` -/
def Move.rd (m : Move) (ij : ℤ) : Option ℝ :=
  if 1 ≤ ij ∧ ij ≤ m.mx * m.my * m.mt then some (m.work ij) else none

/-- `kdtopo1(m)`, `kdtopo2(m)`, `taudtopo(m)` (topo_update.f90:36-66). -/
def Move.bracket (m : Move) (t : ℝ) : ℤ × ℤ × ℝ :=
  if m.mt = 1 then (1, 1, 0)
  else
    let k1 := max (min (⌊(t - m.t0) / m.dt⌋ + 1) (m.mt : ℤ)) 1
    let k2 := max (min (⌈(t - m.t0) / m.dt⌉ + 1) (m.mt : ℤ)) 1
    let t1 := m.t0 + m.dt * (((k1 - 1 : ℤ)) : ℝ)
    (k1, k2, max (1 - max 0 ((t - t1) / m.dt)) 0)

/-- `index0_dtopowork1(m)`, `index0_dtopowork2(m)` (lines 67-68), with `i0dtopo(m) = 1`. -/
def Move.index0 (m : Move) (k : ℤ) : ℤ := 1 + (k - 1) * m.mx * m.my

/-- `idtopo1`, `jdtopo1` (lines 127-131). -/
def Move.cell (m : Move) (x y : ℝ) : ℤ × ℤ :=
  (max 1 (min ((m.mx : ℤ) - 1) (⌊(x - m.xlow) / m.dx⌋ + 1)),
   max 1 (min ((m.my : ℤ) - 1) (⌊(m.yhi - y) / m.dy⌋ + 1)))

/-- `dz1` or `dz2` (lines 134-153 and 156-165): the value at one of the two times, multiplied by the area of the cell. -/
def Move.bilinear (m : Move) (index0 : ℤ) (x y : ℝ) : Option ℝ :=
  let i1 := (m.cell x y).1
  let i2 := i1 + 1
  let j1 := (m.cell x y).2
  let j2 := j1 + 1
  (m.rd (index0 + (j2 - 1) * m.mx + i1 - 1)).bind fun zll =>
  (m.rd (index0 + (j2 - 1) * m.mx + i2 - 1)).bind fun zlr =>
  (m.rd (index0 + (j1 - 1) * m.mx + i1 - 1)).bind fun zul =>
  (m.rd (index0 + (j1 - 1) * m.mx + i2 - 1)).bind fun zur =>
  let xl := m.xlow + ((i1 - 1 : ℤ) : ℝ) * m.dx
  let xr := xl + m.dx
  let yu := m.yhi - ((j1 - 1 : ℤ) : ℝ) * m.dy
  let yl := yu - m.dy
  some (zll * (xr - x) * (yu - y) + zlr * (x - xl) * (yu - y) + zul * (xr - x) * (y - yl) + zur * (x - xl) * (y - yl))

/-- `dz12` (lines 121-167): the displacement at a point. -/
def Move.dz (m : Move) (x y t : ℝ) : Option ℝ :=
  (m.bilinear (m.index0 (m.bracket t).1) x y).bind fun dz1 =>
  (m.bilinear (m.index0 (m.bracket t).2.1) x y).bind fun dz2 =>
  some (((m.bracket t).2.2 * dz1 + (1 - (m.bracket t).2.2) * dz2) / (m.dx * m.dy))

/-- The files with displacements, `1 … num_dtopo`. -/
structure Moves where
  n : ℕ
  move : ℤ → Move

/-- `mdtopoorder` (topo_module.f90:1104-1124). The loop is that for `mtopoorder`, with the areas of the cells of these files. -/
def Moves.order (M : Moves) : ℤ → ℤ :=
  Topo.Files.mtopoorder ⟨M.n, fun i => ⟨0, 0, 0, 0, 0, 0, (M.move i).dx, (M.move i).dy, fun _ => 0⟩⟩

/-- `dztotal` (lines 100-172). -/
def Moves.dztotal (M : Moves) (x y t : ℝ) : Option ℝ :=
  doLoop 1 M.n (fun irank total =>
    let m := M.move (M.order irank)
    if x > m.xhi ∨ x < m.xlow ∨ y > m.yhi ∨ y < m.ylow then some total
    else if t < m.t0 then some total
    else (m.dz x y t).bind fun dz12 => some (total + dz12)) 0

/-- A file with heights: `mxtopo`, `mytopo`, `xlowtopo`, …, and its part of `topo0work`, with indices from 1. -/
structure Heights where
  mx : ℕ
  my : ℕ
  xlow : ℝ
  xhi : ℝ
  ylow : ℝ
  yhi : ℝ
  dx : ℝ
  dy : ℝ
  topo0 : ℤ → ℝ

/-- Everything that does not change. The last `moves.n` of the files with heights have the nodes of the files with
displacements; the others have been read. -/
structure Setup where
  moves : Moves
  nfiles : ℕ
  file : ℤ → Heights

/-- `topo0save(i)` for a file that has been read (topo_module.f90:167, 206-216): the loop over the files with displacements. -/
def Setup.saveRead (S : Setup) (i : ℤ) : ℤ :=
  (range ((S.nfiles : ℤ) - S.moves.n + 1) S.nfiles).foldl (fun _ j =>
    if (S.file i).xhi < (S.file j).xlow ∨ (S.file i).xlow > (S.file j).xhi ∨
       (S.file i).yhi < (S.file j).ylow ∨ (S.file i).ylow > (S.file j).yhi then 0 else 1) 0

/-- `topo0save(i)` (lines 182 and 206-216). -/
def Setup.save (S : Setup) (i : ℤ) : ℤ := if i > (S.nfiles : ℤ) - S.moves.n then 1 else S.saveRead i

/-- `topo_finalized`, `topotime` and `topowork`. -/
structure State where
  finalized : Bool
  time : ℤ → ℝ
  work : ℤ → ℤ → ℝ

/-- The state at the beginning (topo_module.f90:181, 199, 258-261, 274-279). `huge` is `huge(1.0)`. -/
def Setup.start (S : Setup) (huge : ℝ) : State :=
  ⟨decide (¬ S.moves.n > 0), fun _ => -huge, fun i => (S.file i).topo0⟩

/-- The loops over the nodes of a file (topo_update.f90:93-176). -/
def Setup.fileNodes (S : Setup) (t : ℝ) (mt : ℤ) (work : ℤ → ℝ) : Option (ℤ → ℝ) :=
  let f := S.file mt
  doLoop 1 f.my (fun j work =>
    let y := f.yhi - ((j - 1 : ℤ) : ℝ) * f.dy
    doLoop 1 f.mx (fun i work =>
      let ij := 1 + (j - 1) * f.mx + i - 1
      let x := f.xlow + ((i - 1 : ℤ) : ℝ) * f.dx
      (S.moves.dztotal x y t).bind fun dz =>
      if 1 ≤ ij ∧ ij ≤ f.mx * f.my then some (fun a => if a = ij then f.topo0 ij + dz else work a) else none) work) work

/-- The body of the loop over the files (lines 79-177). -/
def Setup.fileUpdate (S : Setup) (t : ℝ) (mt : ℤ) (s : State) : Option State :=
  open Classical in
  if S.save mt ≤ 0 then some { s with time := fun a => if a = mt then t else s.time a }
  else if s.time mt = t then some s
  else (S.fileNodes t mt (s.work mt)).bind fun w =>
    some { s with
      time := fun a => if a = mt then t else s.time a
      work := fun a => if a = mt then w else s.work a }

/-- `topo_update` (topo_update.f90) -/
def Setup.topoUpdate (S : Setup) (t : ℝ) (s : State) : Option State :=
  open Classical in
  if (∀ m ∈ range 1 S.moves.n, t < (S.moves.move m).t0) ∨ s.finalized = true then some s
  else if ∀ f ∈ range 1 S.nfiles, ∀ m ∈ range 1 S.moves.n, (S.moves.move m).tf ≤ s.time f then
    some { s with finalized := true }
  else doLoop 1 S.nfiles (fun mt s => S.fileUpdate t mt s) s

/-- `fc2d_geoclaw_topo_update` (geoclaw_topo_update_fort.f), called with the time of each patch before its step
(fc2d_geoclaw.cpp:359). -/
def Setup.update (S : Setup) (t : ℝ) (s : State) : Option State :=
  if s.finalized = true then some s else S.topoUpdate t s

/-- Calls one after the other. -/
def Setup.updates (S : Setup) : List ℝ → State → Option State
  | [], s => some s
  | t :: ts, s => (S.update t s).bind (S.updates ts)

end

/-- `fc2d_geoclaw_check_dtopotime` (geoclaw_b4step2_fort.f90:112-147), with the interval of the motion. -/
def checkDtopotime (g : ℚ × ℚ) (t : ℚ) : Bool :=
  if g.1 < g.2 then
    let tau := (t - g.1) / (g.2 - g.1)
    decide (tau ≥ 0) && decide (tau ≤ 1)
  else decide (t ≥ g.2)

/-- The time at which a patch has taken the heights of the ground last, after steps that begin at the times given (geoclaw_b4step2_fort.f90:58-72):
before each step it takes the heights, which `topo_update` has brought to the time of the step, if this is in the interval.
`none`: not since the patch was made. -/
def auxTime (g : ℚ × ℚ) (times : List ℚ) : Option ℚ :=
  times.foldl (fun a t => if checkDtopotime g t then some t else a) none

end Fclaw.Dtopo
