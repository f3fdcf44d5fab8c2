/-
Model of the default physical boundary conditions of the solver in three dimensions,
`src/solvers/fc3d_clawpack46/fortran_source/fc3d_clawpack46_bc3_default.f90`, and of the function that calls them,
`src/solvers/fc3d_clawpack46/fc3d_clawpack46.cpp` 97–151.

What is simplified.
* Values are rational numbers.
* Coordinates, time and `aux` are not used by the subroutine. What it prints is not modelled.
* Three outcomes (`Bc.Out`): `stop` is the Fortran statement, `bad` an access outside of an array.
* The loops of the six sides differ in the names of their indices only; they are written once, with the axis as a
  parameter.
-/
import Verif.Bc.Model
import Verif.Extrude.Model

set_option autoImplicit false

namespace Fclaw.Bc3

open Fclaw.Fort Fclaw.Extrude
open Bc (Out ofOption)

inductive Axis where
  | x | y | z
  deriving DecidableEq, Repr

/-- The cell at position `a` along the axis; `u` and `v` are the other indices in the order of the loops: `(j, k)`,
`(i, k)`, `(i, j)`. -/
def Axis.cell : Axis → ℤ → ℤ → ℤ → ℤ → Cell3
  | .x, a, u, v, m => (a, u, v, m)
  | .y, a, u, v, m => (u, a, v, m)
  | .z, a, u, v, m => (u, v, a, m)

/-- Number of cells along the axis, -/
def Axis.size (D : Dims3) : Axis → Nat
  | .x => D.mx
  | .y => D.my
  | .z => D.mz

/-- and the upper bounds of the inner loops, without ghost cells: `j = 1-mbc, my+mbc`; `k = 1-mbc, mz+mbc` for sides in
x, `i`, `k` for y, `i`, `j` for z. -/
def Axis.usize (D : Dims3) : Axis → Nat
  | .x => D.my
  | .y => D.mx
  | .z => D.mx
def Axis.vsize (D : Dims3) : Axis → Nat
  | .x => D.mz
  | .y => D.mz
  | .z => D.my

/-- The component that is negated at a wall: lines 83, 138, 191, 246, 304 and 372. -/
def Axis.normal : Axis → ℤ
  | .x => 2
  | .y => 3
  | .z => 4

/-- `q(dst) = q(src)` and `q(dst) = -q(src)`. -/
def copy (D : Dims3) (dst src : Cell3) (q : Grid3 ℚ) : Option (Grid3 ℚ) := (rd3 D q src).bind fun v => wr3 D q dst v
def negate (D : Dims3) (dst src : Cell3) (q : Grid3 ℚ) : Option (Grid3 ℚ) := (rd3 D q src).bind fun v => wr3 D q dst (-v)

/-- Loops over components, layers and cells along a side: lines 49–57, 67–75, 104–112, 122–130, 159–167, 177–185, 213–221,
231–239, 268–276, 281–289, 294–302, 333–341, 346–354, 359–367. -/
def copySide (D : Dims3) (ax : Axis) (dst src : ℤ → ℤ) : Grid3 ℚ → Option (Grid3 ℚ) :=
  doLoop 1 D.meqn fun m => doLoop 1 D.mbc fun b => doLoop (1 - D.mbc) (ax.usize D + D.mbc) fun u =>
    doLoop (1 - D.mbc) (ax.vsize D + D.mbc) fun v => copy D (ax.cell (dst b) u v m) (ax.cell (src b) u v m)

/-- Lines 78–84, 133–139, 187–193, 242–248, 304–310, 369–375. -/
def negateSide (D : Dims3) (ax : Axis) (dst src : ℤ → ℤ) : Grid3 ℚ → Option (Grid3 ℚ) :=
  doLoop 1 D.mbc fun b => doLoop (1 - D.mbc) (ax.usize D + D.mbc) fun u =>
    doLoop (1 - D.mbc) (ax.vsize D + D.mbc) fun v =>
      negate D (ax.cell (dst b) u v ax.normal) (ax.cell (src b) u v ax.normal)

/-- One side. The computed `go to`: 0 stops, 1, 2, 3 are done, all others are skipped. Periodic conditions (2) are done
along z only; otherwise a line is printed (lines 60–63, 115–118, 170–173, 224–227). -/
def side (D : Dims3) (ax : Axis) (mth : ℤ) (dst first wrap mirror : ℤ → ℤ) (q : Grid3 ℚ) : Out (Grid3 ℚ) :=
  if mth = 0 then .stop
  else if mth = 1 then ofOption (copySide D ax dst first q)
  else if mth = 2 then (match ax with
    | .x => .ok q
    | .y => .ok q
    | .z => ofOption (copySide D .z dst wrap q))
  else if mth = 3 then ofOption ((copySide D ax dst mirror q).bind (negateSide D ax dst mirror))
  else .ok q

/-- Lines 37–88, 146–197, 256–314. -/
def lower (D : Dims3) (ax : Axis) (mth : ℤ) : Grid3 ℚ → Out (Grid3 ℚ) :=
  side D ax mth (fun b => 1 - b) (fun _ => 1) (fun b => ax.size D + 1 - b) (fun b => b)

/-- Lines 90–143, 199–252, 316–379. -/
def upper (D : Dims3) (ax : Axis) (mth : ℤ) : Grid3 ℚ → Out (Grid3 ℚ) :=
  side D ax mth (fun b => ax.size D + b) (fun _ => ax.size D) (fun b => b) (fun b => ax.size D + 1 - b)

/-- `clawpack46_bc3_default`. -/
def bc3Default (D : Dims3) (mthbc : Nat → ℤ) (q : Grid3 ℚ) : Out (Grid3 ℚ) :=
  (lower D .x (mthbc 0) q).bind fun q => (upper D .x (mthbc 1) q).bind fun q =>
    (lower D .y (mthbc 2) q).bind fun q => (upper D .y (mthbc 3) q).bind fun q =>
      (lower D .z (mthbc 4) q).bind (upper D .z (mthbc 5))

/-- The solution and the time-interpolated solution of a patch. -/
structure Grids where
  q : Grid3 ℚ
  interp : Grid3 ℚ

/-- `clawpack46_bc3`, `fc3d_clawpack46.cpp` 97–151: `blockMthbc` is the option `mthbc`, `intersects` what
`fclaw2d_physical_get_bc` found (C55) for the four sides of the patch; bottom and top are always physical. -/
def bc3 (D : Dims3) (blockMthbc : Nat → ℤ) (intersects : Nat → Bool) (timeInterp : Bool) (g : Grids) : Out Grids :=
  let mthbc := fun i => if i < 4 then (if intersects i then blockMthbc i else -1) else blockMthbc i
  if timeInterp then (bc3Default D mthbc g.interp).bind fun r => .ok { g with interp := r }
  else (bc3Default D mthbc g.q).bind fun r => .ok { g with q := r }

end Fclaw.Bc3
