import Verif.Fort.Basic
import Mathlib.Data.Rat.Defs
import Mathlib.Algebra.Order.Field.Rat
import Mathlib.Algebra.Order.Ring.Abs
/-
Model of the transfer of solutions between a patch and its four children on regridding (2D,
Clawpack 4.6 layout):

* src/patches/clawpatch/fort_4.6/fclaw2d_clawpatch46_average.f: average2coarse
* src/patches/clawpatch/fort_4.6/fclaw2d_clawpatch46_interpolate.f: interpolate2fine, fixcapaq2
* src/patches/clawpatch/fclaw2d_clawpatch_utils.f: compute_slopes
* src/patches/clawpatch/fclaw2d_clawpatch.cpp:916-1016: the loops over the four children

Simplification: real numbers are rationals, without rounding. A division by zero is `none`.
-/
set_option autoImplicit false
namespace Fclaw.Transfer

open Fort

/-- Cell areas, `area(-mbc:mx+mbc+1,-mbc:my+mbc+1)`. -/
abbrev Area := ℤ × ℤ → ℚ

def rdArea (d : Dims) (a : Area) (i j : ℤ) : Option ℚ :=
  if -(d.mbc : ℤ) ≤ i ∧ i ≤ d.mx + d.mbc + 1 ∧ -(d.mbc : ℤ) ≤ j ∧ j ≤ d.my + d.mbc + 1 then some (a (i, j)) else none

def divide (x y : ℚ) : Option ℚ := if y = 0 then none else some (x / y)

/-! ### Averaging -/

/-- `i2(m)`, average.f:336-343: number `m` of the four fine cells, in x. -/
def fineI (i m : ℤ) : ℤ := (i - 1) * 2 + (m % 2 + 1)

/-- `j2(m)`. -/
def fineJ (j m : ℤ) : ℤ := (j - 1) * 2 + (m / 2 + 1)

/-- The value for one cell, average.f:344-360. -/
def averageCell (d : Dims) (qfine : Grid ℚ) (areacoarse areafine : Area) (manifold : ℤ) (i1 j1 i j mq : ℤ) :
    Option ℚ :=
  if manifold = 1 then
    (doLoop 0 3 (fun m s =>
      (rd d qfine (fineI i m, fineJ j m, mq)).bind fun qf =>
      (rdArea d areafine (fineI i m) (fineJ j m)).bind fun kf => some (s + kf * qf)) (0 : ℚ)).bind fun sum =>
    (rdArea d areacoarse i1 j1).bind fun kc => divide sum kc
  else
    (doLoop 0 3 (fun m s =>
      (rd d qfine (fineI i m, fineJ j m, mq)).bind fun qf => some (s + qf)) (0 : ℚ)).bind fun sum =>
    some (sum / 4)

/-- `fclaw2d_clawpatch46_fort_average2coarse`, fclaw2d_clawpatch46_average.f:282-364. Note `mx` in
`jc_add` (line 328). -/
def average2coarse (d : Dims) (areacoarse areafine : Area) (igrid manifold : ℤ) (qfine qcoarse : Grid ℚ) :
    Option (Grid ℚ) :=
  let ig := igrid % 2
  let jg := (igrid - ig) / 2
  let ic_add := ig * d.mx / 2
  let jc_add := jg * d.mx / 2
  doLoop 1 d.meqn (fun mq => doLoop 1 ((d.my : ℤ) / 2) fun j => doLoop 1 ((d.mx : ℤ) / 2) fun i => fun q =>
    (averageCell d qfine areacoarse areafine manifold (i + ic_add) (j + jc_add) i j mq).bind fun v =>
      wr d q (i + ic_add, j + jc_add, mq) v) qcoarse

/-- `clawpatch_average2coarse`, fclaw2d_clawpatch.cpp:966-1016. -/
def coarsen (d : Dims) (areacoarse : Area) (areafine : ℤ → Area) (manifold : ℤ) (qfine : ℤ → Grid ℚ)
    (qcoarse : Grid ℚ) : Option (Grid ℚ) :=
  doLoop 0 3 (fun igrid => average2coarse d areacoarse (areafine igrid) igrid manifold (qfine igrid)) qcoarse

/-! ### Interpolation -/

/-- Fortran `sign(1.d0, x)`. (For a negative zero it is -1; the results below are the same.) -/
def sign1 (x : ℚ) : ℚ := if x < 0 then -1 else 1

/-- `fclaw2d_clawpatch_compute_slopes` for `mth = 5`, fclaw2d_clawpatch_utils.f:11-66. -/
def computeSlopes (sl sr : ℚ) : ℚ :=
  let sc := (sl + sr) / 2
  min (min (2 * |sl|) (2 * |sr|)) |sc| * max 0 (sign1 (sl * sr)) * sign1 sc

/-- `shiftx`, `shifty`, interpolate.f:384-385. -/
def shift (ii : ℤ) : ℚ := ((ii : ℚ) - 2 / 2 - 1 / 2) / 2

/-- Coarse value and limited differences, interpolate.f:366-379. -/
def slopes (d : Dims) (qcoarse : Grid ℚ) (ic jc mq : ℤ) : Option (ℚ × ℚ × ℚ) :=
  (rd d qcoarse (ic, jc, mq)).bind fun qc =>
  (rd d qcoarse (ic - 1, jc, mq)).bind fun ql =>
  (rd d qcoarse (ic + 1, jc, mq)).bind fun qr =>
  (rd d qcoarse (ic, jc - 1, mq)).bind fun qb =>
  (rd d qcoarse (ic, jc + 1, mq)).bind fun qt =>
  some (qc, computeSlopes (qc - ql) (qr - qc), computeSlopes (qc - qb) (qt - qc))

/-- The first part of `fclaw2d_clawpatch46_fort_interpolate2fine`,
fclaw2d_clawpatch46_interpolate.f:324-392. -/
def interpolate (d : Dims) (igrid : ℤ) (qcoarse qfine : Grid ℚ) : Option (Grid ℚ) :=
  let ig := igrid % 2
  let jg := (igrid - ig) / 2
  let i1 := 1 - ig
  let i2 := (d.mx : ℤ) / 2 + (1 - ig)
  let ic_add := ig * d.mx / 2
  let j1 := 1 - jg
  let j2 := (d.my : ℤ) / 2 + (1 - jg)
  let jc_add := jg * d.my / 2
  doLoop 1 d.meqn (fun mq => doLoop j1 j2 fun j => doLoop i1 i2 fun i => fun q =>
    (slopes d qcoarse (i + ic_add) (j + jc_add) mq).bind fun s =>
    doLoop 1 2 (fun ii => doLoop 1 2 fun jj => fun q =>
      wr d q ((i - 1) * 2 + ii, (j - 1) * 2 + jj, mq) (s.1 + shift ii * s.2.1 + shift jj * s.2.2)) q) qfine

/-- The mass of the four fine cells, interpolate.f:456-465. -/
def fineSum (d : Dims) (areafine : Area) (i j m : ℤ) (q : Grid ℚ) : Option ℚ :=
  doLoop 1 2 (fun ii => doLoop 1 2 fun jj => fun s =>
    (rdArea d areafine ((i - 1) * 2 + ii) ((j - 1) * 2 + jj)).bind fun kf =>
    (rd d q ((i - 1) * 2 + ii, (j - 1) * 2 + jj, m)).bind fun qf => some (s + kf * qf)) (0 : ℚ)

/-- The correction of the four fine cells, lines 471-479. -/
def spread (d : Dims) (areafine : Area) (i j m : ℤ) (cons_diff : ℚ) (q : Grid ℚ) : Option (Grid ℚ) :=
  doLoop 1 2 (fun ii => doLoop 1 2 fun jj => fun q =>
    (rdArea d areafine ((i - 1) * 2 + ii) ((j - 1) * 2 + jj)).bind fun kf =>
    (rd d q ((i - 1) * 2 + ii, (j - 1) * 2 + jj, m)).bind fun qf =>
    (divide cons_diff kf).bind fun c =>
    wr d q ((i - 1) * 2 + ii, (j - 1) * 2 + jj, m) (qf + c)) q

/-- `fclaw2d_clawpatch46_fort_fixcapaq2`, lines 419-484. -/
def fixcapaq2 (d : Dims) (areacoarse areafine : Area) (igrid : ℤ) (qcoarse qfine : Grid ℚ) : Option (Grid ℚ) :=
  let ig := igrid % 2
  let jg := (igrid - ig) / 2
  let ic_add := ig * d.mx / 2
  let jc_add := jg * d.my / 2
  doLoop 1 d.meqn (fun m => doLoop 1 ((d.mx : ℤ) / 2) fun i => doLoop 1 ((d.my : ℤ) / 2) fun j => fun q =>
    (fineSum d areafine i j m q).bind fun sum =>
    (rdArea d areacoarse (i + ic_add) (j + jc_add)).bind fun kc =>
    (rd d qcoarse (i + ic_add, j + jc_add, m)).bind fun qc =>
    spread d areafine i j m ((qc * kc - sum) / 4) q) qfine

/-- `fclaw2d_clawpatch46_fort_interpolate2fine` with its last part, lines 394-400. -/
def interpolate2fine (d : Dims) (areacoarse areafine : Area) (igrid manifold : ℤ) (qcoarse qfine : Grid ℚ) :
    Option (Grid ℚ) :=
  (interpolate d igrid qcoarse qfine).bind fun q =>
  if manifold ≠ 0 then fixcapaq2 d areacoarse areafine igrid qcoarse q else some q

/-- `clawpatch_interpolate2fine`, fclaw2d_clawpatch.cpp:916-963: the grids of the four children. -/
def refine (d : Dims) (areacoarse : Area) (areafine : ℤ → Area) (manifold : ℤ) (qcoarse : Grid ℚ)
    (qfine : ℤ → Grid ℚ) : Option (ℤ → Grid ℚ) :=
  doLoop 0 3 (fun igrid fs =>
    (interpolate2fine d areacoarse (areafine igrid) igrid manifold qcoarse (fs igrid)).map fun q =>
      fun g => if g = igrid then q else fs g) qfine

end Fclaw.Transfer
