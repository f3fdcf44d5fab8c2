/-
Model of the default physical boundary conditions,
`src/solvers/fc2d_clawpack4.6/fortran_source/clawpack46_bc2_default.f`, and of the function that
calls them, `src/solvers/fc2d_clawpack4.6/fc2d_clawpack46.cpp` 94–147 (two dimensions).

What is simplified.
* Values are rational numbers.
* `mx = maxmx`, `my = maxmy`, as the caller passes them; coordinates, time and `aux` are not used by
  the subroutine.
* Three outcomes: `stop` is the Fortran statement, `bad` an access outside of an array.
-/
import Verif.Fort.Basic
import Mathlib.Data.Rat.Defs
import Mathlib.Algebra.Order.Ring.Rat

set_option autoImplicit false

namespace Fclaw.Bc

open Fclaw.Fort

inductive Out (σ : Type) where
  | ok (s : σ)
  | stop
  | bad

def Out.bind {σ τ : Type} (x : Out σ) (f : σ → Out τ) : Out τ :=
  match x with
  | .ok s => f s
  | .stop => .stop
  | .bad => .bad

def ofOption {σ : Type} : Option σ → Out σ
  | some s => .ok s
  | none => .bad

/-- `q(dst) = q(src)`. -/
def copy (d : Dims) (dst src : Cell) (q : Grid ℚ) : Option (Grid ℚ) :=
  match rd d q src with
  | some v => wr d q dst v
  | none => none

/-- `q(dst) = -q(src)`. -/
def negate (d : Dims) (dst src : Cell) (q : Grid ℚ) : Option (Grid ℚ) :=
  match rd d q src with
  | some v => wr d q dst (-v)
  | none => none

/-- Loops over components, layers and cells along a side in x: lines 33–39, 54–60, 87–93, 108–114. -/
def xSide (d : Dims) (dst src : ℤ → ℤ) : Grid ℚ → Option (Grid ℚ) :=
  doLoop 1 d.meqn fun m => doLoop 1 d.mbc fun ibc => doLoop (1 - d.mbc) (d.my + d.mbc) fun j =>
    copy d (dst ibc, j, m) (src ibc, j, m)

/-- Lines 62–66, 116–120. -/
def xNegate (d : Dims) (dst src : ℤ → ℤ) : Grid ℚ → Option (Grid ℚ) :=
  doLoop 1 d.mbc fun ibc => doLoop (1 - d.mbc) (d.my + d.mbc) fun j =>
    negate d (dst ibc, j, 2) (src ibc, j, 2)

/-- Lines 139–145, 160–166, 193–199, 214–220. -/
def ySide (d : Dims) (dst src : ℤ → ℤ) : Grid ℚ → Option (Grid ℚ) :=
  doLoop 1 d.meqn fun m => doLoop 1 d.mbc fun jbc => doLoop (1 - d.mbc) (d.mx + d.mbc) fun i =>
    copy d (i, dst jbc, m) (i, src jbc, m)

/-- Lines 168–172, 222–226. -/
def yNegate (d : Dims) (dst src : ℤ → ℤ) : Grid ℚ → Option (Grid ℚ) :=
  doLoop 1 d.mbc fun jbc => doLoop (1 - d.mbc) (d.mx + d.mbc) fun i =>
    negate d (i, dst jbc, 3) (i, src jbc, 3)

/-- The computed `go to` at the start of each side: 0 and 2 stop, 1 and 3 are done, all others are
skipped. -/
def select (mth : ℤ) (extrap wall : Grid ℚ → Option (Grid ℚ)) (q : Grid ℚ) : Out (Grid ℚ) :=
  if mth = 0 then .stop
  else if mth = 1 then ofOption (extrap q)
  else if mth = 2 then .stop
  else if mth = 3 then ofOption (wall q)
  else .ok q

/-- One program after the other. -/
def seq (f g : Grid ℚ → Option (Grid ℚ)) (q : Grid ℚ) : Option (Grid ℚ) := (f q).bind g

/-- Lines 14–69. -/
def left (d : Dims) (mth : ℤ) : Grid ℚ → Out (Grid ℚ) :=
  select mth (xSide d (fun b => 1 - b) (fun _ => 1))
    (seq (xSide d (fun b => 1 - b) (fun b => b)) (xNegate d (fun b => 1 - b) (fun b => b)))

/-- Lines 70–123. -/
def right (d : Dims) (mth : ℤ) : Grid ℚ → Out (Grid ℚ) :=
  select mth (xSide d (fun b => d.mx + b) (fun _ => d.mx))
    (seq (xSide d (fun b => d.mx + b) (fun b => d.mx + 1 - b))
      (xNegate d (fun b => d.mx + b) (fun b => d.mx + 1 - b)))

/-- Lines 124–175. -/
def bottom (d : Dims) (mth : ℤ) : Grid ℚ → Out (Grid ℚ) :=
  select mth (ySide d (fun b => 1 - b) (fun _ => 1))
    (seq (ySide d (fun b => 1 - b) (fun b => b)) (yNegate d (fun b => 1 - b) (fun b => b)))

/-- Lines 176–229. -/
def top (d : Dims) (mth : ℤ) : Grid ℚ → Out (Grid ℚ) :=
  select mth (ySide d (fun b => d.my + b) (fun _ => d.my))
    (seq (ySide d (fun b => d.my + b) (fun b => d.my + 1 - b))
      (yNegate d (fun b => d.my + b) (fun b => d.my + 1 - b)))

/-- `clawpack46_bc2_default`. -/
def bc2Default (d : Dims) (mthbc : Nat → ℤ) (q : Grid ℚ) : Out (Grid ℚ) :=
  (left d (mthbc 0) q).bind fun q => (right d (mthbc 1) q).bind fun q =>
    (bottom d (mthbc 2) q).bind (top d (mthbc 3))

/-- The solution and the time-interpolated solution of a patch. -/
structure Grids where
  q : Grid ℚ
  interp : Grid ℚ

/-- `clawpack46_bc2`, `fc2d_clawpack46.cpp` 94–147: `blockMthbc` is the option `mthbc`,
`intersects` what `fclaw2d_physical_get_bc` found (C55). -/
def bc2 (d : Dims) (blockMthbc : Nat → ℤ) (intersects : Nat → Bool) (timeInterp : Bool) (g : Grids) :
    Out Grids :=
  let mthbc := fun i => if intersects i then blockMthbc i else -1
  if timeInterp then (bc2Default d mthbc g.interp).bind fun r => .ok { g with interp := r }
  else (bc2Default d mthbc g.q).bind fun r => .ok { g with q := r }

end Fclaw.Bc
