import Verif.Bc.Model
/-
Model of the boundary conditions of GeoClaw:

* src/solvers/fc2d_geoclaw/fortran_source/geoclaw_bc2_fort.f: `fc2d_geoclaw_bc2`;
* src/solvers/fc2d_geoclaw/fc2d_geoclaw.cpp: `geoclaw_bc2` (122-176), which calls it.

Simplifications: values are rational numbers. The solution, the time-interpolated solution and the auxiliary data of a patch are one memory. An
access outside of an array is `bad`, the Fortran statement `stop` is `stop`. Coordinates, time and the block number are not used.
-/
set_option autoImplicit false
namespace Fclaw.GeoBc

open Fort
open Bc (Out ofOption)

/-- The arrays of a patch: solution, time-interpolated solution, auxiliary data. -/
inductive Arr where
  | q | interp | aux
  deriving DecidableEq

/-- An element: the array, and its indices in the order `i`, `j`, `m`. -/
abbrev El := Arr × Cell

abbrev Mem := El → ℚ

/-- The sizes of a patch. -/
structure Sizes where
  mx : ℕ
  my : ℕ
  mbc : ℕ
  meqn : ℕ
  maux : ℕ

/-- The number of components of an array. -/
def Sizes.comps (d : Sizes) : Arr → ℕ
  | .aux => d.maux
  | _ => d.meqn

/-- Is the element part of its array? -/
def Sizes.has (d : Sizes) (e : El) : Bool := inBox ⟨d.mx, d.my, d.mbc, d.comps e.1⟩ e.2

/-- An assignment of `g` times an element. -/
def put (d : Sizes) (dst src : El) (g : ℚ) (M : Mem) : Option Mem :=
  if d.has dst && d.has src then some (fun e => if e = dst then g * M src else M e) else none

/-- Ground and water of a cell, for example lines 57-59. -/
def copyCell (d : Sizes) (a : Arr) (di dj si sj : ℤ) (M : Mem) : Option Mem :=
  (put d (.aux, di, dj, 1) (.aux, si, sj, 1) 1 M).bind
    (doLoop 1 d.meqn fun m => put d (a, di, dj, m) (a, si, sj, m) 1)

/-- Lines 55-60, 69-74, 98-103, 112-117. -/
def xSide (d : Sizes) (a : Arr) (dst src : ℤ → ℤ) : Mem → Option Mem :=
  doLoop (1 - d.mbc) (d.my + d.mbc) fun j => doLoop 1 d.mbc fun ibc => copyCell d a (dst ibc) j (src ibc) j

/-- Lines 76-79, 119-122. -/
def xNegate (d : Sizes) (a : Arr) (dst src : ℤ → ℤ) : Mem → Option Mem :=
  doLoop (1 - d.mbc) (d.my + d.mbc) fun j => doLoop 1 d.mbc fun ibc => put d (a, dst ibc, j, 2) (a, src ibc, j, 2) (-1)

/-- Lines 141-146, 155-160, 184-189, 198-203. -/
def ySide (d : Sizes) (a : Arr) (dst src : ℤ → ℤ) : Mem → Option Mem :=
  doLoop 1 d.mbc fun jbc => doLoop (1 - d.mbc) (d.mx + d.mbc) fun i => copyCell d a i (dst jbc) i (src jbc)

/-- Lines 162-165, 205-208. -/
def yNegate (d : Sizes) (a : Arr) (dst src : ℤ → ℤ) : Mem → Option Mem :=
  doLoop 1 d.mbc fun jbc => doLoop (1 - d.mbc) (d.mx + d.mbc) fun i => put d (a, i, dst jbc, 3) (a, i, src jbc, 3) (-1)

/-- The computed `go to` at the beginning of each side, for example line 42: 0 stops, 2 is handled by the mesh, other codes skip the side. -/
def select (mth : ℤ) (extrap wall : Mem → Option Mem) (M : Mem) : Out Mem :=
  if mth + 1 = 1 then .stop
  else if mth + 1 = 2 then ofOption (extrap M)
  else if mth + 1 = 3 then .ok M
  else if mth + 1 = 4 then ofOption (wall M)
  else .ok M

/-- Lines 38-82. -/
def left (d : Sizes) (a : Arr) (mth : ℤ) : Mem → Out Mem :=
  select mth (xSide d a (fun b => 1 - b) (fun _ => 1))
    (fun M => (xSide d a (fun b => 1 - b) (fun b => b) M).bind (xNegate d a (fun b => 1 - b) (fun b => b)))

/-- Lines 83-125. -/
def right (d : Sizes) (a : Arr) (mth : ℤ) : Mem → Out Mem :=
  select mth (xSide d a (fun b => d.mx + b) (fun _ => d.mx))
    (fun M => (xSide d a (fun b => d.mx + b) (fun b => d.mx + 1 - b) M).bind
      (xNegate d a (fun b => d.mx + b) (fun b => d.mx + 1 - b)))

/-- Lines 126-168. -/
def bottom (d : Sizes) (a : Arr) (mth : ℤ) : Mem → Out Mem :=
  select mth (ySide d a (fun b => 1 - b) (fun _ => 1))
    (fun M => (ySide d a (fun b => 1 - b) (fun b => b) M).bind (yNegate d a (fun b => 1 - b) (fun b => b)))

/-- Lines 169-211. -/
def top (d : Sizes) (a : Arr) (mth : ℤ) : Mem → Out Mem :=
  select mth (ySide d a (fun b => d.my + b) (fun _ => d.my))
    (fun M => (ySide d a (fun b => d.my + b) (fun b => d.my + 1 - b) M).bind
      (yNegate d a (fun b => d.my + b) (fun b => d.my + 1 - b)))

/-- `fc2d_geoclaw_bc2` -/
def bc2Fort (d : Sizes) (a : Arr) (mthbc : ℕ → ℤ) (M : Mem) : Out Mem :=
  (left d a (mthbc 0) M).bind fun M => (right d a (mthbc 1) M).bind fun M =>
    (bottom d a (mthbc 2) M).bind (top d a (mthbc 3))

/-- `geoclaw_bc2` (fc2d_geoclaw.cpp 122-176): `block` is the option `mthbc`. -/
def bc2 (d : Sizes) (block : ℕ → ℤ) (intersects : ℕ → Bool) (timeInterp : Bool) (M : Mem) : Out Mem :=
  bc2Fort d (if timeInterp then .interp else .q) (fun i => if intersects i then block i else -1) M

end Fclaw.GeoBc
