import Verif.CopyGhost.Model
import Verif.Transfer.Model
import Verif.CoarseFine.Model
import Verif.TimeInterp.Model
import Verif.GhostPack.Model
import Verif.Bc.Model
import Verif.Tag.Model
import Verif.Diag.Model
/-
Model of the patch routines for the Clawpack 5 memory layout (2D). A solution is declared
`q(meqn,1-mbc:mx+mbc,1-mbc:my+mbc)` there and `q(1-mbc:mx+mbc,1-mbc:my+mbc,meqn)` for Clawpack 4.6.

* src/patches/clawpatch/fort_5.0/fclaw2d_clawpatch5_copy.f, …_average.f, …_interpolate.f,
  …_timeinterp.f, …_local_ghost_pack.f, …_tag4refinement.f, …_tag4coarsening.f, …_diagnostics.f
* src/solvers/fc2d_clawpack5/fortran_source/clawpack5_bc2_default.f
* src/patches/clawpatch/fclaw2d_clawpatch.cpp:1404-1477: which routines are used for which layout

A solution is memory here: a function from positions, counted from the first element. Every access goes
through the position that the declaration gives to the element; an access outside of the declared bounds
is `none`. The callers (src/patches/clawpatch/fclaw2d_clawpatch.cpp) are the same for both layouts.

Simplifications: real numbers are rationals, without rounding. A division by zero is `none`. Two patches
that take part in an operation do not share memory. Line numbers below are those of the files for
Clawpack 5.
-/
set_option autoImplicit false
namespace Fclaw.Layout

open Fort Transform CopyGhost Transfer CoarseFine

/-- Memory, from the first element of an array. -/
abbrev Mem (α : Type) := ℤ → α

/-- Number of cells in a row, with ghost cells. -/
def width (d : Dims) : ℤ := d.mx + 2 * d.mbc

/-- Number of rows, with ghost cells. -/
def height (d : Dims) : ℤ := d.my + 2 * d.mbc

/-- Number of elements. -/
def size (d : Dims) : ℤ := width d * height d * d.meqn

/-- The position of `q(i,j,mq)`, declared `q(1-mbc:mx+mbc,1-mbc:my+mbc,meqn)`: the first index runs
fastest. -/
def pos46 (d : Dims) (c : Cell) : ℤ :=
  (c.1 - (1 - d.mbc)) + width d * ((c.2.1 - (1 - d.mbc)) + height d * (c.2.2 - 1))

/-- The position of `q(mq,i,j)`, declared `q(meqn,1-mbc:mx+mbc,1-mbc:my+mbc)`. A cell is written
`(i, j, mq)` in both cases. -/
def pos5 (d : Dims) (c : Cell) : ℤ :=
  (c.2.2 - 1) + d.meqn * ((c.1 - (1 - d.mbc)) + width d * (c.2.1 - (1 - d.mbc)))

/-- Reading `q(mq,i,j)`. -/
def rd5 {α : Type} (d : Dims) (q : Mem α) (mq i j : ℤ) : Option α :=
  if inBox d (i, j, mq) then some (q (pos5 d (i, j, mq))) else none

/-- `q(mq,i,j) = v`. -/
def wr5 {α : Type} (d : Dims) (q : Mem α) (mq i j : ℤ) (v : α) : Option (Mem α) :=
  if inBox d (i, j, mq) then some (fun p => if p = pos5 d (i, j, mq) then v else q p) else none

/-! ### Copies -/

/-- The body of the loops of `copy_face`, copy.f:41-45 (the same in all branches). -/
def copyCell5 {α : Type} (d : Dims) (A : Affine) (qneighbor : Mem α) (j1 i1 mq : ℤ) (qthis : Mem α) :
    Option (Mem α) :=
  let i2 := A.a11 * i1 + A.a12 * j1 + A.f1
  let j2 := A.a21 * i1 + A.a22 * j1 + A.f2
  (rd5 d qneighbor mq i2 j2).bind fun v => wr5 d qthis mq i1 j1 v

/-- `fclaw2d_clawpatch5_fort_copy_face`, copy.f:18-84. -/
def copyFace5 {α : Type} (d : Dims) (td : TData) (iface : Nat) (qneighbor qthis : Mem α) : Option (Mem α) :=
  (buildTransformSame d td).bind fun A =>
  let body := copyCell5 d A qneighbor
  let (mx, my, mbc) := ((d.mx : ℤ), (d.my : ℤ), (d.mbc : ℤ))
  if iface = 0 then
    doLoop 1 my (fun j1 => doLoop (1 - mbc) 0 fun i1 => doLoop 1 d.meqn fun mq => body j1 i1 mq) qthis
  else if iface = 1 then
    doLoop 1 my (fun j1 => doLoop (mx + 1) (mx + mbc) fun i1 => doLoop 1 d.meqn fun mq => body j1 i1 mq) qthis
  else if iface = 2 then
    doLoop (1 - mbc) 0 (fun j1 => doLoop 1 mx fun i1 => doLoop 1 d.meqn fun mq => body j1 i1 mq) qthis
  else if iface = 3 then
    doLoop (my + 1) (my + mbc) (fun j1 => doLoop 1 mx fun i1 => doLoop 1 d.meqn fun mq => body j1 i1 mq) qthis
  else some qthis

/-- `fclaw2d_clawpatch5_fort_copy_corner`, copy.f:94-132. -/
def copyCorner5 {α : Type} (d : Dims) (td : TData) (icorner : Nat) (qneighbor qthis : Mem α) :
    Option (Mem α) :=
  doLoop 1 d.meqn (fun mq => doLoop 1 d.mbc fun ibc => doLoop 1 d.mbc fun jbc => fun q =>
    let c1 := cornerCell d icorner ibc jbc
    (clawCorner d td c1.1 c1.2).bind fun c2 =>
    (rd5 d qneighbor mq c2.1 c2.2).bind fun v => wr5 d q mq c1.1 c1.2 v) qthis

/-! ### Averaging -/

/-- The value for a coarse cell, average.f:96-123 (the same at lines 151-171 and 247-269). -/
def averageCell5 (d : Dims) (areafine : Area) (manifold : Bool) (qfine : Mem ℚ) (c2 : ℤ → ℤ × ℤ) (mq : ℤ) :
    Option ℚ :=
  if manifold then
    (doLoop 0 3 (fun m (s : ℚ × ℚ) =>
      (rd5 d qfine mq (c2 m).1 (c2 m).2).bind fun qf =>
      (rdArea d areafine (c2 m).1 (c2 m).2).bind fun kf => some (s.1 + qf * kf, s.2 + kf)) ((0 : ℚ), (0 : ℚ))).bind
      fun s => divide s.1 s.2
  else
    (doLoop 0 3 (fun m s => (rd5 d qfine mq (c2 m).1 (c2 m).2).bind fun qf => some (s + qf)) (0 : ℚ)).bind
      fun s => some (s / 4)

/-- The body of the loops of `average_face`, average.f:68-124 and 133-172. -/
def averageFaceBody5 (d : Dims) (td : TData) (areafine : Area) (manifold : Bool) (qfine : Mem ℚ) (mq ic jc : ℤ)
    (qcoarse : Mem ℚ) : Option (Mem ℚ) :=
  (clawFaceHalf d td ic jc).bind fun c2 =>
  if validAverage d (c2 0).1 (c2 0).2 && validAverage d (c2 1).1 (c2 1).2 &&
     validAverage d (c2 2).1 (c2 2).2 && validAverage d (c2 3).1 (c2 3).2 then
    (averageCell5 d areafine manifold qfine c2 mq).bind fun v => wr5 d qcoarse mq ic jc v
  else some qcoarse

/-- `fclaw2d_clawpatch5_fort_average_face`, average.f:17-177, with `idir = iface_coarse/2`. -/
def averageFace5 (d : Dims) (td : TData) (iface : Nat) (areafine : Area) (manifold : Bool) (qfine qcoarse : Mem ℚ) :
    Option (Mem ℚ) :=
  if iface / 2 = 0 then
    doLoop 1 d.meqn (fun mq => doLoop 1 d.my fun jc => doLoop 1 d.mbc fun ibc =>
      averageFaceBody5 d td areafine manifold qfine mq (if iface = 0 then 1 - ibc else d.mx + ibc) jc) qcoarse
  else
    doLoop 1 d.meqn (fun mq => doLoop 1 d.mbc fun jbc => doLoop 1 d.mx fun ic =>
      averageFaceBody5 d td areafine manifold qfine mq ic (if iface = 2 then 1 - jbc else d.my + jbc)) qcoarse

/-- `fclaw2d_clawpatch5_fort_average_corner`, average.f:187-273. -/
def averageCorner5 (d : Dims) (td : TData) (icorner : Nat) (areafine : Area) (manifold : Bool)
    (qfine qcoarse : Mem ℚ) : Option (Mem ℚ) :=
  doLoop 1 d.mbc (fun ibc => doLoop 1 d.mbc fun jbc => fun q =>
    let c1 := cornerCell d icorner ibc jbc
    (clawCornerHalf d td c1.1 c1.2).bind fun c2 =>
    doLoop 1 d.meqn (fun mq => fun q =>
      (averageCell5 d areafine manifold qfine c2 mq).bind fun v => wr5 d q mq c1.1 c1.2 v) q) qcoarse

/-- The value for one cell, average.f:345-361. -/
def averageChild5 (d : Dims) (qfine : Mem ℚ) (areacoarse areafine : Area) (manifold : ℤ) (i1 j1 i j mq : ℤ) :
    Option ℚ :=
  if manifold = 1 then
    (doLoop 0 3 (fun m s =>
      (rd5 d qfine mq (fineI i m) (fineJ j m)).bind fun qf =>
      (rdArea d areafine (fineI i m) (fineJ j m)).bind fun kf => some (s + kf * qf)) (0 : ℚ)).bind fun sum =>
    (rdArea d areacoarse i1 j1).bind fun kc => divide sum kc
  else
    (doLoop 0 3 (fun m s =>
      (rd5 d qfine mq (fineI i m) (fineJ j m)).bind fun qf => some (s + qf)) (0 : ℚ)).bind fun sum =>
    some (sum / 4)

/-- `fclaw2d_clawpatch5_fort_average2coarse`, average.f:283-365. Note `mx` in `jc_add` (line 329). -/
def average2coarse5 (d : Dims) (areacoarse areafine : Area) (igrid manifold : ℤ) (qfine qcoarse : Mem ℚ) :
    Option (Mem ℚ) :=
  let ig := igrid % 2
  let jg := (igrid - ig) / 2
  let ic_add := ig * d.mx / 2
  let jc_add := jg * d.mx / 2
  doLoop 1 d.meqn (fun mq => doLoop 1 ((d.my : ℤ) / 2) fun j => doLoop 1 ((d.mx : ℤ) / 2) fun i => fun q =>
    (averageChild5 d qfine areacoarse areafine manifold (i + ic_add) (j + jc_add) i j mq).bind fun v =>
      wr5 d q mq (i + ic_add) (j + jc_add) v) qcoarse

/-- `clawpatch_average2coarse`, fclaw2d_clawpatch.cpp:966-1016. -/
def coarsen5 (d : Dims) (areacoarse : Area) (areafine : ℤ → Area) (manifold : ℤ) (qfine : ℤ → Mem ℚ)
    (qcoarse : Mem ℚ) : Option (Mem ℚ) :=
  doLoop 0 3 (fun igrid => average2coarse5 d areacoarse (areafine igrid) igrid manifold (qfine igrid)) qcoarse

/-! ### Interpolation -/

/-- Coarse value and limited differences, interpolate.f:117-127 (the same at lines 170-178, 281-293 and
355-366). -/
def slopes5 (d : Dims) (qcoarse : Mem ℚ) (ic jc mq : ℤ) : Option (ℚ × ℚ × ℚ) :=
  (rd5 d qcoarse mq ic jc).bind fun qc =>
  (rd5 d qcoarse mq (ic - 1) jc).bind fun ql =>
  (rd5 d qcoarse mq (ic + 1) jc).bind fun qr =>
  (rd5 d qcoarse mq ic (jc - 1)).bind fun qb =>
  (rd5 d qcoarse mq ic (jc + 1)).bind fun qt =>
  some (qc, computeSlopes (qc - ql) (qr - qc), computeSlopes (qc - qb) (qt - qc))

/-- Values for the four children of a coarse cell, interpolate.f:129-134 (the same at lines 180-185 and
294-299). -/
def spreadCell5 (d : Dims) (A : Matrix) (c2 : ℤ → ℤ × ℤ) (mq : ℤ) (s : ℚ × ℚ × ℚ) (qfine : Mem ℚ) :
    Option (Mem ℚ) :=
  doLoop 0 3 (fun m => fun q =>
    wr5 d q mq ((c2 0).1 + (df A m).1) ((c2 0).2 + (df A m).2)
      (s.1 + shiftHalf (m % 2) * s.2.1 + shiftHalf (m / 2) * s.2.2)) qfine

/-- The body of the loops of `interpolate_face`, interpolate.f:103-135 and 148-187. -/
def interpFaceBody5 (d : Dims) (td : TData) (A : Matrix) (qcoarse : Mem ℚ) (mq ic jc : ℤ) (qfine : Mem ℚ) :
    Option (Mem ℚ) :=
  (clawFaceHalf d td ic jc).bind fun c2 =>
  if validInterp d (c2 0).1 (c2 0).2 && validInterp d (c2 1).1 (c2 1).2 &&
     validInterp d (c2 2).1 (c2 2).2 && validInterp d (c2 3).1 (c2 3).2 then
    (slopes5 d qcoarse ic jc mq).bind fun s => spreadCell5 d A c2 mq s qfine
  else some qfine

/-- `fclaw2d_clawpatch5_fort_interpolate_face`, interpolate.f:29-192, with `idir = iface_coarse/2`. There is
no loop over layers of coarse cells: only the outermost one is used (lines 93-101 and 138-146). -/
def interpolateFace5 (d : Dims) (td : TData) (iface : Nat) (qcoarse qfine : Mem ℚ) : Option (Mem ℚ) :=
  (buildTransform d td).bind fun A =>
  doLoop 1 d.meqn (fun mq =>
    if iface / 2 = 0 then
      doLoop 1 d.mx fun jc => interpFaceBody5 d td A qcoarse mq (if iface = 0 then 1 else d.mx) jc
    else
      doLoop 1 d.mx fun ic => interpFaceBody5 d td A qcoarse mq ic (if iface = 2 then 1 else d.my)) qfine

/-- `(ic, jc)` in `interpolate_corner`, interpolate.f:256-272. -/
def innerCell5 (d : Dims) (icorner : Nat) : ℤ × ℤ :=
  if icorner = 0 then (1, 1)
  else if icorner = 1 then (d.mx, 1)
  else if icorner = 2 then (1, d.my)
  else (d.mx, d.my)

/-- `fclaw2d_clawpatch5_fort_interpolate_corner`, interpolate.f:201-303. -/
def interpolateCorner5 (d : Dims) (td : TData) (icorner : Nat) (qcoarse qfine : Mem ℚ) : Option (Mem ℚ) :=
  (buildTransform d td).bind fun A =>
  let c1 := innerCell5 d icorner
  (clawCornerHalf d td c1.1 c1.2).bind fun c2 =>
  doLoop 1 d.meqn (fun mq => fun q =>
    (slopes5 d qcoarse c1.1 c1.2 mq).bind fun s => spreadCell5 d A c2 mq s q) qfine

/-- The first part of `fclaw2d_clawpatch5_fort_interpolate2fine`, interpolate.f:312-379. -/
def interpolate5 (d : Dims) (igrid : ℤ) (qcoarse qfine : Mem ℚ) : Option (Mem ℚ) :=
  let ig := igrid % 2
  let jg := (igrid - ig) / 2
  let i1 := 1 - ig
  let i2 := (d.mx : ℤ) / 2 + (1 - ig)
  let ic_add := ig * d.mx / 2
  let j1 := 1 - jg
  let j2 := (d.my : ℤ) / 2 + (1 - jg)
  let jc_add := jg * d.my / 2
  doLoop 1 d.meqn (fun mq => doLoop i1 i2 fun i => doLoop j1 j2 fun j => fun q =>
    (slopes5 d qcoarse (i + ic_add) (j + jc_add) mq).bind fun s =>
    doLoop 1 2 (fun ii => doLoop 1 2 fun jj => fun q =>
      wr5 d q mq ((i - 1) * 2 + ii) ((j - 1) * 2 + jj) (s.1 + shift ii * s.2.1 + shift jj * s.2.2)) q) qfine

/-- The mass of the four fine cells, interpolate.f:442-451. -/
def fineSum5 (d : Dims) (areafine : Area) (i j m : ℤ) (q : Mem ℚ) : Option ℚ :=
  doLoop 1 2 (fun ii => doLoop 1 2 fun jj => fun s =>
    (rdArea d areafine ((i - 1) * 2 + ii) ((j - 1) * 2 + jj)).bind fun kf =>
    (rd5 d q m ((i - 1) * 2 + ii) ((j - 1) * 2 + jj)).bind fun qf => some (s + kf * qf)) (0 : ℚ)

/-- The correction of the four fine cells, lines 457-465. -/
def spread5 (d : Dims) (areafine : Area) (i j m : ℤ) (cons_diff : ℚ) (q : Mem ℚ) : Option (Mem ℚ) :=
  doLoop 1 2 (fun ii => doLoop 1 2 fun jj => fun q =>
    (rdArea d areafine ((i - 1) * 2 + ii) ((j - 1) * 2 + jj)).bind fun kf =>
    (rd5 d q m ((i - 1) * 2 + ii) ((j - 1) * 2 + jj)).bind fun qf =>
    (divide cons_diff kf).bind fun c =>
    wr5 d q m ((i - 1) * 2 + ii) ((j - 1) * 2 + jj) (qf + c)) q

/-- `fclaw2d_clawpatch5_fort_fixcapaq2`, lines 406-470. -/
def fixcapaq5 (d : Dims) (areacoarse areafine : Area) (igrid : ℤ) (qcoarse qfine : Mem ℚ) : Option (Mem ℚ) :=
  let ig := igrid % 2
  let jg := (igrid - ig) / 2
  let ic_add := ig * d.mx / 2
  let jc_add := jg * d.my / 2
  doLoop 1 d.meqn (fun m => doLoop 1 ((d.mx : ℤ) / 2) fun i => doLoop 1 ((d.my : ℤ) / 2) fun j => fun q =>
    (fineSum5 d areafine i j m q).bind fun sum =>
    (rdArea d areacoarse (i + ic_add) (j + jc_add)).bind fun kc =>
    (rd5 d qcoarse m (i + ic_add) (j + jc_add)).bind fun qc =>
    spread5 d areafine i j m ((qc * kc - sum) / 4) q) qfine

/-- `fclaw2d_clawpatch5_fort_interpolate2fine` with its last part, lines 381-385. -/
def interpolate2fine5 (d : Dims) (areacoarse areafine : Area) (igrid manifold : ℤ) (qcoarse qfine : Mem ℚ) :
    Option (Mem ℚ) :=
  (interpolate5 d igrid qcoarse qfine).bind fun q =>
  if manifold ≠ 0 then fixcapaq5 d areacoarse areafine igrid qcoarse q else some q

/-- `clawpatch_interpolate2fine`, fclaw2d_clawpatch.cpp:916-963: the grids of the four children. -/
def refine5 (d : Dims) (areacoarse : Area) (areafine : ℤ → Area) (manifold : ℤ) (qcoarse : Mem ℚ)
    (qfine : ℤ → Mem ℚ) : Option (ℤ → Mem ℚ) :=
  doLoop 0 3 (fun igrid fs =>
    (interpolate2fine5 d areacoarse (areafine igrid) igrid manifold qcoarse (fs igrid)).map fun q =>
      fun g => if g = igrid then q else fs g) qfine

/-! ### Interpolation in time -/

/-- The interpolated solution, and `k`. -/
structure TimeSt where
  q : Mem ℚ
  k : ℤ

/-- timeinterp.f:40-42. -/
def timeCell5 (d : Dims) (qcurr qlast : Mem ℚ) (alpha : ℚ) (m i j : ℤ) (s : TimeSt) : Option TimeSt :=
  (rd5 d qlast m i j).bind fun l => (rd5 d qcurr m i j).bind fun r =>
  (wr5 d s.q m i j (l + alpha * (r - l))).bind fun q => some ⟨q, s.k + 1⟩

/-- `fclaw2d_clawpatch5_fort_timeinterp`, timeinterp.f:11-79: the interpolated solution and `ierror`. Two
layers of cells, whatever the number of ghost cells (`mint = 2`, line 26). -/
def timeinterp5 (d : Dims) (psize : ℤ) (qcurr qlast : Mem ℚ) (alpha : ℚ) (qinterp : Mem ℚ) : Option (Mem ℚ × ℤ) :=
  let mint : ℤ := 2
  let ng : ℤ := 0
  let at' := timeCell5 d qcurr qlast alpha
  (doLoop 1 d.meqn (fun m s =>
    (doLoop (1 - ng) (d.my - mint) (fun j => doLoop (1 - ng) mint fun i => at' m i j) s).bind fun s =>
    (doLoop (1 - ng) mint (fun j => doLoop (mint + 1) (d.mx + ng) fun i => at' m i j) s).bind fun s =>
    (doLoop (mint + 1) (d.my + ng) (fun j => doLoop (d.mx - mint + 1) (d.mx + ng) fun i => at' m i j) s).bind fun s =>
    doLoop (d.my - mint + 1) (d.my + ng) (fun j => doLoop (1 - ng) (d.mx - mint) fun i => at' m i j) s)
    ⟨qinterp, 1⟩).bind fun s =>
  some (s.q, if s.k - 1 ≠ psize then 2 else 0)

/-- `clawpatch_setup_timeinterp`, fclaw2d_clawpatch.cpp:472-526. -/
def setupTimeinterp5 (d : Dims) (interpWidth : Nat) (qcurr qlast : Mem ℚ) (alpha : ℚ) (qinterp : Mem ℚ) :
    Option (Mem ℚ × ℤ) :=
  (TimeInterp.announced d interpWidth).bind fun psize => timeinterp5 d psize qcurr qlast alpha qinterp

/-! ### Packing for other processes -/

open GhostPack (Loc Data Buf)

/-- All memory of a patch that takes part: the solution, and areas and registers as in
`Verif.GhostPack.Model`. -/
structure Patch5 (α : Type) where
  q : Mem α
  rest : Data α

def Patch5.get {α : Type} (d : Dims) (p : Patch5 α) : Loc → α
  | .q i j mq => p.q (pos5 d (i, j, mq))
  | l => p.rest l

def Patch5.set {α : Type} (d : Dims) (p : Patch5 α) (l : Loc) (v : α) : Patch5 α :=
  match l with
  | .q i j mq => { p with q := fun x => if x = pos5 d (i, j, mq) then v else p.q x }
  | l => { p with rest := fun l' => if l' = l then v else p.rest l' }

structure PackSt (α : Type) where
  k : ℤ
  data : Patch5 α
  buf : Buf α

/-- `qpack(k) = …` or `… = qpack(k)`, then `k = k + 1`. `n` is the size of the buffer. -/
def move5 {α : Type} (d : Dims) (n : ℤ) (pack : Bool) (l : Loc) (s : PackSt α) : Option (PackSt α) :=
  if GhostPack.valid d l = true ∧ 0 ≤ s.k ∧ s.k < n then
    if pack then some ⟨s.k + 1, s.data, fun p => if p = s.k then s.data.get d l else s.buf p⟩
    else some ⟨s.k + 1, s.data.set d l (s.buf s.k), s.buf⟩
  else none

/-- The four loops around the patch, local_ghost_pack.f:42-88 and 103-148. -/
def ring5 {α : Type} (d : Dims) (nghost mint n : ℤ) (pack : Bool) (mk : ℤ → ℤ → Loc) (s : PackSt α) :
    Option (PackSt α) :=
  (doLoop (1 - nghost) (d.my - mint) (fun j => doLoop (1 - nghost) mint fun i => move5 d n pack (mk i j)) s).bind fun s =>
  (doLoop (1 - nghost) mint (fun j => doLoop (mint + 1) (d.mx + nghost) fun i => move5 d n pack (mk i j)) s).bind fun s =>
  (doLoop (mint + 1) (d.my + nghost) (fun j => doLoop (d.mx - mint + 1) (d.mx + nghost) fun i =>
    move5 d n pack (mk i j)) s).bind fun s =>
  doLoop (d.my - mint + 1) (d.my + nghost) (fun j => doLoop (1 - nghost) (d.mx - mint) fun i => move5 d n pack (mk i j)) s

/-- `fclaw2d_clawpatch5_fort_local_ghost_pack`, local_ghost_pack.f:11-155: the new state and `ierror`. Two
layers of ghost cells, whatever their number is (`nghost = 2`, line 39). -/
def localGhostPack5 {α : Type} (d : Dims) (mint psize n packmode : ℤ) (s : PackSt α) : Option (PackSt α × ℤ) :=
  if packmode ≠ 0 ∧ packmode ≠ 1 ∧ packmode ≠ 2 ∧ packmode ≠ 3 then some (s, 1)
  else
    let pack := decide (packmode = 0 ∨ packmode = 2)
    let nghost : ℤ := 2
    (doLoop 1 d.meqn (fun mq => ring5 d nghost mint n pack fun i j => .q i j mq) s).bind fun s =>
    if packmode ≠ 2 ∧ packmode ≠ 3 then some (s, if s.k ≠ psize then 2 else 0)
    else
      (ring5 d nghost mint n pack .area s).bind fun s => some (s, if s.k ≠ psize then 2 else 0)

/-- `fclaw2d_clawpatch_time_sync_pack_registers`, fclaw2d_clawpatch_conservation.c:111-196. -/
def packRegisters5 {α : Type} (d : Dims) (frsize n : ℤ) (pack : Bool) (s : PackSt α) : Option (PackSt α × ℤ) :=
  let start := s.k
  (doLoop 0 3 (fun k s =>
    if k / 2 = 0 then
      (doLoop 0 (d.meqn * d.my - 1) (fun j s =>
        (move5 d n pack (.fm k j) s).bind fun s =>
        (move5 d n pack (.fp k j) s).bind fun s =>
        (move5 d n pack (.edgeFlux k j) s).bind fun s =>
        move5 d n pack (.edgeFlux k (j + d.meqn * d.my)) s) s).bind fun s =>
      doLoop 0 (d.my - 1) (fun j s =>
        (move5 d n pack (.edgeLength k j) s).bind fun s => move5 d n pack (.edgeArea k j) s) s
    else if k / 2 = 1 then
      (doLoop 0 (d.meqn * d.mx - 1) (fun i s =>
        (move5 d n pack (.gm (k - 2) i) s).bind fun s =>
        (move5 d n pack (.gp (k - 2) i) s).bind fun s =>
        (move5 d n pack (.edgeFlux k i) s).bind fun s =>
        move5 d n pack (.edgeFlux k (i + d.meqn * d.mx)) s) s).bind fun s =>
      doLoop 0 (d.mx - 1) (fun i s =>
        (move5 d n pack (.edgeLength k i) s).bind fun s => move5 d n pack (.edgeArea k i) s) s
    else some s) s).bind fun s =>
  some (s, if s.k - start = frsize then 0 else 1)

/-- `clawpatch_ghost_comm`, fclaw2d_clawpatch.cpp:1072-1188, on a buffer of the announced size. -/
def ghostComm5 {α : Type} (d : Dims) (o : GhostPack.Opts) (packmode : ℤ) (data : Patch5 α) (buf : Buf α) :
    Option (Patch5 α × Buf α) :=
  let packarea := packmode / 2
  let mint := o.refratio * d.mbc
  (GhostPack.packElems d o).bind fun n =>
  if GhostPack.hole d o < 0 then none
  else
    let psize := (GhostPack.whole d - GhostPack.hole d o) * (d.meqn + packarea) + GhostPack.frsize d o
    if ¬ 0 < psize then none
    else if psize ≠ n then none
    else
      let qareasize := (GhostPack.whole d - GhostPack.hole d o) * (d.meqn + packarea)
      (localGhostPack5 d mint qareasize n packmode ⟨0, data, buf⟩).bind fun r =>
      if r.2 ≠ 0 then none
      else if o.timeSync then
        if ¬ 0 < GhostPack.frsize d o then none
        else
          (packRegisters5 d (GhostPack.frsize d o) n (decide (packmode % 2 = 0))
            ⟨qareasize, r.1.data, r.1.buf⟩).bind fun r =>
          if r.2 ≠ 0 then none else some (r.1.data, r.1.buf)
      else some (r.1.data, r.1.buf)

/-- `clawpatch_local_ghost_pack`. -/
def localPack5 {α : Type} (d : Dims) (o : GhostPack.Opts) (data : Patch5 α) (buf : Buf α) :
    Option (Patch5 α × Buf α) :=
  ghostComm5 d o (2 * o.area) data buf

/-- `clawpatch_remote_ghost_unpack`. -/
def remoteUnpack5 {α : Type} (d : Dims) (o : GhostPack.Opts) (data : Patch5 α) (buf : Buf α) :
    Option (Patch5 α × Buf α) :=
  ghostComm5 d o (2 * o.area + 1) data buf

/-! ### Physical boundary conditions -/

/-- `q(m,i,j) = q(m,i',j')`. -/
def copy5 (d : Dims) (m i j i' j' : ℤ) (q : Mem ℚ) : Option (Mem ℚ) :=
  match rd5 d q m i' j' with
  | some v => wr5 d q m i j v
  | none => none

/-- `q(m,i,j) = -q(m,i',j')`. -/
def negate5 (d : Dims) (m i j i' j' : ℤ) (q : Mem ℚ) : Option (Mem ℚ) :=
  match rd5 d q m i' j' with
  | some v => wr5 d q m i j (-v)
  | none => none

/-- bc2_default.f:30-36, 48-54, 79-85, 97-103. -/
def xSide5 (d : Dims) (dst src : ℤ → ℤ) : Mem ℚ → Option (Mem ℚ) :=
  doLoop 1 d.meqn fun m => doLoop 1 d.mbc fun ibc => doLoop (1 - d.mbc) (d.my + d.mbc) fun j =>
    copy5 d m (dst ibc) j (src ibc) j

/-- bc2_default.f:56-60, 105-109. -/
def xNegate5 (d : Dims) (dst src : ℤ → ℤ) : Mem ℚ → Option (Mem ℚ) :=
  doLoop 1 d.mbc fun ibc => doLoop (1 - d.mbc) (d.my + d.mbc) fun j =>
    negate5 d 2 (dst ibc) j (src ibc) j

/-- bc2_default.f:128-134, 146-152, 177-183, 195-201. -/
def ySide5 (d : Dims) (dst src : ℤ → ℤ) : Mem ℚ → Option (Mem ℚ) :=
  doLoop 1 d.meqn fun m => doLoop 1 d.mbc fun jbc => doLoop (1 - d.mbc) (d.mx + d.mbc) fun i =>
    copy5 d m i (dst jbc) i (src jbc)

/-- bc2_default.f:154-158, 203-207. -/
def yNegate5 (d : Dims) (dst src : ℤ → ℤ) : Mem ℚ → Option (Mem ℚ) :=
  doLoop 1 d.mbc fun jbc => doLoop (1 - d.mbc) (d.mx + d.mbc) fun i =>
    negate5 d 3 i (dst jbc) i (src jbc)

open Bc (Out ofOption)

/-- The computed `go to` at the start of each side. -/
def select5 (mth : ℤ) (extrap wall : Mem ℚ → Option (Mem ℚ)) (q : Mem ℚ) : Out (Mem ℚ) :=
  if mth = 0 then .stop
  else if mth = 1 then ofOption (extrap q)
  else if mth = 2 then .stop
  else if mth = 3 then ofOption (wall q)
  else .ok q

def left5 (d : Dims) (mth : ℤ) : Mem ℚ → Out (Mem ℚ) :=
  select5 mth (xSide5 d (fun b => 1 - b) (fun _ => 1))
    (fun q => (xSide5 d (fun b => 1 - b) (fun b => b) q).bind (xNegate5 d (fun b => 1 - b) (fun b => b)))

def right5 (d : Dims) (mth : ℤ) : Mem ℚ → Out (Mem ℚ) :=
  select5 mth (xSide5 d (fun b => d.mx + b) (fun _ => d.mx))
    (fun q => (xSide5 d (fun b => d.mx + b) (fun b => d.mx + 1 - b) q).bind
      (xNegate5 d (fun b => d.mx + b) (fun b => d.mx + 1 - b)))

def bottom5 (d : Dims) (mth : ℤ) : Mem ℚ → Out (Mem ℚ) :=
  select5 mth (ySide5 d (fun b => 1 - b) (fun _ => 1))
    (fun q => (ySide5 d (fun b => 1 - b) (fun b => b) q).bind (yNegate5 d (fun b => 1 - b) (fun b => b)))

def top5 (d : Dims) (mth : ℤ) : Mem ℚ → Out (Mem ℚ) :=
  select5 mth (ySide5 d (fun b => d.my + b) (fun _ => d.my))
    (fun q => (ySide5 d (fun b => d.my + b) (fun b => d.my + 1 - b) q).bind
      (yNegate5 d (fun b => d.my + b) (fun b => d.my + 1 - b)))

/-- `clawpack5_bc2_default`. -/
def bc2Default5 (d : Dims) (mthbc : Nat → ℤ) (q : Mem ℚ) : Out (Mem ℚ) :=
  (left5 d (mthbc 0) q).bind fun q => (right5 d (mthbc 1) q).bind fun q =>
    (bottom5 d (mthbc 2) q).bind (top5 d (mthbc 3))

/-! ### Tagging -/

open Tag (Env Shared Args tagCriteria isGhost)

/-- A patch: its solution and its lower left corner. -/
structure TagPatch5 where
  q : Mem ℚ
  xlower : ℚ
  ylower : ℚ

/-- The variables of tag4refinement.f:22-26: `qmin`, `qmax` are scalars, `quad(-1:1,-1:1)` has no third
index. -/
structure RefScan where
  qmin : ℚ
  qmax : ℚ
  quad : ℤ → ℤ → Option ℚ
  found : Bool

/-- An array argument that is a scalar: only its first element exists. -/
def scalarArg (x : ℚ) : ℤ → Option ℚ := fun k => if k = 1 then some x else none

/-- The body of the loops, tag4refinement.f:36-59. The actual argument `q(mq,i,j)` for the array `qval` is
the first of the components of this cell. -/
def refStep5 (env : Env) (sh : Shared) (p : TagPatch5) (i j : ℤ) (s : RefScan) : Option RefScan :=
  if s.found then some s
  else
    (rd5 sh.dims p.q 1 i j).bind fun v =>
    let qmin := min v s.qmin
    let qmax := max v s.qmax
    (if isGhost sh.dims i j then some s.quad
      else doLoop (-1) 1 (fun ii => doLoop (-1) 1 fun jj => fun quad =>
        (rd5 sh.dims p.q 1 (i + ii) (j + jj)).map fun w =>
          fun a b => if a = ii ∧ b = jj then some w else quad a b) s.quad).bind fun quad =>
    (tagCriteria env
      { blockno := sh.blockno, meqn := sh.dims.meqn, qval := fun k => rd5 sh.dims p.q k i j,
        qmin := scalarArg qmin, qmax := scalarArg qmax,
        quad := fun a b c => if c = 1 then quad a b else none, dx := sh.dx, dy := sh.dy,
        xc := p.xlower + (i - 1 / 2) * sh.dx, yc := p.ylower + (j - 1 / 2) * sh.dy,
        ivar := env.ivar, threshold := sh.threshold, initFlag := sh.initFlag,
        isGhost := isGhost sh.dims i j }).bind fun r =>
    some ⟨qmin, qmax, quad, decide (r > 0)⟩

/-- `fclaw2d_clawpatch5_fort_tag4refinement`, tag4refinement.f:11-63: the value of `tag_patch`. -/
def fortTag4refinement5 (env : Env) (sh : Shared) (p : TagPatch5) : Option ℤ :=
  let d := sh.dims
  (rd5 d p.q 1 1 1).bind fun v =>
  (doLoop (1 - d.mbc) (d.my + d.mbc) (fun j =>
    doLoop (1 - d.mbc) (d.mx + d.mbc) fun i => refStep5 env sh p i j) ⟨v, v, fun _ _ => none, false⟩).bind fun s =>
  some (if s.found then 1 else 0)

/-- tag4coarsening.f:37-40. -/
def firstStep5 (d : Dims) (q : Mem ℚ) (mq : ℤ) (s : Tag.Scan) : Option Tag.Scan :=
  match rd5 d q mq 1 1 with
  | some v => some { s with qmin := Tag.setAt s.qmin mq v, qmax := Tag.setAt s.qmax mq v }
  | none => none

/-- tag4coarsening.f:106-110. -/
def componentStep5 (d : Dims) (q : Mem ℚ) (i j mq : ℤ) (s : Tag.Scan) : Option Tag.Scan :=
  match rd5 d q mq i j, s.qmin mq, s.qmax mq with
  | some v, some lo, some hi =>
    some { s with
      qval := Tag.setAt s.qval mq v
      qmin := Tag.setAt s.qmin mq (min lo v)
      qmax := Tag.setAt s.qmax mq (max hi v) }
  | _, _, _ => none

/-- tag4coarsening.f:116. -/
def quadStep5 (d : Dims) (q : Mem ℚ) (i j ii jj mq : ℤ) (s : Tag.Scan) : Option Tag.Scan :=
  match rd5 d q mq (i + ii) (j + jj) with
  | some v =>
    some { s with
      quad := fun a b c => if a = ii ∧ b = jj ∧ c = mq then some v else s.quad a b c }
  | none => none

/-- tag4coarsening.f:113-119. -/
def fillQuad5 (d : Dims) (q : Mem ℚ) (i j : ℤ) : Tag.Scan → Option Tag.Scan :=
  doLoop (-1) 1 fun ii => doLoop (-1) 1 fun jj => doLoop 1 d.meqn fun mq => quadStep5 d q i j ii jj mq

/-- tag4coarsening.f:104-136. -/
def cellStep5 (env : Env) (sh : Shared) (p : TagPatch5) (i j : ℤ) (s : Tag.Scan) : Option Tag.Scan :=
  if s.found then some s
  else
    match doLoop 1 sh.dims.meqn (fun mq => componentStep5 sh.dims p.q i j mq) s with
    | none => none
    | some s1 =>
      match (if isGhost sh.dims i j then some s1 else fillQuad5 sh.dims p.q i j s1) with
      | none => none
      | some s2 =>
        match tagCriteria env
          { blockno := sh.blockno, meqn := sh.dims.meqn, qval := s2.qval, qmin := s2.qmin,
            qmax := s2.qmax, quad := s2.quad, dx := sh.dx, dy := sh.dy,
            xc := p.xlower + (i - 1 / 2) * sh.dx, yc := p.ylower + (j - 1 / 2) * sh.dy,
            ivar := env.ivar, threshold := sh.threshold, initFlag := sh.initFlag,
            isGhost := isGhost sh.dims i j } with
        | none => none
        | some r => some { s2 with found := decide (r > 0) }

/-- `fclaw2d_clawpatch5_test_refine`, tag4coarsening.f:85-139. -/
def testRefine5 (env : Env) (sh : Shared) (p : TagPatch5) (s : Tag.Scan) : Option Tag.Scan :=
  let d := sh.dims
  doLoop (1 - d.mbc) (d.mx + d.mbc) (fun i =>
    doLoop (1 - d.mbc) (d.my + d.mbc) fun j => cellStep5 env sh p i j)
    { s with qval := fun _ => none, quad := fun _ _ _ => none }

/-- tag4coarsening.f:46-64. -/
def testAll5 (env : Env) (sh : Shared) : List TagPatch5 → Tag.Scan → Option Tag.Scan
  | [], s => some s
  | p :: ps, s =>
    match testRefine5 env sh p s with
    | none => none
    | some s' => if s'.found then some s' else testAll5 env sh ps s'

/-- `fclaw2d_clawpatch5_fort_tag4coarsening`, tag4coarsening.f:11-65: the value of `tag_patch`. -/
def fortTag4coarsening5 (env : Env) (sh : Shared) (p0 p1 p2 p3 : TagPatch5) : Option ℤ :=
  let d := sh.dims
  if sh.initFlag ≠ 0 then some 0
  else
    match doLoop 1 d.meqn (firstStep5 d p0.q) Tag.Scan.unset with
    | none => none
    | some s =>
      match testAll5 env sh [p0, p1, p2, p3] s with
      | none => none
      | some s => some (if s.found then 0 else 1)

/-- `clawpatch_tag4refinement`, fclaw2d_clawpatch.cpp:799-850. -/
def tag4refinement5 (env : Env) (sh : Shared) (p : TagPatch5) : Option ℤ :=
  if sh.threshold < 0 then some 1 else fortTag4refinement5 env sh p

/-- `clawpatch_tag4coarsening`, fclaw2d_clawpatch.cpp:852-915. -/
def tag4coarsening5 (env : Env) (sh : Shared) (p0 p1 p2 p3 : TagPatch5) : Option Bool :=
  if sh.threshold > 0 then (fortTag4coarsening5 env sh p0 p1 p2 p3).map fun t => decide (t = 1)
  else some false

/-! ### Diagnostics -/

/-- A patch: solution, errors, areas, mesh widths. -/
structure DiagPatch5 where
  q : Mem ℚ
  error : Mem ℚ
  area : Option (ℤ → ℤ → ℚ)
  dx : ℚ
  dy : ℚ

/-- `fclaw2d_clawpatch5_fort_conservation_check`, diagnostics.f:13-49: `c_kahan`, which the caller passes,
is not a parameter. -/
def consCheck5 (mapped : Bool) (d : Dims) (p : DiagPatch5) (mass : Nat → ℚ) : Option (Nat → ℚ) :=
  doLoop 1 d.meqn (fun m =>
    if mapped then
      doLoop 1 d.my fun j => doLoop 1 d.mx fun i => fun sum =>
        (rd5 d p.q m i j).bind fun q => p.area.bind fun a =>
        some (Diag.setAt sum (Diag.idx m) (sum (Diag.idx m) + q * a i j))
    else
      doLoop 1 d.my fun j => doLoop 1 d.mx fun i => fun sum =>
        (rd5 d p.q m i j).bind fun q =>
        some (Diag.setAt sum (Diag.idx m) (sum (Diag.idx m) + q * p.dx * p.dy))) mass

/-- `fclaw2d_clawpatch5_fort_compute_error_norm`, diagnostics.f:98-145. -/
def errorNorm5 (mapped : Bool) (d : Dims) (p : DiagPatch5) (norm : Nat → ℚ) : Option (Nat → ℚ) :=
  doLoop 1 d.meqn (fun m => doLoop 1 d.my fun j => doLoop 1 d.mx fun i => fun norm =>
    (rd5 d p.error m i j).bind fun e =>
    (if mapped then p.area.map fun a => a i j else some (p.dx * p.dy)).bind fun area =>
    let eij := |e|
    let n1 := Diag.setAt norm (Diag.idx2 d.meqn m 1) (norm (Diag.idx2 d.meqn m 1) + eij * area)
    let n2 := Diag.setAt n1 (Diag.idx2 d.meqn m 2) (n1 (Diag.idx2 d.meqn m 2) + eij ^ 2 * area)
    some (Diag.setAt n2 (Diag.idx2 d.meqn m 3) (max eij (n2 (Diag.idx2 d.meqn m 3))))) norm

end Fclaw.Layout
