import Verif.CoarseFine.Model
import Verif.TimeInterp.Model
import Verif.GhostPack.Model
import Verif.Pillow.Model
/-
Model of the patch routines for extruded meshes: patches with `mz` layers of cells in a third direction, in which
the mesh is not refined.

* src/patches/clawpatch/fort3_4.6/fclaw3dx_clawpatch46_copy.f90, average.f90, interpolate.f90, timeinterp.f90,
  local_ghost_pack.f90 and pillowsphere.f90 (same prefix)
* src/patches/clawpatch/fclaw2d_clawpatch.cpp, compiled with PATCH_DIM 3 by fclaw3dx_clawpatch.cpp: the callers.
  With src/_fclaw2d_to_fclaw3d.h they pass the volumes of the cells where the 2D code passes areas.

The index transformations are the same C functions as in 2D: they act on `(i,j)`.

Simplifications: real numbers are rationals, without rounding. An array is a function of its indices together with
the bounds; an access outside of the bounds, a division by zero and a failing assertion are `none`. There are no extra fields
to pack.
-/
set_option autoImplicit false
namespace Fclaw.Extrude

open Fort Transform CopyGhost Transfer

/-- Sizes of a patch, with the number of layers. -/
structure Dims3 extends Dims where
  mz : Nat
  deriving DecidableEq, Repr

/-- Indices `(i, j, k, mq)`. -/
abbrev Cell3 := ℤ × ℤ × ℤ × ℤ

abbrev Grid3 (α : Type) := Cell3 → α

/-- The bounds `(1-mbc:mx+mbc,1-mbc:my+mbc,1-mbc:mz+mbc,meqn)`. -/
def inBox3 (D : Dims3) (c : Cell3) : Bool :=
  decide (1 - (D.mbc : ℤ) ≤ c.1) && decide (c.1 ≤ D.mx + D.mbc) &&
  decide (1 - (D.mbc : ℤ) ≤ c.2.1) && decide (c.2.1 ≤ D.my + D.mbc) &&
  decide (1 - (D.mbc : ℤ) ≤ c.2.2.1) && decide (c.2.2.1 ≤ D.mz + D.mbc) &&
  decide (1 ≤ c.2.2.2) && decide (c.2.2.2 ≤ D.meqn)

def rd3 {α : Type} (D : Dims3) (q : Grid3 α) (c : Cell3) : Option α :=
  if inBox3 D c then some (q c) else none

def wr3 {α : Type} (D : Dims3) (q : Grid3 α) (c : Cell3) (v : α) : Option (Grid3 α) :=
  if inBox3 D c then some (fun c' => if c' = c then v else q c') else none

/-- Volumes of the cells. -/
abbrev Vol := ℤ × ℤ × ℤ → ℚ

/-- The bounds `(-mbc:mx+mbc+1,-mbc:my+mbc+1,-mbc:mz+mbc+1)`. -/
def inVol (D : Dims3) (c : ℤ × ℤ × ℤ) : Bool :=
  decide (-(D.mbc : ℤ) ≤ c.1 ∧ c.1 ≤ D.mx + D.mbc + 1 ∧ -(D.mbc : ℤ) ≤ c.2.1 ∧ c.2.1 ≤ D.my + D.mbc + 1 ∧
    -(D.mbc : ℤ) ≤ c.2.2 ∧ c.2.2 ≤ D.mz + D.mbc + 1)

def rdVol (D : Dims3) (v : Vol) (i j k : ℤ) : Option ℚ := if inVol D (i, j, k) then some (v (i, j, k)) else none

/-! ### Copies -/

/-- copy.f90:35-37 (the same in all branches). -/
def copyCell3 {α : Type} (D : Dims3) (A : Affine) (qneighbor : Grid3 α) (mq k j1 i1 : ℤ) (qthis : Grid3 α) :
    Option (Grid3 α) :=
  let i2 := A.a11 * i1 + A.a12 * j1 + A.f1
  let j2 := A.a21 * i1 + A.a22 * j1 + A.f2
  (rd3 D qneighbor (i2, j2, k, mq)).bind fun v => wr3 D qthis (i1, j1, k, mq) v

/-- `fclaw3dx_clawpatch46_fort_copy_face`, copy.f90:12-85. -/
def copyFace3 {α : Type} (D : Dims3) (td : TData) (iface : Nat) (qneighbor qthis : Grid3 α) : Option (Grid3 α) :=
  (buildTransformSame D.toDims td).bind fun A =>
  let body := copyCell3 D A qneighbor
  let (mx, my, mbc) := ((D.mx : ℤ), (D.my : ℤ), (D.mbc : ℤ))
  if iface = 0 then
    doLoop 1 D.meqn (fun mq => doLoop 1 D.mz fun k => doLoop 1 my fun j1 => doLoop (1 - mbc) 0 fun i1 =>
      body mq k j1 i1) qthis
  else if iface = 1 then
    doLoop 1 D.meqn (fun mq => doLoop 1 D.mz fun k => doLoop 1 my fun j1 => doLoop (mx + 1) (mx + mbc) fun i1 =>
      body mq k j1 i1) qthis
  else if iface = 2 then
    doLoop 1 D.meqn (fun mq => doLoop 1 D.mz fun k => doLoop (1 - mbc) 0 fun j1 => doLoop 1 mx fun i1 =>
      body mq k j1 i1) qthis
  else if iface = 3 then
    doLoop 1 D.meqn (fun mq => doLoop 1 D.mz fun k => doLoop (my + 1) (my + mbc) fun j1 => doLoop 1 mx fun i1 =>
      body mq k j1 i1) qthis
  else some qthis

/-- `fclaw3dx_clawpatch46_fort_copy_corner`, copy.f90:87-127. -/
def copyCorner3 {α : Type} (D : Dims3) (td : TData) (icorner : Nat) (qneighbor qthis : Grid3 α) : Option (Grid3 α) :=
  doLoop 1 D.meqn (fun mq => doLoop 1 D.mz fun k => doLoop 1 D.mbc fun ibc => doLoop 1 D.mbc fun jbc => fun q =>
    let c1 := cornerCell D.toDims icorner ibc jbc
    (clawCorner D.toDims td c1.1 c1.2).bind fun c2 =>
    (rd3 D qneighbor (c2.1, c2.2, k, mq)).bind fun v => wr3 D q (c1.1, c1.2, k, mq) v) qthis

/-! ### Ghost cells from smaller patches -/

/-- average.f90:101-121 (the same at lines 139-157 and 227-247): a mean of four cells, weighted with volumes on a mapped
mesh. -/
def averageCell3 (D : Dims3) (volfine : Vol) (manifold : Bool) (qfine : Grid3 ℚ) (c2 : ℤ → ℤ × ℤ) (mq k : ℤ) : Option ℚ :=
  if manifold then
    (doLoop 0 3 (fun m (s : ℚ × ℚ) =>
      (rd3 D qfine ((c2 m).1, (c2 m).2, k, mq)).bind fun qf =>
      (rdVol D volfine (c2 m).1 (c2 m).2 k).bind fun kf => some (s.1 + qf * kf, s.2 + kf)) ((0 : ℚ), (0 : ℚ))).bind
      fun s => divide s.1 s.2
  else
    (doLoop 0 3 (fun m s => (rd3 D qfine ((c2 m).1, (c2 m).2, k, mq)).bind fun qf => some (s + qf)) (0 : ℚ)).bind
      fun s => some (s / 4)

/-- The body of the loops of `average_face`, average.f90:85-122 and 133-159. -/
def averageFaceBody3 (D : Dims3) (td : TData) (volfine : Vol) (manifold : Bool) (qfine : Grid3 ℚ) (mq k ic jc : ℤ)
    (qcoarse : Grid3 ℚ) : Option (Grid3 ℚ) :=
  (CoarseFine.clawFaceHalf D.toDims td ic jc).bind fun c2 =>
  if CoarseFine.validAverage D.toDims (c2 0).1 (c2 0).2 && CoarseFine.validAverage D.toDims (c2 1).1 (c2 1).2 &&
     CoarseFine.validAverage D.toDims (c2 2).1 (c2 2).2 && CoarseFine.validAverage D.toDims (c2 3).1 (c2 3).2 then
    (averageCell3 D volfine manifold qfine c2 mq k).bind fun v => wr3 D qcoarse (ic, jc, k, mq) v
  else some qcoarse

/-- `fclaw3dx_clawpatch46_fort_average_face`, average.f90:29-165, with `idir = iface_coarse/2`. -/
def averageFace3 (D : Dims3) (td : TData) (iface : Nat) (volfine : Vol) (manifold : Bool) (qfine qcoarse : Grid3 ℚ) :
    Option (Grid3 ℚ) :=
  doLoop 1 D.meqn (fun mq => doLoop 1 D.mz fun k =>
    if iface / 2 = 0 then
      doLoop 1 D.my fun jc => doLoop 1 D.mbc fun ibc =>
        averageFaceBody3 D td volfine manifold qfine mq k (if iface = 0 then 1 - ibc else D.mx + ibc) jc
    else
      doLoop 1 D.mbc fun jbc => doLoop 1 D.mx fun ic =>
        averageFaceBody3 D td volfine manifold qfine mq k ic (if iface = 2 then 1 - jbc else D.my + jbc)) qcoarse

/-- `fclaw3dx_clawpatch46_fort_average_corner`, average.f90:171-252. The loops are nested in another order than in 2D. -/
def averageCorner3 (D : Dims3) (td : TData) (icorner : Nat) (volfine : Vol) (manifold : Bool) (qfine qcoarse : Grid3 ℚ) :
    Option (Grid3 ℚ) :=
  doLoop 1 D.meqn (fun mq => doLoop 1 D.mz fun k => doLoop 1 D.mbc fun ibc => doLoop 1 D.mbc fun jbc => fun q =>
    let c1 := cornerCell D.toDims icorner ibc jbc
    (CoarseFine.clawCornerHalf D.toDims td c1.1 c1.2).bind fun c2 =>
    (averageCell3 D volfine manifold qfine c2 mq k).bind fun v => wr3 D q (c1.1, c1.2, k, mq) v) qcoarse

/-! ### Ghost cells from larger patches -/

/-- Coarse value and limited differences, interpolate.f90:111-122 (the same at lines 162-170, 272-283 and 346-357). -/
def slopes3 (D : Dims3) (qcoarse : Grid3 ℚ) (ic jc k mq : ℤ) : Option (ℚ × ℚ × ℚ) :=
  (rd3 D qcoarse (ic, jc, k, mq)).bind fun qc =>
  (rd3 D qcoarse (ic - 1, jc, k, mq)).bind fun ql =>
  (rd3 D qcoarse (ic + 1, jc, k, mq)).bind fun qr =>
  (rd3 D qcoarse (ic, jc - 1, k, mq)).bind fun qb =>
  (rd3 D qcoarse (ic, jc + 1, k, mq)).bind fun qt =>
  some (qc, computeSlopes (qc - ql) (qr - qc), computeSlopes (qc - qb) (qt - qc))

/-- interpolate.f90:124-129 (the same at lines 172-177 and 285-290). -/
def spreadCell3 (D : Dims3) (A : CoarseFine.Matrix) (c2 : ℤ → ℤ × ℤ) (mq k : ℤ) (s : ℚ × ℚ × ℚ) (qfine : Grid3 ℚ) :
    Option (Grid3 ℚ) :=
  doLoop 0 3 (fun m => fun q =>
    wr3 D q ((c2 0).1 + (CoarseFine.df A m).1, (c2 0).2 + (CoarseFine.df A m).2, k, mq)
      (s.1 + CoarseFine.shiftHalf (m % 2) * s.2.1 + CoarseFine.shiftHalf (m / 2) * s.2.2)) qfine

/-- The body of the loops of `interpolate_face`, interpolate.f90:100-130 and 145-178. -/
def interpFaceBody3 (D : Dims3) (td : TData) (A : CoarseFine.Matrix) (qcoarse : Grid3 ℚ) (mq k ic jc : ℤ)
    (qfine : Grid3 ℚ) : Option (Grid3 ℚ) :=
  (CoarseFine.clawFaceHalf D.toDims td ic jc).bind fun c2 =>
  if CoarseFine.validInterp D.toDims (c2 0).1 (c2 0).2 && CoarseFine.validInterp D.toDims (c2 1).1 (c2 1).2 &&
     CoarseFine.validInterp D.toDims (c2 2).1 (c2 2).2 && CoarseFine.validInterp D.toDims (c2 3).1 (c2 3).2 then
    (slopes3 D qcoarse ic jc k mq).bind fun s => spreadCell3 D A c2 mq k s qfine
  else some qfine

/-- `fclaw3dx_clawpatch46_fort_interpolate_face`, interpolate.f90:25-188, with `idir = iface_coarse/2`. Note `mx` as the
bound of `jc` (line 99), as in 2D. -/
def interpolateFace3 (D : Dims3) (td : TData) (iface : Nat) (qcoarse qfine : Grid3 ℚ) : Option (Grid3 ℚ) :=
  (CoarseFine.buildTransform D.toDims td).bind fun A =>
  doLoop 1 D.meqn (fun mq => doLoop 1 D.mz fun k =>
    if iface / 2 = 0 then
      doLoop 1 ((D.mbc : ℤ) / 2) fun ibc => doLoop 1 D.mx fun jc =>
        interpFaceBody3 D td A qcoarse mq k (if iface = 0 then ibc else D.mx - ibc + 1) jc
    else
      doLoop 1 ((D.mbc : ℤ) / 2) fun jbc => doLoop 1 D.mx fun ic =>
        interpFaceBody3 D td A qcoarse mq k ic (if iface = 2 then jbc else D.my - jbc + 1)) qfine

/-- `fclaw3dx_clawpatch46_fort_interpolate_corner`, interpolate.f90:190-296. -/
def interpolateCorner3 (D : Dims3) (td : TData) (icorner : Nat) (qcoarse qfine : Grid3 ℚ) : Option (Grid3 ℚ) :=
  (CoarseFine.buildTransform D.toDims td).bind fun A =>
  doLoop 1 ((D.mbc : ℤ) / 2) (fun ibc => doLoop 1 ((D.mbc : ℤ) / 2) fun jbc => fun q =>
    let c1 := CoarseFine.innerCell D.toDims icorner ibc jbc
    (CoarseFine.clawCornerHalf D.toDims td c1.1 c1.2).bind fun c2 =>
    doLoop 1 D.meqn (fun mq => doLoop 1 D.mz fun k => fun q =>
      (slopes3 D qcoarse c1.1 c1.2 k mq).bind fun s => spreadCell3 D A c2 mq k s q) q) qfine

/-! ### Regridding -/

/-- The value for one cell, average.f90:323-341: on a mapped mesh the sum is divided by the sum of the volumes of the
four fine cells (in 2D: by the area of the coarse cell). -/
def childCell3 (D : Dims3) (qfine : Grid3 ℚ) (volfine : Vol) (manifold : ℤ) (i j k mq : ℤ) : Option ℚ :=
  if manifold = 1 then
    (doLoop 0 3 (fun m (s : ℚ × ℚ) =>
      (rd3 D qfine (fineI i m, fineJ j m, k, mq)).bind fun qf =>
      (rdVol D volfine (fineI i m) (fineJ j m) k).bind fun kf => some (s.1 + kf * qf, s.2 + kf)) ((0 : ℚ), (0 : ℚ))).bind
      fun s => divide s.1 s.2
  else
    (doLoop 0 3 (fun m s =>
      (rd3 D qfine (fineI i m, fineJ j m, k, mq)).bind fun qf => some (s + qf)) (0 : ℚ)).bind fun sum =>
    some (sum / 4)

/-- `fclaw3dx_clawpatch46_fort_average2coarse`, average.f90:257-346. Note `mx` in `jc_add` (line 306), as in 2D. -/
def average2coarse3 (D : Dims3) (volfine : Vol) (igrid manifold : ℤ) (qfine qcoarse : Grid3 ℚ) : Option (Grid3 ℚ) :=
  let ig := igrid % 2
  let jg := (igrid - ig) / 2
  let ic_add := ig * D.mx / 2
  let jc_add := jg * D.mx / 2
  doLoop 1 D.meqn (fun mq => doLoop 1 D.mz fun k => doLoop 1 ((D.my : ℤ) / 2) fun j => doLoop 1 ((D.mx : ℤ) / 2) fun i =>
    fun q => (childCell3 D qfine volfine manifold i j k mq).bind fun v =>
      wr3 D q (i + ic_add, j + jc_add, k, mq) v) qcoarse

/-- `clawpatch_average2coarse`, fclaw2d_clawpatch.cpp:966-1016. -/
def coarsen3 (D : Dims3) (volfine : ℤ → Vol) (manifold : ℤ) (qfine : ℤ → Grid3 ℚ) (qcoarse : Grid3 ℚ) :
    Option (Grid3 ℚ) :=
  doLoop 0 3 (fun igrid => average2coarse3 D (volfine igrid) igrid manifold (qfine igrid)) qcoarse

/-- The first part of `fclaw3dx_clawpatch46_fort_interpolate2fine`, interpolate.f90:322-371. -/
def interpolate3 (D : Dims3) (igrid : ℤ) (qcoarse qfine : Grid3 ℚ) : Option (Grid3 ℚ) :=
  let ig := igrid % 2
  let jg := (igrid - ig) / 2
  let i1 := 1 - ig
  let i2 := (D.mx : ℤ) / 2 + (1 - ig)
  let ic_add := ig * D.mx / 2
  let j1 := 1 - jg
  let j2 := (D.my : ℤ) / 2 + (1 - jg)
  let jc_add := jg * D.my / 2
  doLoop 1 D.meqn (fun mq => doLoop 1 D.mz fun k => doLoop j1 j2 fun j => doLoop i1 i2 fun i => fun q =>
    (slopes3 D qcoarse (i + ic_add) (j + jc_add) k mq).bind fun s =>
    doLoop 1 2 (fun ii => doLoop 1 2 fun jj => fun q =>
      wr3 D q ((i - 1) * 2 + ii, (j - 1) * 2 + jj, k, mq)
        (s.1 + Transfer.shift ii * s.2.1 + Transfer.shift jj * s.2.2)) q) qfine

/-- `dz`, interpolate.f90:406. -/
def fixDz : ℚ := 1

/-- interpolate.f90:428-438. -/
def fineSum3 (D : Dims3) (volfine : Vol) (i j k m : ℤ) (q : Grid3 ℚ) : Option ℚ :=
  doLoop 1 2 (fun ii => doLoop 1 2 fun jj => fun s =>
    (rdVol D volfine ((i - 1) * 2 + ii) ((j - 1) * 2 + jj) k).bind fun kf =>
    (rd3 D q ((i - 1) * 2 + ii, (j - 1) * 2 + jj, k, m)).bind fun qf => some (s + kf * fixDz * qf)) (0 : ℚ)

/-- interpolate.f90:445-453. -/
def spread3 (D : Dims3) (volfine : Vol) (i j k m : ℤ) (cons_diff : ℚ) (q : Grid3 ℚ) : Option (Grid3 ℚ) :=
  doLoop 1 2 (fun ii => doLoop 1 2 fun jj => fun q =>
    (rdVol D volfine ((i - 1) * 2 + ii) ((j - 1) * 2 + jj) k).bind fun kf =>
    (rd3 D q ((i - 1) * 2 + ii, (j - 1) * 2 + jj, k, m)).bind fun qf =>
    (divide cons_diff (kf * fixDz)).bind fun c =>
    wr3 D q ((i - 1) * 2 + ii, (j - 1) * 2 + jj, k, m) (qf + c)) q

/-- `fclaw3dx_clawpatch46_fort_fixcapaq2`, interpolate.f90:389-459. -/
def fixcapaq3 (D : Dims3) (volcoarse volfine : Vol) (igrid : ℤ) (qcoarse qfine : Grid3 ℚ) : Option (Grid3 ℚ) :=
  let ig := igrid % 2
  let jg := (igrid - ig) / 2
  let ic_add := ig * D.mx / 2
  let jc_add := jg * D.my / 2
  doLoop 1 D.meqn (fun m => doLoop 1 D.mz fun k => doLoop 1 ((D.mx : ℤ) / 2) fun i => doLoop 1 ((D.my : ℤ) / 2) fun j =>
    fun q =>
    (fineSum3 D volfine i j k m q).bind fun sum =>
    (rdVol D volcoarse (i + ic_add) (j + jc_add) k).bind fun kc =>
    (rd3 D qcoarse (i + ic_add, j + jc_add, k, m)).bind fun qc =>
    spread3 D volfine i j k m ((qc * (kc * fixDz) - sum) / 4) q) qfine

/-- `fclaw3dx_clawpatch46_fort_interpolate2fine` with its last part, interpolate.f90:373-378. -/
def interpolate2fine3 (D : Dims3) (volcoarse volfine : Vol) (igrid manifold : ℤ) (qcoarse qfine : Grid3 ℚ) :
    Option (Grid3 ℚ) :=
  (interpolate3 D igrid qcoarse qfine).bind fun q =>
  if manifold ≠ 0 then fixcapaq3 D volcoarse volfine igrid qcoarse q else some q

/-- `clawpatch_interpolate2fine`, fclaw2d_clawpatch.cpp:916-963: the grids of the four children. -/
def refine3 (D : Dims3) (volcoarse : Vol) (volfine : ℤ → Vol) (manifold : ℤ) (qcoarse : Grid3 ℚ) (qfine : ℤ → Grid3 ℚ) :
    Option (ℤ → Grid3 ℚ) :=
  doLoop 0 3 (fun igrid fs =>
    (interpolate2fine3 D volcoarse (volfine igrid) igrid manifold qcoarse (fs igrid)).map fun q =>
      fun g => if g = igrid then q else fs g) qfine

/-! ### Interpolation in time -/

/-- The interpolated solution, and `count`. -/
structure St3 where
  q : Grid3 ℚ
  count : ℤ

/-- timeinterp.f90:28-30. -/
def cell3 (D : Dims3) (qcurr qlast : Grid3 ℚ) (alpha : ℚ) (c : Cell3) (s : St3) : Option St3 :=
  (rd3 D qlast c).bind fun l => (rd3 D qcurr c).bind fun r =>
  (wr3 D s.q c (l + alpha * (r - l))).bind fun q => some ⟨q, s.count + 1⟩

/-- `fclaw3dx_clawpatch46_fort_timeinterp`, timeinterp.f90:1-72: the interpolated solution and `ierror`. -/
def timeinterp3 (D : Dims3) (psize : ℤ) (qcurr qlast : Grid3 ℚ) (alpha : ℚ) (qinterp : Grid3 ℚ) : Option (Grid3 ℚ × ℤ) :=
  let mint : ℤ := D.mbc
  let at' := cell3 D qcurr qlast alpha
  (doLoop 1 D.meqn (fun m => doLoop 1 D.mz fun k s =>
    (doLoop 1 (D.my - mint) (fun j => doLoop 1 mint fun i => at' (i, j, k, m)) s).bind fun s =>
    (doLoop 1 mint (fun j => doLoop (mint + 1) D.mx fun i => at' (i, j, k, m)) s).bind fun s =>
    (doLoop (mint + 1) D.my (fun j => doLoop (D.mx - mint + 1) D.mx fun i => at' (i, j, k, m)) s).bind fun s =>
    doLoop (D.my - mint + 1) D.my (fun j => doLoop 1 (D.mx - mint) fun i => at' (i, j, k, m)) s)
    ⟨qinterp, 1⟩).bind fun s =>
  some (s.q, if s.count - 1 ≠ psize then 2 else 0)

/-- The size that `clawpatch_setup_timeinterp` announces, fclaw2d_clawpatch.cpp:481-500. -/
def announced3 (D : Dims3) (width : Nat) : Option ℤ :=
  let mint : ℤ := ((width / 2 + 1 : Nat) : ℤ)
  let hole := ((D.mx : ℤ) - 2 * mint) * (D.my - 2 * mint) * D.mz
  let wg := (D.mx : ℤ) * D.my * D.mz
  if hole < 0 then none
  else
    let psize := (wg - hole) * D.meqn
    if ¬ 0 < psize then none else some psize

/-- `clawpatch_setup_timeinterp`, fclaw2d_clawpatch.cpp:472-526. `ierror` is not looked at afterwards. -/
def setupTimeinterp3 (D : Dims3) (width : Nat) (qcurr qlast : Grid3 ℚ) (alpha : ℚ) (qinterp : Grid3 ℚ) :
    Option (Grid3 ℚ × ℤ) :=
  (announced3 D width).bind fun psize => timeinterp3 D psize qcurr qlast alpha qinterp

/-! ### Packing for other processes -/

/-- Where values live in a patch. -/
inductive Loc3 where
  | q (i j k mq : ℤ)
  | vol (i j k : ℤ)
  deriving DecidableEq, Repr

/-- Bounds: the declarations in local_ghost_pack.f90:7-8. -/
def valid3 (D : Dims3) : Loc3 → Bool
  | .q i j k mq => inBox3 D (i, j, k, mq)
  | .vol i j k => inVol D (i, j, k)

/-- The memory of a patch. -/
structure Patch3 where
  q : Grid3 ℚ
  vol : Vol

def Patch3.read (P : Patch3) : Loc3 → ℚ
  | .q i j k mq => P.q (i, j, k, mq)
  | .vol i j k => P.vol (i, j, k)

def Patch3.write (P : Patch3) (l : Loc3) (v : ℚ) : Patch3 :=
  match l with
  | .q i j k mq => { P with q := fun c => if c = (i, j, k, mq) then v else P.q c }
  | .vol i j k => { P with vol := fun c => if c = (i, j, k) then v else P.vol c }

abbrev Buf := ℤ → ℚ

/-- Next position in the buffer (counted from 0), patch, buffer. -/
structure PackSt where
  pos : ℤ
  patch : Patch3
  buf : Buf

/-- local_ghost_pack.f90:34-39, and the same for the other loops. `n` is the size of the buffer. -/
def move3 (D : Dims3) (n : ℤ) (pack : Bool) (l : Loc3) (s : PackSt) : Option PackSt :=
  if valid3 D l = true ∧ 0 ≤ s.pos ∧ s.pos < n then
    if pack then some ⟨s.pos + 1, s.patch, fun p => if p = s.pos then s.patch.read l else s.buf p⟩
    else some ⟨s.pos + 1, s.patch.write l (s.buf s.pos), s.buf⟩
  else none

/-- The four loops that go around a layer, local_ghost_pack.f90:32-77 (for the solution) and 95-140 (for the volumes). -/
def ring3 (D : Dims3) (mint n : ℤ) (pack : Bool) (mk : ℤ → ℤ → Loc3) (s : PackSt) : Option PackSt :=
  (doLoop (1 - D.mbc) (D.my - mint) (fun j => doLoop (1 - D.mbc) mint fun i => move3 D n pack (mk i j)) s).bind fun s =>
  (doLoop (1 - D.mbc) mint (fun j => doLoop (mint + 1) (D.mx + D.mbc) fun i => move3 D n pack (mk i j)) s).bind fun s =>
  (doLoop (mint + 1) (D.my + D.mbc) (fun j => doLoop (D.mx - mint + 1) (D.mx + D.mbc) fun i =>
    move3 D n pack (mk i j)) s).bind fun s =>
  doLoop (D.my - mint + 1) (D.my + D.mbc) (fun j => doLoop (1 - D.mbc) (D.mx - mint) fun i => move3 D n pack (mk i j)) s

/-- `fclaw3dx_clawpatch46_fort_local_ghost_pack`, local_ghost_pack.f90: the new state and `ierror`. -/
def localGhostPack3 (D : Dims3) (mint psize n packmode : ℤ) (s : PackSt) : Option (PackSt × ℤ) :=
  if packmode ≠ 0 ∧ packmode ≠ 1 ∧ packmode ≠ 2 ∧ packmode ≠ 3 then some (s, 1)
  else
    let pack := decide (packmode = 0 ∨ packmode = 2)
    (doLoop 1 D.meqn (fun mq => doLoop (1 - D.mbc) (D.mz + D.mbc) fun k =>
      ring3 D mint n pack fun i j => .q i j k mq) s).bind fun s =>
    if packmode ≠ 2 ∧ packmode ≠ 3 then some (s, if s.pos ≠ psize then 2 else 0)
    else
      (doLoop (1 - D.mbc) (D.mz + D.mbc) (fun k => ring3 D mint n pack fun i j => .vol i j k) s).bind fun s =>
      some (s, if s.pos ≠ psize then 2 else 0)

def whole3 (D : Dims3) : ℤ := (2 * D.mbc + D.mx) * (2 * D.mbc + D.my) * (D.mz + 2 * D.mbc)

def hole3 (D : Dims3) (o : GhostPack.Opts) : ℤ :=
  (D.mx - 2 * (o.refratio * D.mbc)) * (D.my - 2 * (o.refratio * D.mbc)) * (D.mz + 2 * D.mbc)

/-- `clawpatch_ghost_pack_elems`, fclaw2d_clawpatch.cpp:1020-1069. With `time_sync` the program ends. -/
def packElems3 (D : Dims3) (o : GhostPack.Opts) : Option ℤ :=
  if o.timeSync then none
  else if hole3 D o < 0 then none
  else
    let psize := (whole3 D - hole3 D o) * (D.meqn + o.area)
    if psize < 0 then none else some psize

/-- `clawpatch_ghost_comm`, fclaw2d_clawpatch.cpp:1072-1188, on a buffer of the size `packElems3`. -/
def ghostComm3 (D : Dims3) (o : GhostPack.Opts) (packmode : ℤ) (patch : Patch3) (buf : Buf) : Option (Patch3 × Buf) :=
  let packarea := packmode / 2
  let mint := o.refratio * D.mbc
  (packElems3 D o).bind fun n =>
  if o.timeSync then none
  else if hole3 D o < 0 then none
  else
    let psize := (whole3 D - hole3 D o) * (D.meqn + packarea)
    if ¬ 0 < psize then none
    else if psize ≠ n then none
    else
      let qvolsize := (whole3 D - hole3 D o) * (D.meqn + packarea)
      (localGhostPack3 D mint qvolsize n packmode ⟨0, patch, buf⟩).bind fun (s, ierror) =>
      if ierror ≠ 0 then none else some (s.patch, s.buf)

/-- `clawpatch_local_ghost_pack`. -/
def localPack3 (D : Dims3) (o : GhostPack.Opts) (patch : Patch3) (buf : Buf) : Option (Patch3 × Buf) :=
  ghostComm3 D o (2 * o.area) patch buf

/-- `clawpatch_remote_ghost_unpack`. -/
def remoteUnpack3 (D : Dims3) (o : GhostPack.Opts) (patch : Patch3) (buf : Buf) : Option (Patch3 × Buf) :=
  ghostComm3 D o (2 * o.area + 1) patch buf

/-! ### Pillow sphere -/

/-- `fclaw3dx_pillow46_copy_block_corner`, pillowsphere.f90:6-50, for `icorner` from 0 to 3. -/
def copyBlockCorner3 {α : Type} (D : Dims3) (icorner : Nat) (Q : Grid3 α × Grid3 α) : Option (Grid3 α × Grid3 α) :=
  doLoop 1 D.meqn (fun mq => doLoop 1 D.mz fun k => doLoop 1 D.mbc fun ibc => doLoop 1 D.mbc fun jbc => fun Q =>
    let g := cornerCell D.toDims icorner ibc jbc
    let m := Pillow.mirrorCell D.toDims icorner ibc jbc
    (rd3 D Q.2 (m.1, m.2, k, mq)).bind fun v =>
    (wr3 D Q.1 (g.1, g.2, k, mq) v).bind fun qthis =>
    (rd3 D qthis (m.1, m.2, k, mq)).bind fun v =>
    (wr3 D Q.2 (g.1, g.2, k, mq) v).bind fun qneighbor =>
    some (qthis, qneighbor)) Q

/-- `fclaw3dx_pillow46_interpolate_block_corner`, pillowsphere.f90:150-216, for `icorner` from 0 to 3, with
`refratio = 2`. -/
def interpolateBlockCorner3 (D : Dims3) (icorner : Nat) (qcoarse qfine : Grid3 ℚ) : Option (Grid3 ℚ) :=
  let c := Pillow.mirrorCell D.toDims icorner 1 1
  doLoop 1 D.meqn (fun mq => doLoop 1 D.mz fun k => fun q =>
    (slopes3 D qcoarse c.1 c.2 k mq).bind fun s =>
    doLoop 1 D.mbc (fun ibc => doLoop 1 D.mbc fun jbc => fun q =>
      let g := cornerCell D.toDims icorner ibc jbc
      wr3 D q (g.1, g.2, k, mq) (s.1 + Transfer.shift ibc * s.2.1 + Transfer.shift jbc * s.2.2)) q) qfine

end Fclaw.Extrude
