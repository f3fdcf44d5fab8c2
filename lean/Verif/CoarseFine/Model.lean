import Verif.CopyGhost.Model
import Verif.Transfer.Model
/-
Model of the exchange of ghost values between patches of different size (2D, Clawpack 4.6 layout):

* src/patches/clawpatch/fort_4.6/fclaw2d_clawpatch46_average.f: average_face, average_corner
* src/patches/clawpatch/fort_4.6/fclaw2d_clawpatch46_interpolate.f: interpolate_face,
  interpolate_corner
* src/patches/clawpatch/fclaw2d_clawpatch_transform.c and fclaw2d_clawpatch_utils.f: the index
  transformations

In the transformation data `this` is the coarse patch and `neighbor` the fine one.
Simplification: real numbers are rationals, without rounding. A division by zero is `none`.
-/
set_option autoImplicit false
namespace Fclaw.CoarseFine

open Fort Transform CopyGhost Transfer

/-- The four pairs `(i2(m), j2(m))`. An entry that the callee has not set is undefined. -/
def entries (out : Nat → Option (Nat → ℤ)) : Option (ℤ → ℤ × ℤ) :=
  (out 0).bind fun a => (out 1).bind fun b => (out 2).bind fun c => (out 3).bind fun e =>
  some fun m => if m = 0 then (a 0, a 1) else if m = 1 then (b 0, b 1) else if m = 2 then (c 0, c 1) else (e 0, e 1)

/-- `FCLAW2D_CLAWPATCH_TRANSFORM_FACE_HALF`, fclaw2d_clawpatch_transform.c:100-118. -/
def clawFaceHalf (d : Dims) (td : TData) (i1 j1 : ℤ) : Option (ℤ → ℤ × ℤ) :=
  (transformFace2 false td.this td.neighbor td.transform (sizes d) 1 (index i1 j1) (td.junk i1 j1)).bind entries

/-- `FCLAW2D_CLAWPATCH_TRANSFORM_CORNER_HALF`, lines 157-190. -/
def clawCornerHalf (d : Dims) (td : TData) (i1 j1 : ℤ) : Option (ℤ → ℤ × ℤ) :=
  if 0 ≤ td.blockIface then clawFaceHalf d td i1 j1
  else if td.blockIface ≠ -1 then none
  else
    (transformCorner2 false td.this td.neighbor td.icorner td.isBlockCorner (sizes d) 1
      (index i1 j1)).bind entries

/-! ### Averaging -/

/-- `is_valid_average`, fclaw2d_clawpatch_utils.f:234-245. -/
def validAverage (d : Dims) (i j : ℤ) : Bool :=
  decide (1 ≤ i) && decide (i ≤ d.mx) && decide (1 ≤ j) && decide (j ≤ d.my)

/-- The value for a coarse cell from the four fine cells `c2 0, …, c2 3`,
fclaw2d_clawpatch46_average.f:96-122 (the same at lines 151-169 and 246-268). -/
def averageCell (d : Dims) (areafine : Area) (manifold : Bool) (qfine : Grid ℚ) (c2 : ℤ → ℤ × ℤ) (mq : ℤ) :
    Option ℚ :=
  if manifold then
    (doLoop 0 3 (fun m (s : ℚ × ℚ) =>
      (rd d qfine ((c2 m).1, (c2 m).2, mq)).bind fun qf =>
      (rdArea d areafine (c2 m).1 (c2 m).2).bind fun kf => some (s.1 + qf * kf, s.2 + kf)) ((0 : ℚ), (0 : ℚ))).bind
      fun s => divide s.1 s.2
  else
    (doLoop 0 3 (fun m s => (rd d qfine ((c2 m).1, (c2 m).2, mq)).bind fun qf => some (s + qf)) (0 : ℚ)).bind
      fun s => some (s / 4)

/-- The body of the loops of `average_face`, lines 68-123 and 133-170. -/
def averageFaceBody (d : Dims) (td : TData) (areafine : Area) (manifold : Bool) (qfine : Grid ℚ) (mq ic jc : ℤ)
    (qcoarse : Grid ℚ) : Option (Grid ℚ) :=
  (clawFaceHalf d td ic jc).bind fun c2 =>
  if validAverage d (c2 0).1 (c2 0).2 && validAverage d (c2 1).1 (c2 1).2 &&
     validAverage d (c2 2).1 (c2 2).2 && validAverage d (c2 3).1 (c2 3).2 then
    (averageCell d areafine manifold qfine c2 mq).bind fun v => wr d qcoarse (ic, jc, mq) v
  else some qcoarse

/-- `fclaw2d_clawpatch46_fort_average_face`, fclaw2d_clawpatch46_average.f:16-176, with
`idir = iface_coarse/2` as in the calls (fclaw2d_face_neighbors.c:211, :301). Not modelled: the unused
value `areacoarse(ic,jc)`. -/
def averageFace (d : Dims) (td : TData) (iface : Nat) (areafine : Area) (manifold : Bool) (qfine qcoarse : Grid ℚ) :
    Option (Grid ℚ) :=
  if iface / 2 = 0 then
    doLoop 1 d.meqn (fun mq => doLoop 1 d.my fun jc => doLoop 1 d.mbc fun ibc =>
      averageFaceBody d td areafine manifold qfine mq (if iface = 0 then 1 - ibc else d.mx + ibc) jc) qcoarse
  else
    doLoop 1 d.meqn (fun mq => doLoop 1 d.mbc fun jbc => doLoop 1 d.mx fun ic =>
      averageFaceBody d td areafine manifold qfine mq ic (if iface = 2 then 1 - jbc else d.my + jbc)) qcoarse

/-- `fclaw2d_clawpatch46_fort_average_corner`, lines 186-272. -/
def averageCorner (d : Dims) (td : TData) (icorner : Nat) (areafine : Area) (manifold : Bool)
    (qfine qcoarse : Grid ℚ) : Option (Grid ℚ) :=
  doLoop 1 d.mbc (fun ibc => doLoop 1 d.mbc fun jbc => fun q =>
    let c1 := cornerCell d icorner ibc jbc
    (clawCornerHalf d td c1.1 c1.2).bind fun c2 =>
    doLoop 1 d.meqn (fun mq => fun q =>
      (averageCell d areafine manifold qfine c2 mq).bind fun v => wr d q (c1.1, c1.2, mq) v) q) qcoarse

/-! ### Interpolation -/

/-- `is_valid_interp`, fclaw2d_clawpatch_utils.f:214-225. -/
def validInterp (d : Dims) (i j : ℤ) : Bool :=
  decide (1 - (d.mbc : ℤ) ≤ i) && decide (i ≤ d.mx + d.mbc) &&
  decide (1 - (d.mbc : ℤ) ≤ j) && decide (j ≤ d.my + d.mbc)

/-- `a(2,2)`. -/
structure Matrix where
  a11 : ℤ
  a12 : ℤ
  a21 : ℤ
  a22 : ℤ

/-- `fclaw2d_clawpatch_build_transform`, fclaw2d_clawpatch_utils.f:76-117. -/
def buildTransform (d : Dims) (td : TData) : Option Matrix :=
  (clawFaceHalf d td 0 0).bind fun o =>
  (clawFaceHalf d td 1 0).bind fun e1 =>
  (clawFaceHalf d td 0 1).bind fun e2 =>
  some ⟨(e1 0).1 - (o 0).1, (e2 0).1 - (o 0).1, (e1 0).2 - (o 0).2, (e2 0).2 - (o 0).2⟩

/-- `df(:,m)` for the child `m = ii + 2 jj`, fclaw2d_clawpatch46_interpolate.f:71-88: `dc` is the index
of the child, and Fortran division of integers truncates. -/
def df (A : Matrix) (m : ℤ) : ℤ × ℤ :=
  let ii := m % 2
  let jj := m / 2
  (Int.tdiv (A.a11 * ii + A.a12 * jj) 2, Int.tdiv (A.a21 * ii + A.a22 * jj) 2)

/-- `shiftx(m)` for `ii`, `shifty(m)` for `jj`, lines 84-85. -/
def shiftHalf (ii : ℤ) : ℚ := ((ii : ℚ) - 1 / 2) / 2

/-- Values for the four children of a coarse cell, lines 132-137 (the same at lines 186-191 and
303-308). -/
def spreadCell (d : Dims) (A : Matrix) (c2 : ℤ → ℤ × ℤ) (mq : ℤ) (s : ℚ × ℚ × ℚ) (qfine : Grid ℚ) :
    Option (Grid ℚ) :=
  doLoop 0 3 (fun m => fun q =>
    wr d q ((c2 0).1 + (df A m).1, (c2 0).2 + (df A m).2, mq)
      (s.1 + shiftHalf (m % 2) * s.2.1 + shiftHalf (m / 2) * s.2.2)) qfine

/-- The body of the loops of `interpolate_face`, lines 106-138 and 154-193. -/
def interpFaceBody (d : Dims) (td : TData) (A : Matrix) (qcoarse : Grid ℚ) (mq ic jc : ℤ) (qfine : Grid ℚ) :
    Option (Grid ℚ) :=
  (clawFaceHalf d td ic jc).bind fun c2 =>
  if validInterp d (c2 0).1 (c2 0).2 && validInterp d (c2 1).1 (c2 1).2 &&
     validInterp d (c2 2).1 (c2 2).2 && validInterp d (c2 3).1 (c2 3).2 then
    (slopes d qcoarse ic jc mq).bind fun s => spreadCell d A c2 mq s qfine
  else some qfine

/-- `fclaw2d_clawpatch46_fort_interpolate_face`, fclaw2d_clawpatch46_interpolate.f:30-199, with
`idir = iface_coarse/2`. Note `mx` as the bound of `jc` (line 105). -/
def interpolateFace (d : Dims) (td : TData) (iface : Nat) (qcoarse qfine : Grid ℚ) : Option (Grid ℚ) :=
  (buildTransform d td).bind fun A =>
  if iface / 2 = 0 then
    doLoop 1 d.meqn (fun mq => doLoop 1 ((d.mbc : ℤ) / 2) fun ibc => doLoop 1 d.mx fun jc =>
      interpFaceBody d td A qcoarse mq (if iface = 0 then ibc else d.mx - ibc + 1) jc) qfine
  else
    doLoop 1 d.meqn (fun mq => doLoop 1 ((d.mbc : ℤ) / 2) fun jbc => doLoop 1 d.mx fun ic =>
      interpFaceBody d td A qcoarse mq ic (if iface = 2 then jbc else d.my - jbc + 1)) qfine

/-- `(ic, jc)` in `interpolate_corner`, lines 265-281. -/
def innerCell (d : Dims) (icorner : Nat) (ibc jbc : ℤ) : ℤ × ℤ :=
  if icorner = 0 then (ibc, jbc)
  else if icorner = 1 then (d.mx - ibc + 1, jbc)
  else if icorner = 2 then (ibc, d.my - jbc + 1)
  else (d.mx - ibc + 1, d.my - jbc + 1)

/-- `fclaw2d_clawpatch46_fort_interpolate_corner`, lines 208-314. -/
def interpolateCorner (d : Dims) (td : TData) (icorner : Nat) (qcoarse qfine : Grid ℚ) : Option (Grid ℚ) :=
  (buildTransform d td).bind fun A =>
  doLoop 1 ((d.mbc : ℤ) / 2) (fun ibc => doLoop 1 ((d.mbc : ℤ) / 2) fun jbc => fun q =>
    let c1 := innerCell d icorner ibc jbc
    (clawCornerHalf d td c1.1 c1.2).bind fun c2 =>
    doLoop 1 d.meqn (fun mq => fun q =>
      (slopes d qcoarse c1.1 c1.2 mq).bind fun s => spreadCell d A c2 mq s q) q) qfine

end Fclaw.CoarseFine
