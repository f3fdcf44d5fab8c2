import Verif.Extrude.Model
import Mathlib.Algebra.Order.Ring.Rat
/-
Model of the default tagging of patches with layers (extruded meshes) for refinement and coarsening,
`src/patches/clawpatch/fort3_4.6/fclaw3dx_clawpatch46_tag4refinement.f90` and `…_tag4coarsening.f90`, the criteria in
`src/patches/clawpatch/fort3_user`, and the functions that call them, `src/patches/clawpatch/fclaw2d_clawpatch.cpp`
799–915 compiled with `PATCH_DIM` 3.

What is simplified.
* Rational numbers instead of floating point numbers.  The square root in the gradient criterion is replaced by a
  comparison of squares; a division by zero has no result.
* `none` stands for an access outside of an array, the use of a variable that has not been set, a failed assertion and
  the exit for an unknown criterion.
* `return` inside of the loops is a flag; once it is set the remaining iterations do nothing.
-/
set_option autoImplicit false

namespace Fclaw.Tag3

open Fclaw.Fort Fclaw.Extrude

/-- Indices `(i, j, k)` of a cell, or the offset of a neighbour. -/
abbrev Pos := ℤ × ℤ × ℤ

/-- What a criterion is told about a cell: the arguments of `fclaw3dx_clawpatch_tag_criteria`, with those it adds.
Elements of the arrays that have not been set are `none`. -/
structure Args where
  blockno : ℤ
  meqn : ℤ
  qval : ℤ → Option ℚ
  qmin : ℤ → Option ℚ
  qmax : ℤ → Option ℚ
  quad : Pos → ℤ → Option ℚ
  dx : ℚ
  dy : ℚ
  dz : ℚ
  xc : ℚ
  yc : ℚ
  zc : ℚ
  ivar : ℤ
  threshold : ℚ
  initFlag : ℤ
  isGhost : Bool

/-- `FCLAW_REFINE_CRITERIA_*`; a user criterion is the function that was set in the clawpatch virtual table, if any. -/
inductive Criterion where
  | value
  | difference
  | minmax
  | gradient
  | user (f : Option (Args → ℤ))
  | other

/-- What does not change during tagging: the options `refinement-criteria` and `threshold-variable`. -/
structure Env where
  criterion : Criterion
  ivar : ℤ

/-- `fort3_user/fclaw3dx_clawpatch_value_exceeds_th.f90` 19–44. -/
def valueExceeds (a : Args) : Option ℤ :=
  match a.qval a.ivar with
  | some v => some (if v > a.threshold then 1 else 0)
  | none => none

/-- The six neighbours that the next two criteria look at. -/
def six (a : Args) : Option (ℚ × ℚ × ℚ × ℚ × ℚ × ℚ) :=
  (a.quad (1, 0, 0) a.ivar).bind fun e => (a.quad (-1, 0, 0) a.ivar).bind fun w =>
  (a.quad (0, 1, 0) a.ivar).bind fun n => (a.quad (0, -1, 0) a.ivar).bind fun s =>
  (a.quad (0, 0, 1) a.ivar).bind fun u => (a.quad (0, 0, -1) a.ivar).bind fun l => some (e, w, n, s, u, l)

/-- `fort3_user/fclaw3dx_clawpatch_difference_exceeds_th.f90` 19–56. -/
def differenceExceeds (a : Args) : Option ℤ :=
  if a.isGhost then some (-1)
  else
    (six a).bind fun (e, w, n, s, u, l) =>
      let dqx := |e - w|
      let dqy := |n - s|
      let dqz := |u - l|
      let dq := max (max dqx dqy) dqz
      some (if dq > a.threshold then 1 else 0)

/-- `fort3_user/fclaw3dx_clawpatch_minmax_exceeds_th.f90` 20–47. -/
def minmaxExceeds (a : Args) : Option ℤ :=
  match a.qmax a.ivar, a.qmin a.ivar with
  | some hi, some lo => some (if hi - lo > a.threshold then 1 else 0)
  | _, _ => none

/-- `fort3_user/fclaw3dx_clawpatch_gradient_exceeds_th.f90` 19–87: is the length of the vector of difference quotients
greater than the threshold?  A mapping is not taken into account. -/
def gradientExceeds (a : Args) : Option ℤ :=
  if a.isGhost then some (-1)
  else
    (six a).bind fun (e, w, n, s, u, l) =>
      if a.dx = 0 ∨ a.dy = 0 ∨ a.dz = 0 then none
      else
        let dqx := (e - w) / (2 * a.dx)
        let dqy := (n - s) / (2 * a.dy)
        let dqz := (u - l) / (2 * a.dz)
        let dot := dqx * dqx + dqy * dqy + dqz * dqz
        some (if a.threshold < 0 ∨ dot > a.threshold * a.threshold then 1 else 0)

/-- `fort3_user/fclaw3dx_clawpatch_tag_criteria.c` 46–121.  A user criterion without a function is a failed assertion or
the call of a null pointer. -/
def tagCriteria (env : Env) (a : Args) : Option ℤ :=
  match env.criterion with
  | .value => valueExceeds a
  | .difference => differenceExceeds a
  | .minmax => minmaxExceeds a
  | .gradient => gradientExceeds a
  | .user (some f) => some (f a)
  | .user none => none
  | .other => none

/-- `clawpatch3_is_ghost`, `tag4refinement.f90` 74–88. -/
def isGhost (D : Dims3) (c : Pos) : Bool :=
  let interior := decide (1 ≤ c.1) && decide (c.1 ≤ D.mx) && decide (1 ≤ c.2.1) && decide (c.2.1 ≤ D.my) &&
    decide (1 ≤ c.2.2) && decide (c.2.2 ≤ D.mz)
  !interior

/-- A patch: its solution and its lower left corner.  (`zlower` is the same for all patches.) -/
structure Patch where
  q : Grid3 ℚ
  xlower : ℚ
  ylower : ℚ

/-- What the patches have in common. -/
structure Shared where
  dims : Dims3
  blockno : ℤ
  zlower : ℚ
  dx : ℚ
  dy : ℚ
  dz : ℚ
  threshold : ℚ
  initFlag : ℤ

/-- The variables of the loops. -/
structure Scan where
  qval : ℤ → Option ℚ
  qmin : ℤ → Option ℚ
  qmax : ℤ → Option ℚ
  quad : Pos → ℤ → Option ℚ
  /-- `tag_patch` has been changed and the subroutine left. -/
  found : Bool

/-- An assignment to an element of an array. -/
def setAt (a : ℤ → Option ℚ) (k : ℤ) (v : ℚ) : ℤ → Option ℚ := fun k' => if k' = k then some v else a k'

/-- `tag4refinement.f90` 27–30, `tag4coarsening.f90` 28–31. -/
def firstStep (D : Dims3) (q : Grid3 ℚ) (mq : ℤ) (s : Scan) : Option Scan :=
  match rd3 D q (1, 1, 1, mq) with
  | some v => some { s with qmin := setAt s.qmin mq v, qmax := setAt s.qmax mq v }
  | none => none

/-- `tag4refinement.f90` 37–45, `tag4coarsening.f90` 80–84. -/
def componentStep (D : Dims3) (q : Grid3 ℚ) (c : Pos) (mq : ℤ) (s : Scan) : Option Scan :=
  match rd3 D q (c.1, c.2.1, c.2.2, mq), s.qmin mq, s.qmax mq with
  | some v, some lo, some hi =>
    some { s with
      qval := setAt s.qval mq v
      qmin := setAt s.qmin mq (min lo v)
      qmax := setAt s.qmax mq (max hi v) }
  | _, _, _ => none

/-- `tag4refinement.f90` 51, `tag4coarsening.f90` 91. -/
def quadStep (D : Dims3) (q : Grid3 ℚ) (c : Pos) (ii jj kk mq : ℤ) (s : Scan) : Option Scan :=
  match rd3 D q (c.1 + ii, c.2.1 + jj, c.2.2 + kk, mq) with
  | some v => some { s with quad := fun o m => if o = (ii, jj, kk) ∧ m = mq then some v else s.quad o m }
  | none => none

/-- `tag4refinement.f90` 47–55. -/
def fillQuad (D : Dims3) (q : Grid3 ℚ) (c : Pos) : Scan → Option Scan :=
  doLoop (-1) 1 fun jj => doLoop (-1) 1 fun ii => doLoop (-1) 1 fun kk => doLoop 1 D.meqn fun mq =>
    quadStep D q c ii jj kk mq

/-- `tag4coarsening.f90` 87–95. -/
def fillQuad' (D : Dims3) (q : Grid3 ℚ) (c : Pos) : Scan → Option Scan :=
  doLoop (-1) 1 fun ii => doLoop (-1) 1 fun jj => doLoop (-1) 1 fun kk => doLoop 1 D.meqn fun mq =>
    quadStep D q c ii jj kk mq

/-- The body of the loops over the cells, `tag4refinement.f90` 34–66, `tag4coarsening.f90` 77–111.  They differ only in
the order in which `quad` is filled. -/
def cellStep (env : Env) (sh : Shared) (p : Patch) (fill : Dims3 → Grid3 ℚ → Pos → Scan → Option Scan) (c : Pos)
    (s : Scan) : Option Scan :=
  if s.found then some s
  else
    match doLoop 1 sh.dims.meqn (fun mq => componentStep sh.dims p.q c mq) s with
    | none => none
    | some s1 =>
      match (if isGhost sh.dims c then some s1 else fill sh.dims p.q c s1) with
      | none => none
      | some s2 =>
        match tagCriteria env
          { blockno := sh.blockno, meqn := sh.dims.meqn, qval := s2.qval, qmin := s2.qmin, qmax := s2.qmax,
            quad := s2.quad, dx := sh.dx, dy := sh.dy, dz := sh.dz,
            xc := p.xlower + (c.1 - 1 / 2) * sh.dx, yc := p.ylower + (c.2.1 - 1 / 2) * sh.dy,
            zc := sh.zlower + (c.2.2 - 1 / 2) * sh.dz, ivar := env.ivar, threshold := sh.threshold,
            initFlag := sh.initFlag, isGhost := isGhost sh.dims c } with
        | none => none
        | some r => some { s2 with found := decide (r > 0) }

/-- Nothing has been set. -/
def Scan.unset : Scan :=
  { qval := fun _ => none, qmin := fun _ => none, qmax := fun _ => none, quad := fun _ _ => none, found := false }

/-- `fort3_4.6/fclaw3dx_clawpatch46_tag4refinement.f90` 1–71: the value of `tag_patch`.  All layers of ghost cells are
looked at. -/
def fortTag4refinement (env : Env) (sh : Shared) (p : Patch) : Option ℤ :=
  let D := sh.dims
  match doLoop 1 D.meqn (firstStep D p.q) Scan.unset with
  | none => none
  | some s =>
    match doLoop (1 - D.mbc) (D.mz + D.mbc) (fun k => doLoop (1 - D.mbc) (D.my + D.mbc) fun j =>
      doLoop (1 - D.mbc) (D.mx + D.mbc) fun i => cellStep env sh p fillQuad (i, j, k)) s with
    | none => none
    | some s => some (if s.found then 1 else 0)

/-- `fort3_4.6/fclaw3dx_clawpatch46_tag4coarsening.f90` 55–115 (`fclaw3dx_clawpatch46_test_refine3`): `qmin` and `qmax`
belong to the caller, `quad` and `qval` are new variables.  Note `k = 1,mz` (line 74). -/
def testRefine (env : Env) (sh : Shared) (p : Patch) (s : Scan) : Option Scan :=
  let D := sh.dims
  doLoop 1 D.mz (fun k => doLoop (1 - D.mbc) (D.mx + D.mbc) fun i =>
    doLoop (1 - D.mbc) (D.my + D.mbc) fun j => cellStep env sh p fillQuad' (i, j, k))
    { s with qval := fun _ => none, quad := fun _ _ => none }

/-- `tag4coarsening.f90` 33–51: the tests of the siblings, the next one only if the previous ones have not found
anything. -/
def testAll (env : Env) (sh : Shared) : List Patch → Scan → Option Scan
  | [], s => some s
  | p :: ps, s =>
    match testRefine env sh p s with
    | none => none
    | some s' => if s'.found then some s' else testAll env sh ps s'

/-- `tag4coarsening.f90` 1–53: the value of `tag_patch`. -/
def fortTag4coarsening (env : Env) (sh : Shared) (p0 p1 p2 p3 : Patch) : Option ℤ :=
  let D := sh.dims
  if sh.initFlag ≠ 0 then some 0
  else
    match doLoop 1 D.meqn (firstStep D p0.q) Scan.unset with
    | none => none
    | some s =>
      match testAll env sh [p0, p1, p2, p3] s with
      | none => none
      | some s => some (if s.found then 0 else 1)

/-- `src/patches/clawpatch/fclaw2d_clawpatch.cpp` 799–850 (`clawpatch_tag4refinement`); `sh.threshold` is the option
`refine_threshold`. -/
def tag4refinement (env : Env) (sh : Shared) (p : Patch) : Option ℤ :=
  if sh.threshold < 0 then some 1 else fortTag4refinement env sh p

/-- `src/patches/clawpatch/fclaw2d_clawpatch.cpp` 852–915 (`clawpatch_tag4coarsening`); `sh.threshold` is the option
`coarsen_threshold`. -/
def tag4coarsening (env : Env) (sh : Shared) (p0 p1 p2 p3 : Patch) : Option Bool :=
  if sh.threshold > 0 then
    (fortTag4coarsening env sh p0 p1 p2 p3).map fun t => decide (t = 1)
  else some false

end Fclaw.Tag3
