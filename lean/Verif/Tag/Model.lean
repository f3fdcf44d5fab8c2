/-
Model of the default tagging of patches for refinement and coarsening,
`src/patches/clawpatch/fort_4.6/fclaw2d_clawpatch46_tag4refinement.f` and
`…_tag4coarsening.f`, the criteria in `src/patches/clawpatch/fort_user`, and the
functions that call them, `src/patches/clawpatch/fclaw2d_clawpatch.cpp` 799–915
(two dimensions).

What is simplified.
* Rational numbers instead of floating point numbers.  The square root in the
  gradient criterion is replaced by a comparison of squares; a division by zero
  has no result.
* `none` stands for an access outside of an array, the use of a variable that
  has not been set, a failed assertion and the exit for an unknown criterion.
* `return` inside of the loops is a flag; once it is set the remaining
  iterations do nothing.
-/
import Verif.Fort.Basic
import Mathlib.Data.Rat.Defs
import Mathlib.Algebra.Order.Ring.Rat

set_option autoImplicit false

namespace Fclaw.Tag

open Fclaw.Fort

abbrev Vec := ℚ × ℚ × ℚ

/-- What a criterion is told about a cell: the arguments of
`fclaw2d_clawpatch_tag_criteria`, with those it adds.  Elements of the arrays
that have not been set are `none`. -/
structure Args where
  blockno : ℤ
  meqn : ℤ
  qval : ℤ → Option ℚ
  qmin : ℤ → Option ℚ
  qmax : ℤ → Option ℚ
  quad : ℤ → ℤ → ℤ → Option ℚ
  dx : ℚ
  dy : ℚ
  xc : ℚ
  yc : ℚ
  ivar : ℤ
  threshold : ℚ
  initFlag : ℤ
  isGhost : Bool

/-- `FCLAW_REFINE_CRITERIA_*`; a user criterion is the function that was set in
the clawpatch virtual table, if any. -/
inductive Criterion where
  | value
  | difference
  | minmax
  | gradient
  | user (f : Option (Args → ℤ))
  | other

/-- What does not change during tagging: the option `refinement-criteria`, the
option `threshold-variable`, the mapping if one is used. -/
structure Env where
  criterion : Criterion
  ivar : ℤ
  map : Option (ℤ → ℚ → ℚ → Vec)

/-- `fort_user/fclaw2d_clawpatch_value_exceeds_th.f90` 19–44. -/
def valueExceeds (a : Args) : Option ℤ :=
  match a.qval a.ivar with
  | some v => some (if v > a.threshold then 1 else 0)
  | none => none

/-- `fort_user/fclaw2d_clawpatch_difference_exceeds_th.f90` 19–56. -/
def differenceExceeds (a : Args) : Option ℤ :=
  if a.isGhost then some (-1)
  else
    match a.quad 1 0 a.ivar, a.quad (-1) 0 a.ivar, a.quad 0 1 a.ivar, a.quad 0 (-1) a.ivar with
    | some e, some w, some n, some s =>
      let dqx := |e - w|
      let dqy := |n - s|
      let dq := max dqx dqy
      some (if dq > a.threshold then 1 else 0)
    | _, _, _, _ => none

/-- `fort_user/fclaw2d_clawpatch_minmax_exceeds_th.f90` 20–47. -/
def minmaxExceeds (a : Args) : Option ℤ :=
  match a.qmax a.ivar, a.qmin a.ivar with
  | some hi, some lo => some (if hi - lo > a.threshold then 1 else 0)
  | _, _ => none

/-- `fort_user/fclaw2d_clawpatch_gradient_exceeds_th.f90` 117–124
(`clawpatch_gradient_dot`). -/
def dot (u v : Vec) : ℚ := u.1 * v.1 + u.2.1 * v.2.1 + u.2.2 * v.2.2

/-- `fort_user/fclaw2d_clawpatch_gradient_exceeds_th.f90` 99–103: is
`sqrt(dot(grad,grad))` greater than the threshold? -/
def lengthExceeds (grad : Vec) (threshold : ℚ) : Bool :=
  decide (threshold < 0) || decide (dot grad grad > threshold * threshold)

/-- A difference quotient of two points,
`fort_user/fclaw2d_clawpatch_gradient_exceeds_th.f90` 66–75. -/
def quotient (p m : Vec) (h : ℚ) : Vec :=
  ((p.1 - m.1) / h, (p.2.1 - m.2.1) / h, (p.2.2 - m.2.2) / h)

/-- `a*u + b*v`. -/
def comb (a b : ℚ) (u v : Vec) : Vec :=
  (a * u.1 + b * v.1, a * u.2.1 + b * v.2.1, a * u.2.2 + b * v.2.2)

/-- `fort_user/fclaw2d_clawpatch_gradient_exceeds_th.f90` 19–109. -/
def gradientExceeds (map : Option (ℤ → ℚ → ℚ → Vec)) (a : Args) : Option ℤ :=
  if a.isGhost then some (-1)
  else
    match a.quad 1 0 a.ivar, a.quad (-1) 0 a.ivar, a.quad 0 1 a.ivar, a.quad 0 (-1) a.ivar with
    | some e, some w, some n, some s =>
      if a.dx = 0 ∨ a.dy = 0 then none
      else
        let dx2 := 2 * a.dx
        let dy2 := 2 * a.dy
        let dqx := (e - w) / dx2
        let dqy := (n - s) / dy2
        match map with
        | some c2m =>
          let t1 := quotient (c2m a.blockno (a.xc + a.dx) a.yc)
            (c2m a.blockno (a.xc - a.dx) a.yc) dx2
          let t2 := quotient (c2m a.blockno a.xc (a.yc + a.dy))
            (c2m a.blockno a.xc (a.yc - a.dy)) dy2
          let g11 := dot t1 t1
          let g12 := dot t1 t2
          let g21 := g12
          let g22 := dot t2 t2
          let d := g11 * g22 - g12 * g21
          if d = 0 then none
          else
            let i11 := g22 / d
            let i22 := g11 / d
            let i12 := -g12 / d
            let i21 := -g21 / d
            let t1inv := comb i11 i12 t1 t2
            let t2inv := comb i21 i22 t1 t2
            let grad := comb dqx dqy t1inv t2inv
            some (if lengthExceeds grad a.threshold then 1 else 0)
        | none => some (if lengthExceeds (dqx, dqy, 0) a.threshold then 1 else 0)
    | _, _, _, _ => none

/-- `fort_user/fclaw2d_clawpatch_tag_criteria.c` 41–118.  A user criterion
without a function is a failed assertion or the call of a null pointer. -/
def tagCriteria (env : Env) (a : Args) : Option ℤ :=
  match env.criterion with
  | .value => valueExceeds a
  | .difference => differenceExceeds a
  | .minmax => minmaxExceeds a
  | .gradient => gradientExceeds env.map a
  | .user (some f) => some (f a)
  | .user none => none
  | .other => none

/-- `fort_4.6/fclaw2d_clawpatch46_tag4refinement.f` 89–106. -/
def isGhost (d : Dims) (i j : ℤ) : Bool :=
  if i < 1 ∨ j < 1 then true
  else if i > d.mx ∨ j > d.my then true
  else false

/-- A patch: its solution and its lower left corner. -/
structure Patch where
  q : Grid ℚ
  xlower : ℚ
  ylower : ℚ

/-- What the patches have in common. -/
structure Shared where
  dims : Dims
  blockno : ℤ
  dx : ℚ
  dy : ℚ
  threshold : ℚ
  initFlag : ℤ

/-- The variables of the loops. -/
structure Scan where
  qval : ℤ → Option ℚ
  qmin : ℤ → Option ℚ
  qmax : ℤ → Option ℚ
  quad : ℤ → ℤ → ℤ → Option ℚ
  /-- `tag_patch` has been changed and the subroutine left. -/
  found : Bool

/-- An assignment to an element of an array. -/
def setAt (a : ℤ → Option ℚ) (k : ℤ) (v : ℚ) : ℤ → Option ℚ :=
  fun k' => if k' = k then some v else a k'

/-- `tag4refinement.f` 40–43, `tag4coarsening.f` 36–39. -/
def firstStep (d : Dims) (q : Grid ℚ) (mq : ℤ) (s : Scan) : Option Scan :=
  match rd d q (1, 1, mq) with
  | some v => some { s with qmin := setAt s.qmin mq v, qmax := setAt s.qmax mq v }
  | none => none

/-- `tag4refinement.f` 48–52, `tag4coarsening.f` 102–106. -/
def componentStep (d : Dims) (q : Grid ℚ) (i j mq : ℤ) (s : Scan) : Option Scan :=
  match rd d q (i, j, mq), s.qmin mq, s.qmax mq with
  | some v, some lo, some hi =>
    some { s with
      qval := setAt s.qval mq v
      qmin := setAt s.qmin mq (min lo v)
      qmax := setAt s.qmax mq (max hi v) }
  | _, _, _ => none

/-- `tag4refinement.f` 58, `tag4coarsening.f` 112. -/
def quadStep (d : Dims) (q : Grid ℚ) (i j ii jj mq : ℤ) (s : Scan) : Option Scan :=
  match rd d q (i + ii, j + jj, mq) with
  | some v =>
    some { s with
      quad := fun a b c => if a = ii ∧ b = jj ∧ c = mq then some v else s.quad a b c }
  | none => none

/-- `tag4refinement.f` 55–61. -/
def fillQuad (d : Dims) (q : Grid ℚ) (i j : ℤ) : Scan → Option Scan :=
  doLoop (-1) 1 fun jj => doLoop (-1) 1 fun ii => doLoop 1 d.meqn fun mq =>
    quadStep d q i j ii jj mq

/-- `tag4coarsening.f` 109–115. -/
def fillQuad' (d : Dims) (q : Grid ℚ) (i j : ℤ) : Scan → Option Scan :=
  doLoop (-1) 1 fun ii => doLoop (-1) 1 fun jj => doLoop 1 d.meqn fun mq =>
    quadStep d q i j ii jj mq

/-- The body of the loops over the cells, `tag4refinement.f` 46–72,
`tag4coarsening.f` 100–130.  They differ only in the order in which `quad` is
filled. -/
def cellStep (env : Env) (sh : Shared) (p : Patch)
    (fill : Dims → Grid ℚ → ℤ → ℤ → Scan → Option Scan) (i j : ℤ) (s : Scan) : Option Scan :=
  if s.found then some s
  else
    match doLoop 1 sh.dims.meqn (fun mq => componentStep sh.dims p.q i j mq) s with
    | none => none
    | some s1 =>
      match (if isGhost sh.dims i j then some s1 else fill sh.dims p.q i j s1) with
      | none => none
      | some s2 =>
        match tagCriteria env
          { blockno := sh.blockno, meqn := sh.dims.meqn, qval := s2.qval, qmin := s2.qmin,
            qmax := s2.qmax, quad := s2.quad, dx := sh.dx, dy := sh.dy,
            xc := p.xlower + (i - 1 / 2) * sh.dx, yc := p.ylower + (j - 1 / 2) * sh.dy,
            ivar := env.ivar, threshold := sh.threshold, initFlag := sh.initFlag,
            isGhost := isGhost sh.dims i j } with
        | none => none
        | some r => some { s2 with found := decide (r > 0) }

/-- Nothing has been set. -/
def Scan.unset : Scan :=
  { qval := fun _ => none, qmin := fun _ => none, qmax := fun _ => none,
    quad := fun _ _ _ => none, found := false }

/-- `fort_4.6/fclaw2d_clawpatch46_tag4refinement.f` 11–76: the value of
`tag_patch`. -/
def fortTag4refinement (env : Env) (sh : Shared) (p : Patch) : Option ℤ :=
  let d := sh.dims
  match doLoop 1 d.meqn (firstStep d p.q) Scan.unset with
  | none => none
  | some s =>
    match doLoop (1 - d.mbc) (d.my + d.mbc) (fun j =>
      doLoop (1 - d.mbc) (d.mx + d.mbc) fun i => cellStep env sh p fillQuad i j) s with
    | none => none
    | some s => some (if s.found then 1 else 0)

/-- `fort_4.6/fclaw2d_clawpatch46_tag4coarsening.f` 81–134
(`fclaw2d_clawpatch46_test_refine`): `qmin` and `qmax` belong to the caller,
`quad` and `qval` are new variables. -/
def testRefine (env : Env) (sh : Shared) (p : Patch) (s : Scan) : Option Scan :=
  let d := sh.dims
  doLoop (1 - d.mbc) (d.mx + d.mbc) (fun i =>
    doLoop (1 - d.mbc) (d.my + d.mbc) fun j => cellStep env sh p fillQuad' i j)
    { s with qval := fun _ => none, quad := fun _ _ _ => none }

/-- `fort_4.6/fclaw2d_clawpatch46_tag4coarsening.f` 41–60: the tests of the
siblings, the next one only if the previous ones have not found anything. -/
def testAll (env : Env) (sh : Shared) : List Patch → Scan → Option Scan
  | [], s => some s
  | p :: ps, s =>
    match testRefine env sh p s with
    | none => none
    | some s' => if s'.found then some s' else testAll env sh ps s'

/-- `fort_4.6/fclaw2d_clawpatch46_tag4coarsening.f` 11–61: the value of
`tag_patch`. -/
def fortTag4coarsening (env : Env) (sh : Shared) (p0 p1 p2 p3 : Patch) : Option ℤ :=
  let d := sh.dims
  if sh.initFlag ≠ 0 then some 0
  else
    match doLoop 1 d.meqn (firstStep d p0.q) Scan.unset with
    | none => none
    | some s =>
      match testAll env sh [p0, p1, p2, p3] s with
      | none => none
      | some s => some (if s.found then 0 else 1)

/-- `src/patches/clawpatch/fclaw2d_clawpatch.cpp` 799–850
(`clawpatch_tag4refinement`); `sh.threshold` is the option
`refine_threshold`. -/
def tag4refinement (env : Env) (sh : Shared) (p : Patch) : Option ℤ :=
  if sh.threshold < 0 then some 1 else fortTag4refinement env sh p

/-- `src/patches/clawpatch/fclaw2d_clawpatch.cpp` 852–915
(`clawpatch_tag4coarsening`); `sh.threshold` is the option
`coarsen_threshold`. -/
def tag4coarsening (env : Env) (sh : Shared) (p0 p1 p2 p3 : Patch) : Option Bool :=
  if sh.threshold > 0 then
    (fortTag4coarsening env sh p0 p1 p2 p3).map fun t => decide (t = 1)
  else some false

end Fclaw.Tag
