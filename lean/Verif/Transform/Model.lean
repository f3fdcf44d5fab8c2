import Mathlib.Data.Rat.Defs
import Mathlib.Algebra.Order.Ring.Rat
/-
Model of the index transformations between neighbouring patches, src/forestclaw2d.c:543-977 and
1127-1383, for both dimensions (`d3 = false` is the 2D code, `d3 = true` the code compiled with
P4_TO_P8). `double` is `ℚ`: all intermediate values are multiples of 1/2 below 2^52 (see the comment
on line 652 of the source), so they are exact. A cast to `int` truncates towards zero.
`none` is a failed assertion or abort. Arrays are functions of the index; uninitialised arrays are
explicit arguments (`junk`).
-/
set_option autoImplicit false
set_option linter.unusedVariables false
namespace Fclaw.Transform

/-- C conversion of a double to `int`. -/
def trunc (q : ℚ) : ℤ := q.num.tdiv q.den

def upd {α : Type} (f : Nat → α) (k : Nat) (v : α) : Nat → α := fun x => if x = k then v else f x

/-- `level` and `xlower, ylower, zlower` of a patch. -/
structure Patch where
  level : Nat
  lower : Nat → ℚ

/-- `fclaw2d_patch_face_transformation_valid`, src/forestclaw2d.c:589-606. -/
def valid (d3 : Bool) (ft : Nat → Nat) : Bool :=
  let mx : List Nat := if d3 then [2, 2, 2, 2, 2, 2, 1, 1, 7] else [1, 0, 1, 1, 0, 1, 1, 0, 7]
  (List.range 9).all fun i => decide (ft i ≤ mx[i]?.getD 0)

/-- `p4est_expand_face_transform` in 2D (p4est, external, by its documentation and the description
in src/fclaw2d_patch.h:112-130), as called by `fclaw2d_patch_face_transformation`,
src/forestclaw2d.c:560-565. `nface` is the neighbour face plus 4 times the orientation. -/
def expand2 (iface nface : Nat) : Nat → Nat
  | 0 => if iface / 2 = 0 then 1 else 0
  | 1 => 0
  | 2 => iface / 2
  | 3 => if nface % 4 / 2 = 0 then 1 else 0
  | 4 => 0
  | 5 => nface % 4 / 2
  | 6 => nface / 4
  | 7 => 0
  | 8 => 2 * (iface % 2) + nface % 4 % 2
  | _ => 0

/-- `fclaw2d_patch_face_transformation_block`, src/forestclaw2d.c:567-580 (bit 4 of entry 8). -/
def setBlock (ft : Nat → Nat) (sameblock : Bool) : Nat → Nat :=
  upd ft 8 (if sameblock then (if ft 8 / 4 % 2 = 1 then ft 8 else ft 8 + 4)
            else (if ft 8 / 4 % 2 = 1 then ft 8 - 4 else ft 8))

/-- `fclaw2d_patch_face_transformation_intra`, src/forestclaw2d.c:582-587. -/
def intra : Nat → Nat := upd (fun _ => 0) 8 4

/-- Assertions common to all transformations (lines 624-641): sizes and index base. -/
def sizesOk (d3 : Bool) (m : Nat → Nat) (based : Nat) : Bool :=
  decide (1 ≤ m 0) && decide (1 ≤ m 1) && (!d3 || decide (1 ≤ m 2)) && decide (based ≤ 1)

/-- Transversal directions, lines 698-700. -/
def tang (rev : Nat) (x R : ℚ) : ℚ := if rev = 0 then x else R - x

/-- Normal direction, lines 710-729. -/
def normal (er : Nat) (x R : ℚ) : Option ℚ :=
  match er with
  | 0 => some (-x)
  | 1 => some (x + R)
  | 2 => some (x - R)
  | 3 => some (2 * R - x)
  | _ => none

/-- `target_xyz` from `my_xyz`, lines 696-729 and 876-908. -/
def target (d3 : Bool) (ft : Nat → Nat) (mine R : Nat → ℚ) (junk : Nat → ℚ) : Option (Nat → ℚ) :=
  let t0 := upd junk (ft 3) (tang (ft 6) (mine (ft 0)) (R (ft 0)))
  let t1 := if d3 then upd t0 (ft 4) (tang (ft 7) (mine (ft 1)) (R (ft 1))) else t0
  match normal (ft 8) (mine (ft 2)) (R (ft 2)) with
  | none => none
  | some v => some (upd t1 (ft 5) v)

/-- The debug assertions `mxmymz[my_axis[l]] == mxmymz[target_axis[l]]`. -/
def axesOk (d3 : Bool) (ft m : Nat → Nat) : Bool :=
  decide (m (ft 0) = m (ft 3)) && (!d3 || decide (m (ft 1) = m (ft 4))) && decide (m (ft 2) = m (ft 5))

/-- `fclaw2d_patch_transform_face`, src/forestclaw2d.c:608-745: the new `*i, *j (, *k)` as a
function of the axis. -/
def transformFace (d3 : Bool) (ip op : Patch) (ft m : Nat → Nat) (based : Nat) (idx : Nat → ℤ)
    (junk : Nat → ℚ) : Option (Nat → ℤ) :=
  if ip.level ≠ op.level ∨ sizesOk d3 m based = false ∨ valid d3 ft = false then none else
  let iwidth : ℚ := 2 ^ ip.level
  if ft 8 / 4 % 2 = 1 then
    some fun a => idx a + trunc ((ip.lower a - op.lower a) * iwidth * (m a : ℚ))
  else if axesOk d3 ft m = false then none
  else
    let R : Nat → ℚ := fun a => iwidth * (m a : ℚ)
    let mine : Nat → ℚ := fun a => ip.lower a * R a + idx a - 1 / 2 * based
    (target d3 ft mine R junk).map fun t =>
      fun a => trunc (t a - op.lower a * R a + 1 / 2 * based)

/-- Small patch coordinate `is[]` as a function of the axis. -/
def bits (x y z : Nat) : Nat → Nat := fun a => if a = 0 then x else if a = 1 then y else z

/-- Logical negation of a bit. -/
def neg (b : Nat) : Nat := if b = 0 then 1 else 0

/-- `in[]` from `is[]`, lines 928-952. -/
def bigCoord (d3 : Bool) (ft : Nat → Nat) (is : Nat → Nat) : Nat → Nat :=
  let ib0 := if ft 6 = 0 then is (ft 3) else neg (is (ft 3))
  let ib1 := if ft 7 = 0 then is (ft 4) else neg (is (ft 4))
  let ib2 := if ft 8 = 1 ∨ ft 8 = 2 then is (ft 5) else neg (is (ft 5))
  let n0 := upd (fun _ => 0) (ft 0) ib0
  let n1 := if d3 then upd n0 (ft 1) ib1 else n0
  upd n1 (ft 2) ib2

/-- Position of a child in the output arrays. -/
def childNo (b : Nat → Nat) : Nat := 4 * b 2 + 2 * b 1 + b 0

/-- The order of the loops over child cells: `is[2]` (3D only), `is[1]`, `is[0]`. -/
def childLoop (d3 : Bool) : List (Nat → Nat) :=
  (if d3 then [0, 1] else [0]).flatMap fun z => [0, 1].flatMap fun y => [0, 1].map fun x => bits x y z

/-- Writes into the output arrays, one entry per child. -/
def writeAll (key : (Nat → Nat) → Nat) (val : (Nat → Nat) → Nat → ℤ) (l : List (Nat → Nat)) :
    Nat → Option (Nat → ℤ) :=
  l.foldl (fun o is => upd o (key is) (some (val is))) (fun _ => none)

/-- `fclaw2d_patch_transform_face2`, src/forestclaw2d.c:747-977: the contents of the output arrays
`i[], j[] (, k[])`; an entry that is not written is `none`. -/
def transformFace2 (d3 : Bool) (ip op : Patch) (ft m : Nat → Nat) (based : Nat) (idx : Nat → ℤ)
    (junk : Nat → ℚ) : Option (Nat → Option (Nat → ℤ)) :=
  if ip.level + 1 ≠ op.level ∨ sizesOk d3 m based = false ∨ valid d3 ft = false then none else
  let owidth : ℚ := 2 ^ op.level
  if ft 8 / 4 % 2 = 1 then
    let d : Nat → ℤ := fun a => based +
      trunc ((ip.lower a - op.lower a) * owidth * (m a : ℚ) + 2 * ((idx a : ℚ) - based))
    some (writeAll childNo (fun is a => d a + is a) (childLoop d3))
  else if axesOk d3 ft m = false then none
  else
    let R : Nat → ℚ := fun a => owidth * (m a : ℚ)
    let mine : Nat → ℚ := fun a => ip.lower a * R a + 2 * ((idx a : ℚ) + 1 / 2 - based)
    (target d3 ft mine R junk).map fun t =>
      let d : Nat → ℤ := fun a => trunc (t a - op.lower a * R a) + based - 1
      writeAll (fun is => childNo (bigCoord d3 ft is)) (fun is a => d a + is a) (childLoop d3)

/-- The shift across a block corner, lines 1177-1227 and 1291-1341: for axis `a`, +1 if the corner
lies on the lower face of the patch, otherwise -1. The debug assertions on the position of the
neighbour are in `cornerOk`. -/
def shift (icorner : Nat) (isBlockBoundary : Bool) (a : Nat) : ℚ :=
  if isBlockBoundary then (if icorner / 2 ^ a % 2 = 0 then 1 else -1) else 0

/-- Debug assertions of lines 1192-1223 for exact coordinates: the neighbour touches the block
corner. `upper` is `lower + 2^-level`. -/
def cornerOk (d3 : Bool) (op : Patch) (icorner : Nat) (isBlockBoundary : Bool) : Bool :=
  !isBlockBoundary || ((if d3 then [0, 1, 2] else [0, 1]).all fun a =>
    if icorner / 2 ^ a % 2 = 0 then decide (op.lower a + 1 / 2 ^ op.level = 1)
    else decide (op.lower a = 0))

/-- `fclaw2d_patch_transform_corner`, src/forestclaw2d.c:1127-1236. -/
def transformCorner (d3 : Bool) (ip op : Patch) (icorner : Nat) (isBlockBoundary : Bool)
    (m : Nat → Nat) (based : Nat) (idx : Nat → ℤ) : Option (Nat → ℤ) :=
  if ip.level ≠ op.level ∨ sizesOk d3 m based = false ∨ cornerOk d3 op icorner isBlockBoundary = false
  then none
  else
    some fun a => idx a + trunc ((ip.lower a - op.lower a + shift icorner isBlockBoundary a) *
      (2 ^ ip.level * (m a : ℚ)))

/-- `fclaw2d_patch_transform_corner2`, src/forestclaw2d.c:1238-1383. -/
def transformCorner2 (d3 : Bool) (ip op : Patch) (icorner : Nat) (isBlockBoundary : Bool)
    (m : Nat → Nat) (based : Nat) (idx : Nat → ℤ) : Option (Nat → Option (Nat → ℤ)) :=
  if ip.level + 1 ≠ op.level ∨ sizesOk d3 m based = false ∨
      cornerOk d3 op icorner isBlockBoundary = false
  then none
  else
    let d : Nat → ℤ := fun a => based +
      trunc ((ip.lower a - op.lower a + shift icorner isBlockBoundary a) *
        (2 ^ op.level * (m a : ℚ)) + 2 * ((idx a : ℚ) - based))
    some (writeAll childNo (fun is a => d a + is a) (childLoop d3))

end Fclaw.Transform
