/-
Model of the flags and positions of patches, `src/fclaw2d_convenience.c` 43–86, 193–202, 211–228
and 283–292, of their queries `src/forestclaw2d.c` 136–160 and `src/fclaw2d_block.c` 33–47, and of
the query for physical boundaries `src/fclaw2d_physical_bc.c` 79–93.  The code is compiled for two
and for three dimensions.

What is simplified.
* `flags` is a natural number with the bits of the C integer, coordinates are integers: they are
  at most `P4EST_ROOT_LEN`, which is `2 ^ 30` (2D) or `2 ^ 19` (3D).  The exponent is a parameter `L`.
* Coordinates of patches are rational numbers.
* `none` is a failed assertion.
-/
import Verif.FaceNbr.Model
import Mathlib.Data.Rat.Defs
import Mathlib.Algebra.Order.Ring.Rat

set_option autoImplicit false

namespace Fclaw.BlockFace

/-- `p4est_quadrant_t`: coordinates of the lower corner, by axis, and level. -/
structure Quad where
  x : Nat → Int
  level : Nat

/-- `P4EST_QUADRANT_LEN`. -/
def quadLen (L level : Nat) : Int := 2 ^ (L - level)

/-- `P4EST_ROOT_LEN`. -/
def rootLen (L : Nat) : Int := 2 ^ L

/-- `p4est_quadrant_child_id`: zero for the root, else the bits of the coordinates that belong to
the level. -/
def childId (dim3 : Bool) (L : Nat) (q : Quad) : Nat :=
  if q.level = 0 then 0
  else
    let bit := fun a => (q.x a / quadLen L q.level % 2).toNat
    bit 0 ||| (bit 1 <<< 1) ||| (if dim3 then bit 2 <<< 2 else 0)

/-- A patch, as far as it is set in `fclaw2d_patch_set_boundary_xylower`: flags and lower and upper
coordinates, by axis. -/
structure Patch where
  flags : Nat
  lower : Nat → ℚ
  upper : Nat → ℚ

/-- `src/forestclaw2d.h` 60–88, `src/forestclaw3d.h` 60–85. -/
abbrev CHILDID : Nat := 0x7
abbrev FIRST_SIBLING : Nat := 0x8
abbrev ON_PARALLEL_BOUNDARY : Nat := 0x10
abbrev IS_GHOST : Nat := 0x20
abbrev FACE_0 : Nat := 0x40
abbrev FACE_1 : Nat := 0x80
abbrev FACE_2 : Nat := 0x100
abbrev FACE_3 : Nat := 0x200
abbrev FACE_4 : Nat := 0x400
abbrev FACE_5 : Nat := 0x800

/-- `patch->flags |= flag` under a condition. -/
def orIf (c : Bool) (flag flags : Nat) : Nat := if c then flags ||| flag else flags

/-- `src/fclaw2d_convenience.c` 43–86. -/
def setBoundary (dim3 : Bool) (L : Nat) (q : Quad) (flags : Nat) : Patch :=
  let qh := quadLen L q.level
  let f := orIf (decide (q.x 0 = 0)) FACE_0 flags
  let f := orIf (decide (q.x 0 + qh = rootLen L)) FACE_1 f
  let f := orIf (decide (q.x 1 = 0)) FACE_2 f
  let f := orIf (decide (q.x 1 + qh = rootLen L)) FACE_3 f
  let f := if dim3 then orIf (decide (q.x 2 = 0)) FACE_4 f else f
  let f := if dim3 then orIf (decide (q.x 2 + qh = rootLen L)) FACE_5 f else f
  { flags := f
    lower := fun a => q.x a * (1 / rootLen L)
    upper := fun a => (q.x a + qh : ℤ) * (1 / rootLen L) }

/-- A local patch, `src/fclaw2d_convenience.c` 213–242; whether it is the first of a family and
whether it is a mirror are input. -/
def localPatch (dim3 : Bool) (L : Nat) (q : Quad) (family mirror : Bool) : Patch :=
  setBoundary dim3 L q (orIf mirror ON_PARALLEL_BOUNDARY (orIf family FIRST_SIBLING (childId dim3 L q)))

/-- A ghost patch, `src/fclaw2d_convenience.c` 283–292. -/
def ghostPatch (dim3 : Bool) (L : Nat) (q : Quad) : Patch :=
  setBoundary dim3 L q (childId dim3 L q ||| IS_GHOST)

/-- `fclaw2d_patch_childid`, `src/forestclaw2d.c` 138–146. -/
def patchChildid (p : Patch) : Nat := p.flags &&& CHILDID
/-- `fclaw2d_patch_is_first_sibling`, `src/forestclaw2d.c` 148–153. -/
def isFirstSibling (p : Patch) : Bool := decide (p.flags &&& FIRST_SIBLING ≠ 0)
/-- `fclaw2d_patch_is_ghost`, `src/forestclaw2d.c` 155–159. -/
def isGhost (p : Patch) : Bool := decide (p.flags &&& IS_GHOST ≠ 0)
/-- `fclaw2d_patch_on_parallel_boundary`, `src/fclaw2d_patch.c` 1062–1065. -/
def onParallelBoundary (p : Patch) : Bool := decide (p.flags &&& ON_PARALLEL_BOUNDARY ≠ 0)

/-- `fclaw2d_patch_block_face_flags`, `src/forestclaw2d.c` 39–44, `src/forestclaw3d.c` 29–36. -/
def faceFlags (dim3 : Bool) : List Nat :=
  if dim3 then [FACE_0, FACE_1, FACE_2, FACE_3, FACE_4, FACE_5] else [FACE_0, FACE_1, FACE_2, FACE_3]

/-- `fclaw2d_block_get_block_boundary`, `src/fclaw2d_block.c` 33–47. -/
def blockBoundary (dim3 : Bool) (p : Patch) : List Bool :=
  (faceFlags dim3).map fun flag => decide (p.flags &&& flag ≠ 0)

/-- The arrays of `p4est_connectivity_t` that are read. -/
structure Conn where
  treeToTree : Nat → Nat → Nat
  treeToFace : Nat → Nat → Int

/-- `block->is_boundary`, `src/fclaw2d_convenience.c` 193–202. -/
def isBoundary (c : Conn) (b f : Nat) : Bool :=
  decide (c.treeToTree b f = b ∧ c.treeToFace b f = f)

/-- `fclaw2d_patch_boundary_type` with its assertion, `src/forestclaw2d.c` 331–345. -/
def boundaryType (D : FaceNbr.Dim) (c : Conn) (M : FaceNbr.Mesh) (b p : Nat) : Option (List Bool) :=
  let t := FaceNbr.boundaryType D M b p
  if (List.range D.faces).all fun f => !(t.getD f false) || isBoundary c b f then some t else none

/-- `fclaw2d_physical_get_bc`, `src/fclaw2d_physical_bc.c` 79–93. -/
def physicalGetBc (D : FaceNbr.Dim) (c : Conn) (M : FaceNbr.Mesh) (b p : Nat) : Option (List Bool) :=
  (boundaryType D c M b p).map fun t => t.map fun x => decide (x = true)

end Fclaw.BlockFace
