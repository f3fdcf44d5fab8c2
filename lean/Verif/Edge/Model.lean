import Verif.Transform.Model
import Verif.FaceNbr.Model
/-
Model of the code for edges of three-dimensional patches, src/forestclaw3d.c:39-391: the query for
the neighbour across an edge, the change of perspective and the index transformations. Numbers and
arrays are as in `Verif.Transform.Model` (`double` is `ℚ`, a cast truncates) and `none` is a failed
assertion or abort.
-/
set_option autoImplicit false
namespace Fclaw.Edge

open Fclaw.Transform (Patch trunc upd sizesOk writeAll childNo childLoop)
open Fclaw.FaceNbr (Mesh Rel relOfLevels)

/-- `fclaw3d_domain_num_edges`, src/forestclaw3d.c:39-43 (`P8EST_EDGES`). -/
def numEdges : Nat := 12

/-- `iedge & 12`, `iedge & 1` and `iedge & 2` on nonnegative numbers. -/
def and12 (e : Nat) : Nat := 4 * (e / 4 % 4)
def and1 (e : Nat) : Nat := e % 2
def and2 (e : Nat) : Nat := 2 * (e / 2 % 2)

/-- `e ^ 3`: the two lowest bits are flipped. -/
def xor3 (e : Nat) : Nat := 4 * (e / 4) + (1 - e % 2) + 2 * (1 - e / 2 % 2)

/-- `shiftinds`, src/forestclaw3d.c:210-231 and 304-325 (`none`: assertion of lines 227, 321). -/
def shiftInds (iedge : Nat) : Option (Nat × Nat) :=
  if and12 iedge = 0 then some (1, 2)
  else if and12 iedge = 4 then some (0, 2)
  else if and12 iedge = 8 then some (0, 1)
  else none

/-- `xyzshift`, src/forestclaw3d.c:206-249 and 300-343. -/
def xyzShift (iedge : Nat) (isBlockBoundary : Bool) : Option (Nat → ℚ) :=
  let s0 : Nat → ℚ := fun _ => 0
  if isBlockBoundary then
    (shiftInds iedge).map fun si =>
      let s1 := upd s0 si.1 (if and1 iedge = 0 then 1 else -1)
      upd s1 si.2 (if and2 iedge = 0 then 1 else -1)
  else some s0

/-- The debug assertions "verify the blocks are edge-neighbors", src/forestclaw3d.c:250-264 and
344-358, for exact coordinates; `upper` is `lower + 2^-level`. -/
def edgeOk (op : Patch) (s : Nat → ℚ) : Bool :=
  [0, 1, 2].all fun a =>
    decide (s a = 0) || (decide (s a = 1) && decide (op.lower a + 1 / 2 ^ op.level - 1 = 0)) ||
      (decide (s a = -1) && decide (op.lower a = 0))

/-- `fclaw3d_patch_transform_edge`, src/forestclaw3d.c:180-275: the new `*i, *j, *k` as a function
of the axis. The assertions are only made across a block edge. -/
def transformEdge (ip op : Patch) (iedge : Nat) (isBlockBoundary : Bool) (m : Nat → Nat) (based : Nat)
    (idx : Nat → ℤ) : Option (Nat → ℤ) :=
  if ip.level ≠ op.level ∨ sizesOk true m based = false then none else
  match xyzShift iedge isBlockBoundary with
  | none => none
  | some s =>
    if isBlockBoundary = true ∧ edgeOk op s = false then none else
    some fun a => idx a + trunc ((ip.lower a - op.lower a + s a) * (2 ^ ip.level * (m a : ℚ)))

/-- `fclaw3d_patch_transform_edge2`, src/forestclaw3d.c:277-391: the contents of `i[], j[], k[]`. -/
def transformEdge2 (ip op : Patch) (iedge : Nat) (isBlockBoundary : Bool) (m : Nat → Nat) (based : Nat)
    (idx : Nat → ℤ) : Option (Nat → Option (Nat → ℤ)) :=
  if ip.level + 1 ≠ op.level ∨ sizesOk true m based = false then none else
  match xyzShift iedge isBlockBoundary with
  | none => none
  | some s =>
    if isBlockBoundary = true ∧ edgeOk op s = false then none else
    let d : Nat → ℤ := fun a => based +
      trunc ((ip.lower a - op.lower a + s a) * (2 ^ op.level * (m a : ℚ)) + 2 * ((idx a : ℚ) - based))
    some (writeAll childNo (fun is a => d a + is a) (childLoop true))

/-- `fclaw2d_patch_edge_swap`, src/forestclaw3d.c:169-177 (declared as `fclaw3d_patch_edge_swap` in
src/forestclaw3d.h:602): the new `*edgeno` and `*redgeno`. -/
def edgeSwap (er : Nat × Nat) : Nat × Nat :=
  let swap := er.1
  (er.2, swap)

/-- The arrays of `p8est_mesh_t` for edges, besides those for faces. -/
structure EdgeMesh where
  base : Mesh
  quadToEdge : Nat → Nat → Int
  edgeOffset : Nat → Nat
  edgeQuad : Nat → Nat
  edgeEdge : Nat → Nat

/-- Output of the query: `*rproc`, `*rblockno` and `*rpatchno` are not written for a boundary. -/
structure EdgeResult where
  rel : Rel
  rproc : Option Int
  rblockno : Option Int
  rpatchno : Option Int
  redge : Int
  deriving DecidableEq, Repr

/-- First half of `fclaw3d_patch_edge_neighbors`, src/forestclaw3d.c:74-113: the neighbouring
quadrant (`none`: -1) and its edge. -/
def edgeQuad (M : EdgeMesh) (leaf edgeno : Nat) : Option (Option (Nat × Nat)) :=
  let qid := M.quadToEdge leaf edgeno
  if qid < 0 then some none
  else
    let q := qid.toNat
    if M.base.localNum + M.base.ghostNum ≤ q then
      let k := q - (M.base.localNum + M.base.ghostNum)
      let cstart := M.edgeOffset k
      let cend := M.edgeOffset (k + 1)
      if cstart + 1 < cend then some none
      else if cstart + 1 = cend then
        if M.edgeEdge cstart < numEdges then some (some (M.edgeQuad cstart, M.edgeEdge cstart))
        else none
      else none
    else some (some (q, xor3 edgeno))

/-- `fclaw3d_patch_edge_neighbors`, src/forestclaw3d.c:45-167. The function returns whether `rel` is
not a boundary. -/
def edgeNeighbors (M : EdgeMesh) (blockno patchno edgeno : Nat) : Option EdgeResult :=
  if M.base.num blockno ≤ patchno ∨ numEdges ≤ edgeno then none else
  let leaf := M.base.before blockno + patchno
  match edgeQuad M leaf edgeno with
  | none => none
  | some none => some ⟨.boundary, none, none, none, -1⟩
  | some (some (q, re)) =>
    if q < M.base.localNum then
      let b := M.base.quadToTree q
      if M.base.before b ≤ q ∧ q - M.base.before b < M.base.num b then
        (relOfLevels (M.base.level q) (M.base.level leaf)).map fun r =>
          ⟨r, some M.base.rank, some b, some (q - M.base.before b : Nat), re⟩
      else none
    else
      let g := q - M.base.localNum
      if g < M.base.ghostNum ∧ M.base.ghostToProc g ≠ M.base.rank then
        (relOfLevels (M.base.ghostLevel g) (M.base.level leaf)).map fun r =>
          ⟨r, some (M.base.ghostToProc g), some (M.base.ghostTree g), some g, re⟩
      else none

end Fclaw.Edge
