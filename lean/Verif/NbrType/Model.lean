/-
Model of the neighbour summaries of patches, `src/fclaw2d_patch.c` 929–1058, and
of the functions that fill them, `src/fclaw2d_regrid.c` 116–229, 338–400.

What is simplified.
* A patch record holds only the fields that concern neighbours.  Fields that
  have not been written are unspecified: a fresh record takes them from an
  arbitrary earlier content of the memory.
* The numbers of faces, edges and corners are parameters: 4, 0, 4 for the
  library in two dimensions, 6, 12, 8 in three dimensions.
-/
import Mathlib.Data.List.Basic

set_option autoImplicit false

namespace Fclaw.NbrType

/-- `fclaw2d_patch_relation_t`, `src/forestclaw2d.h`. -/
inductive Relation where
  | boundary | halfsize | samesize | doublesize
  deriving DecidableEq

/-- The numbers of faces, edges and corners of a patch. -/
structure Shape where
  faces : Nat
  edges : Nat
  corners : Nat

/-- `fclaw2d_patch_data`, `src/fclaw2d_patch.h` 74–105 (with the edges of
`src/fclaw3d_patch.h` 82). -/
structure PatchData where
  faceNeighbors : Nat → Relation
  edgeNeighbors : Nat → Relation
  cornerNeighbors : Nat → Relation
  corners : Nat → Bool
  onCoarsefine : Bool
  hasFinegrid : Bool
  neighborsSet : Bool

/-- `src/fclaw2d_patch.c` 62–95 (`patch_data_new`): only `neighbors_set` is
written; `mem` is what the memory held before. -/
def patchDataNew (mem : PatchData) : PatchData := { mem with neighborsSet := false }

/-- `src/fclaw2d_patch.c` 929–934. -/
def setFaceType (p : PatchData) (iface : Nat) (t : Relation) : PatchData :=
  { p with faceNeighbors := fun k => if k = iface then t else p.faceNeighbors k }

/-- `src/fclaw3d_patch.c` 29–34. -/
def setEdgeType (p : PatchData) (iedge : Nat) (t : Relation) : PatchData :=
  { p with edgeNeighbors := fun k => if k = iedge then t else p.edgeNeighbors k }

/-- `src/fclaw2d_patch.c` 936–942. -/
def setCornerType (p : PatchData) (icorner : Nat) (t : Relation) : PatchData :=
  { p with
    cornerNeighbors := fun k => if k = icorner then t else p.cornerNeighbors k,
    corners := fun k => if k = icorner then true else p.corners k }

/-- `src/fclaw2d_patch.c` 944–948. -/
def setMissingCorner (p : PatchData) (icorner : Nat) : PatchData :=
  { p with corners := fun k => if k = icorner then false else p.corners k }

/-- The body of the three loops of `fclaw2d_patch_neighbors_set`: what one
neighbour does to the flags. -/
def look (nt : Relation) (p : PatchData) : PatchData :=
  if nt = .halfsize ∨ nt = .doublesize then
    let p := { p with onCoarsefine := true }
    if nt = .halfsize then { p with hasFinegrid := true } else p
  else p

/-- `src/fclaw2d_patch.c` 975–1034 (`fclaw2d_patch_neighbors_set`); `none` if
the assertion of a debug build fails. -/
def neighborsSet (sh : Shape) (debug : Bool) (p : PatchData) : Option PatchData :=
  if debug = true ∧ p.neighborsSet = true then none
  else
    let p := { p with hasFinegrid := false, onCoarsefine := false }
    let p := (List.range sh.faces).foldl (fun p k => look (p.faceNeighbors k) p) p
    let p := (List.range sh.edges).foldl (fun p k => look (p.edgeNeighbors k) p) p
    let p := (List.range sh.corners).foldl
      (fun p k => if p.corners k then look (p.cornerNeighbors k) p else p) p
    some { p with neighborsSet := true }

/-- `src/fclaw2d_patch.c` 1036–1040. -/
def neighborsReset (p : PatchData) : PatchData := { p with neighborsSet := false }

/-- What the mesh says about one patch: the results of
`fclaw2d_patch_face_neighbors` and `fclaw2d_patch_corner_neighbors`.  The
second function returns whether there is a neighbour and a type. -/
structure MeshView where
  face : Nat → Relation
  cornerExists : Nat → Bool
  cornerType : Nat → Relation

/-- `src/fclaw2d_regrid.c` 338–392 (`cb_set_neighbor_types`), two dimensions. -/
def cbSetNeighborTypes (debug : Bool) (m : MeshView) (p : PatchData) : Option PatchData :=
  let p := (List.range 4).foldl (fun p k => setFaceType p k (m.face k)) p
  let p := (List.range 4).foldl (fun p k =>
    let p := setCornerType p k (m.cornerType k)
    if m.cornerExists k then p else setMissingCorner p k) p
  neighborsSet { faces := 4, edges := 0, corners := 4 } debug p

/-- `src/fclaw2d_regrid.c` 395–400 (`fclaw2d_regrid_set_neighbor_types`) over the
patches of a process, the first of them number `i`; `views k` is what the mesh
says about patch `k`. -/
def setNeighborTypes (debug : Bool) (views : Nat → MeshView) :
    Nat → List PatchData → Option (List PatchData)
  | _, [] => some []
  | i, p :: ps =>
    match cbSetNeighborTypes debug (views i) p, setNeighborTypes debug views (i + 1) ps with
    | some p', some ps' => some (p' :: ps')
    | _, _ => none

/-- What happens to the patches in a regridding, `src/fclaw2d_regrid.c` 116–229
(`cb_fclaw2d_regrid_repopulate`): a patch that stays takes its record along,
four new patches take the place of one (`mem` is the memory of their records),
one new patch takes the place of four. -/
inductive Change where
  | same
  | refined (mem : Nat → PatchData)
  | coarsened (mem : PatchData)

/-- The new records; the callback ends with `fclaw2d_patch_neighbors_reset` for
the first of the new patches. -/
def repopulate : List Change → List PatchData → List PatchData
  | .same :: cs, p :: ps => neighborsReset p :: repopulate cs ps
  | .refined mem :: cs, _ :: ps =>
    neighborsReset (patchDataNew (mem 0)) ::
      ((List.range 3).map fun i => patchDataNew (mem (i + 1))) ++ repopulate cs ps
  | .coarsened mem :: cs, ps =>
    neighborsReset (patchDataNew mem) :: repopulate cs (ps.drop 4)
  | _, _ => []

/-- What happens to the patches in a partition, `src/fclaw2d_partition.c` 57–106:
a process has patches that it had before, and patches that it builds anew. -/
inductive Origin where
  | kept (i : Nat)
  | received (mem : PatchData)

def repartition (ps : List PatchData) : List Origin → Option (List PatchData)
  | [] => some []
  | .kept i :: os =>
    match ps[i]?, repartition ps os with
    | some p, some r => some (p :: r)
    | _, _ => none
  | .received mem :: os => (repartition ps os).map (patchDataNew mem :: ·)

/-- One regridding with a new mesh on one process: adaptation, partition, new
neighbour types (`src/fclaw2d_regrid.c` 270–299; with the same order in
`src/fclaw2d_initialize.c` 196–219). -/
structure Regrid where
  changes : List Change
  origins : List Origin
  views : Nat → MeshView

def doRegrid (debug : Bool) (ps : List PatchData) (r : Regrid) : Option (List PatchData) :=
  (repartition (repopulate r.changes ps) r.origins).bind (setNeighborTypes debug r.views 0)

/-- A run: new patches (`mem` is the memory of their records), their neighbour
types (`src/fclaw2d_initialize.c` 129–137), and regriddings. -/
def history (debug : Bool) (mem : List PatchData) (views : Nat → MeshView) (rs : List Regrid) :
    Option (List PatchData) :=
  rs.foldl (fun acc r => acc.bind fun ps => doRegrid debug ps r)
    (setNeighborTypes debug views 0 (mem.map patchDataNew))

end Fclaw.NbrType
