/-
Model of the ghost filling of all levels: src/fclaw2d_ghost_fill.c, with the face and corner callbacks
of src/fclaw2d_face_neighbors.c and src/fclaw2d_corner_neighbors.c (2D).

What is followed is not the values of cells but where they come from. The grid of a patch is divided
into its interior, for each face a strip of ghost cells (in two halves, since a coarse patch may have
two fine neighbours at a face) and four corner squares of ghost cells. A region is *valid* if it has
been computed in this update from interior values at the right time, through any number of operations.
Every patch has two grids: the solution and the solution interpolated in time.

Simplifications: pillow spheres (special corners) are not modelled, nor is the option
`timeinterp2fillghost = 0`. `fclaw2d_ghost_update_nonasync` is never called and not modelled.
The physical boundary conditions are those that set ghost values from the cells next to
them in the same row or column, first in x and then in y.
-/

set_option autoImplicit false
namespace Fclaw.GhostFill

/-- What a patch meets at a face (`fclaw2d_patch_face_neighbors`). -/
inductive FaceNbr where
  | boundary
  /-- a patch of the same size, which has its face `rf` there -/
  | same (y rf : Nat)
  /-- two patches of half the size; `y0` at the lower half of the face -/
  | half (y0 y1 rf : Nat)
  /-- a patch of double size, of whose face `rf` this one covers half number `g`; `hk` is the corner
  of this patch in the middle of that face -/
  | double (y rf g hk : Nat)
  deriving DecidableEq, Repr

/-- What it meets at a corner (`fclaw2d_patch_corner_neighbors`), with the number the corner has there. -/
inductive CornerNbr where
  | none
  | same (y rk : Nat)
  | half (y rk : Nat)
  | double (y rk : Nat)
  deriving DecidableEq, Repr

/-- The global mesh: all patches of all processes. -/
structure Mesh where
  patches : List Nat
  owner : Nat → Nat
  level : Nat → Int
  face : Nat → Nat → FaceNbr
  corner : Nat → Nat → CornerNbr

variable (M : Mesh)

def numbers : List Nat := [0, 1, 2, 3]

/-- `fclaw2d_domain_corner_faces`: the face in x at a corner. -/
def faceX (k : Nat) : Nat := k % 2

/-- … and in y. -/
def faceY (k : Nat) : Nat := 2 + k / 2

def isBoundary : FaceNbr → Bool
  | .boundary => true
  | _ => false

/-- The corner neighbour where it is asked for: `get_corner_type`, src/fclaw2d_corner_neighbors.c:48-94
(`interior_corner`), and `get_corner_neighbor`. -/
def cornerNbr (x k : Nat) : CornerNbr :=
  if isBoundary (M.face x (faceX k)) || isBoundary (M.face x (faceY k)) then .none else M.corner x k

def faceList : FaceNbr → List Nat
  | .boundary => []
  | .same y _ => [y]
  | .half y0 y1 _ => [y0, y1]
  | .double y _ _ _ => [y]

def cornerList : CornerNbr → List Nat
  | .none => []
  | .same y _ => [y]
  | .half y _ => [y]
  | .double y _ => [y]

/-- All patches next to a patch. -/
def nbrs (x : Nat) : List Nat :=
  numbers.flatMap (fun f => faceList (M.face x f)) ++
  numbers.flatMap (fun k => cornerList (cornerNbr M x k))

/-- `FCLAW2D_PATCH_ON_PARALLEL_BOUNDARY`. -/
def onBoundary (p x : Nat) : Bool := (nbrs M x).any fun y => decide (M.owner y ≠ p)

/-- The ghost patches of process `p`. -/
def isGhost (p y : Nat) : Bool :=
  decide (M.owner y ≠ p) &&
  M.patches.any fun x => decide (M.owner x = p) && decide (y ∈ nbrs M x)

def finerOrCoarser : FaceNbr → Bool
  | .half _ _ _ => true
  | .double _ _ _ _ => true
  | _ => false

def finerOrCoarserCorner : CornerNbr → Bool
  | .half _ _ => true
  | .double _ _ => true
  | _ => false

/-- `fclaw2d_patch_on_coarsefine_interface` (C51). -/
def onInterface (x : Nat) : Bool :=
  numbers.any (fun f => finerOrCoarser (M.face x f)) ||
  numbers.any (fun k => finerOrCoarserCorner (cornerNbr M x k))

/-! ### Visits -/

inductive Kind where
  | copy | average | interp
  deriving DecidableEq, Repr

/-- `fclaw2d_ghost_fill_parallel_mode_t`. -/
inductive Mode where
  | ghostOnly | interiorOnly | all
  deriving DecidableEq, Repr

/-- `fclaw2d_exchange_info_t`. -/
structure Info where
  kind : Kind
  /-- `grid_type == FCLAW2D_IS_COARSE`; otherwise `FCLAW2D_IS_FINE` -/
  coarse : Bool
  ti : Bool
  readPar : Bool
  deriving DecidableEq, Repr

/-- A callback for a patch. -/
inductive Visit where
  | face (e : Info) (x : Nat)
  | corner (e : Info) (x : Nat)
  | phys (ti : Bool) (x : Nat)
  deriving DecidableEq, Repr

/-- The filter of `cb_parallel_wrap`, src/fclaw2d_ghost_fill.c:119-140. -/
def modeOk (p : Nat) (m : Mode) (x : Nat) : Bool :=
  match m with
  | .ghostOnly => onBoundary M p x
  | .interiorOnly => !onBoundary M p x
  | .all => true

/-- `fclaw2d_global_iterate_level` with `cb_parallel_wrap`. -/
def iter (p : Nat) (l : Int) (m : Mode) : List Nat :=
  M.patches.filter fun x => decide (M.owner x = p) && decide (M.level x = l) && modeOk M p m x

/-- The same with `cb_interface_wrap`, lines 101-115. -/
def iterInterface (p : Nat) (l : Int) (m : Mode) : List Nat :=
  (iter M p l m).filter fun x => onInterface M x

/-- Lines 143-169. -/
def copy2ghost (p : Nat) (rp : Bool) (m : Mode) (l : Int) (ti : Bool) : List Visit :=
  (iter M p l m).map (.face ⟨.copy, true, ti, rp⟩) ++ (iter M p l m).map (.corner ⟨.copy, true, ti, rp⟩)

/-- Lines 172-224. -/
def average2ghost (p : Nat) (rp : Bool) (m : Mode) (l : Int) (ti : Bool) : List Visit :=
  (iterInterface M p l m).map (.face ⟨.average, true, ti, rp⟩) ++
  (iterInterface M p l m).map (.corner ⟨.average, true, ti, rp⟩) ++
  if rp then (iterInterface M p (l + 1) m).map (.face ⟨.average, false, ti, rp⟩) else []

/-- Lines 226-284. -/
def interpolate2ghost (p : Nat) (rp : Bool) (m : Mode) (l : Int) (ti : Bool) : List Visit :=
  (iterInterface M p l m).map (.face ⟨.interp, true, ti, rp⟩) ++
  (iterInterface M p l m).map (.corner ⟨.interp, true, ti, rp⟩) ++
  (iterInterface M p (l + 1) m).map (.face ⟨.interp, false, ti, rp⟩) ++
  (iterInterface M p (l + 1) m).map (.corner ⟨.interp, false, ti, rp⟩)

/-- Lines 287-306. -/
def setphysical (p : Nat) (m : Mode) (l : Int) (ti : Bool) : List Visit :=
  (iter M p l m).map (.phys ti)

/-- `for (level = hi; level >= lo; level--)`. -/
def downTo (hi lo : Int) : List Int :=
  (List.range (hi - lo + 1).toNat).map fun (i : Nat) => hi - (i : Int)

/-- The loop over levels, with the level `lo - 1` interpolated in time at the end: common shape of
`copy_samelevel`, `average_fine2coarse_ghost`, `interpolate_coarse2fine_ghost` and
`fill_physical_ghost`, lines 341-468. -/
def overLevels (f : Int → Bool → List Visit) (lo hi : Int) (ti : Bool) : List Visit :=
  (downTo hi lo).flatMap (fun l => f l false) ++ if ti then f (lo - 1) true else []

/-- Averages, copies, and physical conditions up to level `hi` of the latter. -/
def fillCoarse (p : Nat) (rp : Bool) (m : Mode) (minl maxl hi : Int) (ti : Bool) : List Visit :=
  overLevels (average2ghost M p rp m) minl (maxl - 1) ti ++
  overLevels (copy2ghost M p rp m) minl maxl ti ++
  overLevels (setphysical M p m) minl hi ti

/-- Before sending: lines 665-697. -/
def step1 (p : Nat) (minl maxl : Int) (ti : Bool) : List Visit :=
  fillCoarse M p false .ghostOnly minl maxl (maxl - 1) ti

/-- While messages are under way: lines 705-757. In the last call the smallest level is that of the finer
patches, so that with time interpolation it sets ghost values in the *time interpolated* grid of
patches on level `minl`, which holds nothing of interest. -/
def step2 (p : Nat) (minl maxl : Int) (ti : Bool) : List Visit :=
  fillCoarse M p false .interiorOnly minl maxl (maxl - 1) ti ++
  overLevels (interpolate2ghost M p false .interiorOnly) minl (maxl - 1) ti ++
  overLevels (setphysical M p .interiorOnly) (minl + 1) maxl ti

/-- After receiving: lines 779-834. -/
def step3 (p : Nat) (minl maxl : Int) (ti : Bool) : List Visit :=
  fillCoarse M p true .ghostOnly minl maxl maxl ti ++
  overLevels (interpolate2ghost M p true .ghostOnly) minl (maxl - 1) ti ++
  overLevels (setphysical M p .all) minl maxl ti

/-! ### Operations -/

/-- A call that changes ghost cells. `ti` says which grid of the coarser patch (for a copy: of both
patches) is used; of the finer patch it is always the solution
(src/patches/clawpatch/fclaw2d_clawpatch.cpp:532-790). -/
inductive Op where
  /-- strip `f` of `x` from `y` -/
  | copyFace (ti : Bool) (x f y : Nat)
  /-- half `g` of strip `f` of `x` from the finer `y` -/
  | avgFace (ti : Bool) (x f g y : Nat)
  /-- from half `g` of face `f` of `c` to the strip `fy` of the finer `y` -/
  | interpFace (ti : Bool) (c f g y fy : Nat)
  | copyCorner (ti : Bool) (x k y : Nat)
  | avgCorner (ti : Bool) (x k y : Nat)
  | interpCorner (ti : Bool) (c k y ky : Nat)
  | phys (ti : Bool) (x : Nat)
  deriving DecidableEq, Repr

/-- One of two fine neighbours at a face. -/
def pick (y0 y1 g : Nat) : Nat := if g = 0 then y0 else y1

/-- `cb_face_fill`, src/fclaw2d_face_neighbors.c:190-446, for one face. The branches for time
synchronisation are not included here (they are in C35). -/
def faceOps (p : Nat) (e : Info) (x f : Nat) : List Op :=
  match M.face x f with
  | .boundary => []
  | .half y0 y1 rf =>
    if e.coarse then
      [0, 1].flatMap fun g =>
        let y := pick y0 y1 g
        let remote := decide (M.owner y ≠ p)
        if remote && !e.readPar then []
        else if decide (e.kind = .interp) && !remote then [.interpFace e.ti x f g y rf]
        else if e.kind = .average then [.avgFace e.ti x f g y]
        else []
    else []
  | .same y rf =>
    if e.coarse && decide (e.kind = .copy) then
      .copyFace e.ti x f y :: (if M.owner y ≠ p then [.copyFace e.ti y rf x] else [])
    else []
  | .double y rf g _ =>
    if !e.coarse && decide (M.owner y ≠ p) && e.readPar then
      if e.kind = .average then [.avgFace e.ti y rf g x]
      else if e.kind = .interp then [.interpFace e.ti y rf g x f]
      else []
    else []

/-- `cb_corner_fill`, src/fclaw2d_corner_neighbors.c:318-520, for one corner. -/
def cornerOps (p : Nat) (e : Info) (x k : Nat) : List Op :=
  match cornerNbr M x k with
  | .none => []
  | .half y rk =>
    let remote := decide (M.owner y ≠ p)
    if e.coarse && (e.readPar || !remote) then
      if decide (e.kind = .interp) && !remote then [.interpCorner e.ti x k y rk]
      else if e.kind = .average then [.avgCorner e.ti x k y]
      else []
    else []
  | .same y _ =>
    if e.coarse && (e.readPar || !decide (M.owner y ≠ p)) && decide (e.kind = .copy) then
      [.copyCorner e.ti x k y]
    else []
  | .double y rk =>
    if !e.coarse && decide (M.owner y ≠ p) && e.readPar && decide (e.kind = .interp) then
      [.interpCorner e.ti y rk x k]
    else []

def opsOf (p : Nat) : Visit → List Op
  | .face e x => numbers.flatMap (faceOps M p e x)
  | .corner e x => numbers.flatMap (cornerOps M p e x)
  | .phys ti x => [.phys ti x]

/-- `fclaw2d_face_neighbor_ghost`, src/fclaw2d_face_neighbors.c:449-590, for one ghost patch and face.
`fclaw2d_domain_indirect_face_neighbors` finds the neighbours that are ghost patches from another
process (C16). -/
def indirectFace (p : Nat) (ti : Bool) (c f : Nat) : List Op :=
  let found (y : Nat) := isGhost M p y && decide (M.owner y ≠ M.owner c)
  match M.face c f with
  | .same y _ => if found y then [.copyFace ti c f y] else []
  | .half y0 y1 _ =>
    [0, 1].flatMap fun g => if found (pick y0 y1 g) then [.avgFace ti c f g (pick y0 y1 g)] else []
  | _ => []

def indirectOps (p : Nat) (minl : Int) (ti : Bool) : List Op :=
  (M.patches.filter fun c =>
      isGhost M p c && decide ((if ti then minl - 1 else minl) ≤ M.level c)).flatMap fun c =>
    numbers.flatMap fun f => indirectFace M p (ti && decide (M.level c = minl - 1)) c f

/-! ### Validity -/

inductive Region where
  | interior
  | strip (f h : Nat)
  | corner (k : Nat)
  deriving DecidableEq, Repr

structure Key where
  x : Nat
  ti : Bool
  reg : Region
  deriving DecidableEq, Repr

/-- The face next to face `f` at the end of its half `g`. -/
def side (f g : Nat) : Nat := if f < 2 then 2 + g else g

/-- What physical boundary conditions do at a corner. -/
def physCorner (x : Nat) (ti : Bool) (k : Nat) : List (Key × List Key) :=
  let here (r : Region) : Key := ⟨x, ti, r⟩
  match isBoundary (M.face x (faceX k)), isBoundary (M.face x (faceY k)) with
  | true, true => [(here (.corner k), [here .interior])]
  | true, false => [(here (.corner k), [here (.strip (faceY k) (k % 2))])]
  | false, true => [(here (.corner k), [here (.strip (faceX k) (k / 2))])]
  | false, false => []

/-- The corner in the middle of the coarse face, at face `f` of a fine patch. -/
def hanging (x f : Nat) : List Nat :=
  match M.face x f with
  | .double _ _ _ hk => [hk]
  | _ => []

/-- The regions an operation writes, each with the regions it is computed from. Interpolation uses
slopes in both directions of the cells at the coarse face, and goes on a little into the other half of the face
to fill the ghost cells at the hanging corner
(src/patches/clawpatch/fort_4.6/fclaw2d_clawpatch46_interpolate.f:91-140, 194-260). -/
def effects : Op → List (Key × List Key)
  | .copyFace ti x f y =>
    [(⟨x, ti, .strip f 0⟩, [⟨y, ti, .interior⟩]), (⟨x, ti, .strip f 1⟩, [⟨y, ti, .interior⟩])]
  | .avgFace ti x f g y => [(⟨x, ti, .strip f g⟩, [⟨y, false, .interior⟩])]
  | .interpFace ti c f g y fy =>
    let rs : List Key := [⟨c, ti, .interior⟩, ⟨c, ti, .strip f 0⟩, ⟨c, ti, .strip f 1⟩,
      ⟨c, ti, .strip (side f g) (f % 2)⟩]
    (⟨y, false, .strip fy 0⟩, rs) :: (⟨y, false, .strip fy 1⟩, rs) ::
      (hanging M y fy).map fun hk => (⟨y, false, .corner hk⟩, rs)
  | .copyCorner ti x k y => [(⟨x, ti, .corner k⟩, [⟨y, ti, .interior⟩])]
  | .avgCorner ti x k y => [(⟨x, ti, .corner k⟩, [⟨y, false, .interior⟩])]
  | .interpCorner ti c k y ky =>
    [(⟨y, false, .corner ky⟩, [⟨c, ti, .interior⟩, ⟨c, ti, .strip (faceX k) (k / 2)⟩,
      ⟨c, ti, .strip (faceY k) (k % 2)⟩])]
  | .phys ti x =>
    (numbers.flatMap fun f =>
      if isBoundary (M.face x f) then
        [(⟨x, ti, .strip f 0⟩, [⟨x, ti, .interior⟩]), (⟨x, ti, .strip f 1⟩, [⟨x, ti, .interior⟩])]
      else []) ++
    numbers.flatMap fun k => physCorner M x ti k

/-- The validity of all regions, as one process sees it. -/
abbrev Valid := Key → Bool

/-- An operation makes what it writes valid if all it reads is, and invalid otherwise. -/
def apply (V : Valid) (o : Op) : Valid := fun k =>
  match (effects M o).find? fun e => decide (e.1 = k) with
  | some e => e.2.all V
  | none => V k

def run (V : Valid) (os : List Op) : Valid := os.foldl (apply M) V

/-- The operations with whether all they read was valid. -/
def trace : Valid → List Op → List (Op × Bool)
  | _, [] => []
  | V, o :: os => (o, (effects M o).all fun e => e.2.all V) :: trace (apply M V o) os

def ops (p : Nat) (vs : List Visit) : List Op := vs.flatMap (opsOf M p)

/-- Is this the grid of the patch that has been computed for the time of the update? -/
def current (minl : Int) (ti : Bool) (x : Nat) (t : Bool) : Bool :=
  decide ((if ti then minl - 1 else minl) ≤ M.level x) &&
  decide (t = (ti && decide (M.level x = minl - 1)))

/-- At the start. -/
def start (minl : Int) (ti : Bool) (p : Nat) : Valid := fun k =>
  decide (k.reg = .interior) && decide (M.owner k.x = p) && current M minl ti k.x k.ti

def afterStep1 (minl maxl : Int) (ti : Bool) (p : Nat) : Valid :=
  run M (start M minl ti p) (ops M p (step1 M p minl maxl ti))

def afterStep2 (minl maxl : Int) (ti : Bool) (p : Nat) : Valid :=
  run M (afterStep1 M minl maxl ti p) (ops M p (step2 M p minl maxl ti))

/-- The exchange (C11): the grids of patches at the parallel boundary as they are after step 1 replace
those of the ghost patches, src/fclaw2d_exchange.c:131-167, 307-420. -/
def afterExchange (minl maxl : Int) (ti : Bool) (p : Nat) : Valid := fun k =>
  if isGhost M p k.x then
    current M minl ti k.x k.ti && afterStep1 M minl maxl ti (M.owner k.x) k
  else afterStep2 M minl maxl ti p k

def afterIndirect (minl maxl : Int) (ti : Bool) (p : Nat) : Valid :=
  run M (afterExchange M minl maxl ti p) (indirectOps M p minl ti)

/-- `fclaw2d_ghost_update`. -/
def ghostUpdate (minl maxl : Int) (ti : Bool) (p : Nat) : Valid :=
  run M (afterIndirect M minl maxl ti p) (ops M p (step3 M p minl maxl ti))

/-- All operations of an update on process `p`. -/
def updateTrace (minl maxl : Int) (ti : Bool) (p : Nat) : List (Op × Bool) :=
  trace M (start M minl ti p) (ops M p (step1 M p minl maxl ti)) ++
  trace M (afterStep1 M minl maxl ti p) (ops M p (step2 M p minl maxl ti)) ++
  trace M (afterExchange M minl maxl ti p) (indirectOps M p minl ti) ++
  trace M (afterIndirect M minl maxl ti p) (ops M p (step3 M p minl maxl ti))

end Fclaw.GhostFill
