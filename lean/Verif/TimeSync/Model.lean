/-
Model of the synchronisation of conservative fluxes (2D): src/fclaw2d_time_sync.c, the branches of
`cb_face_fill` for it (src/fclaw2d_face_neighbors.c:190-446) and
src/patches/clawpatch/fclaw2d_clawpatch_conservation.c:200-277 (resetting registers).

Every patch has registers for each of its faces: the accumulated fluctuations (`fm`, `fp` or `gm`, `gp`) and
the edge fluxes. Here the content of the registers at one face of a patch is one value; what a correction
computes from the values on both sides is in Verif/Correction (C36). A process has the registers of its
patches, and those it received for its ghost patches.

Simplifications: the mesh is that of Verif/GhostFill. The neighbour types that are looked up for resetting
(`pdata->face_neighbors`) are those of the mesh (C51).
-/
import Verif.GhostFill.Model

set_option autoImplicit false
namespace Fclaw.TimeSync

open GhostFill

/-- What happens to registers. -/
inductive Step where
  /-- patch `x` is corrected at its face `f`, with its registers there and those of `y` at its face `rf` -/
  | use (x f y rf : Nat)
  /-- the registers of `x` at face `f` are set to zero -/
  | clear (x f : Nat)
  deriving DecidableEq, Repr

/-- `e_info.exchange_type`. -/
inductive Exchange where
  | f2c | samesize
  deriving DecidableEq, Repr

variable (M : Mesh)

/-- `cb_face_fill` for one face of a local patch, with `FCLAW2D_IS_COARSE` and parallel patches valid. -/
def faceSync (p : Nat) (e : Exchange) (x f : Nat) : List Step :=
  match M.face x f with
  | .boundary => []
  | .half y0 y1 rf =>
    [0, 1].flatMap fun g => if e = .f2c then [.use x f (pick y0 y1 g) rf] else []
  | .same y rf =>
    if e = .samesize then
      .use x f y rf :: (if M.owner y ≠ p then [.use y rf x f] else [])
    else []
  | .double _ _ _ _ => []

/-- `fclaw2d_global_iterate_level`: patches of process `p` on a level. -/
def localPatches (p : Nat) (l : Int) : List Nat :=
  M.patches.filter fun x => decide (M.owner x = p) && decide (M.level x = l)

/-- `copy_at_blockbdry` and `fine2coarse`, src/fclaw2d_time_sync.c:86-117. -/
def sweep (p : Nat) (e : Exchange) (l : Int) : List Step :=
  (localPatches M p l).flatMap fun x => numbers.flatMap fun f => faceSync M p e x f

/-- `fclaw2d_time_sync_type_t`. -/
inductive Reset where
  | f2c | samesize | phys
  deriving DecidableEq, Repr

def isHalf : FaceNbr → Bool
  | .half _ _ _ => true
  | _ => false

def isDoubleSize : FaceNbr → Bool
  | .double _ _ _ _ => true
  | _ => false

def isSame : FaceNbr → Bool
  | .same _ _ => true
  | _ => false

/-- `reset_flux`, fclaw2d_clawpatch_conservation.c:227-253. -/
def resetFlux (r : Reset) (coarseLevel : Int) (x k : Nat) : Bool :=
  match r with
  | .f2c => (isHalf (M.face x k) && decide (M.level x = coarseLevel)) ||
      (isDoubleSize (M.face x k) && decide (M.level x = coarseLevel + 1))
  | .samesize => isSame (M.face x k) && decide (M.level x = coarseLevel)
  | .phys => isBoundary (M.face x k)

/-- `fclaw2d_clawpatch_time_sync_reset`. -/
def resetPatch (r : Reset) (coarseLevel : Int) (x : Nat) : List Step :=
  numbers.flatMap fun k => if resetFlux M r coarseLevel x k then [.clear x k] else []

/-- `time_sync_reset`, src/fclaw2d_time_sync.c:65-84. -/
def timeSyncReset (p : Nat) (coarseLevel : Int) (r : Reset) : List Step :=
  (localPatches M p coarseLevel).flatMap (resetPatch M r coarseLevel) ++
  if r = .f2c then (localPatches M p (coarseLevel + 1)).flatMap (resetPatch M r coarseLevel) else []

/-- The body of the loop over levels in `correct_coarse_cells`, lines 126-147. `top` is the option
`maxlevel`. -/
def atLevel (p : Nat) (top l : Int) : List Step :=
  sweep M p .samesize l ++ timeSyncReset M p l .samesize ++
  if l < top then sweep M p .f2c l ++ timeSyncReset M p l .f2c else []

/-- `fclaw2d_time_sync`: all steps of process `p`. Its parameter `maxlevel` is not used by the code; the
option `maxlevel` is. -/
def timeSync (p : Nat) (minl top : Int) : List Step :=
  (downTo top minl).flatMap (atLevel M p top) ++
  (downTo top minl).flatMap fun l => timeSyncReset M p l .phys

/-- A correction that was done, and the contents of the registers it used. -/
structure Event (V : Type) where
  x : Nat
  f : Nat
  y : Nat
  rf : Nat
  own : V
  other : V

structure State (V : Type) where
  reg : Nat → Nat → V
  log : List (Event V)

def exec {V : Type} [Zero V] (s : State V) : Step → State V
  | .use x f y rf => { s with log := s.log ++ [⟨x, f, y, rf, s.reg x f, s.reg y rf⟩] }
  | .clear x f => { s with reg := fun x' f' => if x' = x ∧ f' = f then 0 else s.reg x' f' }

def run {V : Type} [Zero V] (s : State V) (ss : List Step) : State V := ss.foldl exec s

end Fclaw.TimeSync
