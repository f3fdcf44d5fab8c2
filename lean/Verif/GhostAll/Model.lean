import Verif.CopyGhost.Update
import Verif.CoarseFine.Model
import Verif.Bc.Model
/-
The ghost update of Verif/GhostFill, `fclaw2d_ghost_update` in src/fclaw2d_ghost_fill.c, carried out on
actual grids with all its operations (C69): copies (Verif/CopyGhost), averages and interpolation
(Verif/CoarseFine) and the default physical boundary conditions (Verif/Bc).

Simplifications, besides those of these parts: the data for the transformation between two patches are
the same from whichever side they are set up (src/fclaw2d_face_neighbors.c:125-135 swaps the two faces,
see C12); the areas of cells of a ghost patch are those that its owner has.
-/
set_option autoImplicit false
namespace Fclaw.GhostAll

open Fort Transform GhostFill CopyGhost CoarseFine Transfer

/-- What does not change: where patches lie, areas of cells, options. -/
structure Setup where
  geo : Geometry
  area : Nat → Area
  manifold : Bool
  /-- the option `mthbc` -/
  mthbc : Nat → ℤ

/-- The sides of a patch at the physical boundary, `fclaw2d_physical_get_bc` (C55). -/
def sides (M : Mesh) (x f : Nat) : Bool := isBoundary (M.face x f)

/-- Physical boundary conditions for one grid: `clawpack46_bc2`,
src/solvers/fc2d_clawpack4.6/fc2d_clawpack46.cpp:94-147. `stop` is `none` here. -/
def physical (d : Dims) (M : Mesh) (S : Setup) (x : Nat) (q : Grid ℚ) : Option (Grid ℚ) :=
  match Bc.bc2Default d (fun f => if sides M x f = true then S.mthbc f else -1) q with
  | .ok q' => some q'
  | _ => none

/-- Carry out an operation: src/patches/clawpatch/fclaw2d_clawpatch.cpp:532-790. -/
def exec (d : Dims) (M : Mesh) (S : Setup) (s : State ℚ) : Op → Option (State ℚ)
  | .copyFace t x f y => (copyFace d (faceData S.geo x f y) f (s y t) (s x t)).map (put s x t)
  | .copyCorner t x k y => (copyCorner d (cornerData S.geo x k y) k (s y t) (s x t)).map (put s x t)
  | .avgFace t x f _ y =>
    (averageFace d (faceData S.geo x f y) f (S.area y) S.manifold (s y false) (s x t)).map (put s x t)
  | .avgCorner t x k y =>
    (averageCorner d (cornerData S.geo x k y) k (S.area y) S.manifold (s y false) (s x t)).map (put s x t)
  | .interpFace t c f _ y _ => (interpolateFace d (faceData S.geo c f y) f (s c t) (s y false)).map (put s y false)
  | .interpCorner t c k y _ => (interpolateCorner d (cornerData S.geo c k y) k (s c t) (s y false)).map (put s y false)
  | .phys t x => (physical d M S x (s x t)).map (put s x t)

def execAll (d : Dims) (M : Mesh) (S : Setup) (os : List Op) (s : State ℚ) : Option (State ℚ) :=
  loop os (fun o s => exec d M S s o) s

/-- A ghost update on process `p`, from the states `init` of all processes to `fin`: lines 632-834. -/
def Update (d : Dims) (M : Mesh) (S : Setup) (recv : Grid ℚ → Grid ℚ) (minl maxl : Int) (ti : Bool) (p : Nat)
    (init : Nat → State ℚ) (fin : State ℚ) : Prop :=
  ∃ s1 : Nat → State ℚ, (∀ q, execAll d M S (ops M q (step1 M q minl maxl ti)) (init q) = some (s1 q)) ∧
  ∃ s2, execAll d M S (ops M p (step2 M p minl maxl ti)) (s1 p) = some s2 ∧
  ∃ s3, execAll d M S (indirectOps M p minl ti) (exchange M minl ti recv p s1 s2) = some s3 ∧
  execAll d M S (ops M p (step3 M p minl maxl ti)) s3 = some fin

end Fclaw.GhostAll
