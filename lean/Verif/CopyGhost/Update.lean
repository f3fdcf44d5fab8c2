import Verif.CopyGhost.Spec
import Verif.GhostFill.Spec
/-
The ghost update of Verif/GhostFill, `fclaw2d_ghost_update` in src/fclaw2d_ghost_fill.c, carried out on
actual grids, as far as patches of the same size are concerned (C34).

The copies are the routines of Verif/CopyGhost/Model.lean. What averages, interpolation and physical
boundary conditions do is left open (`oth`), except that they change only the regions that
`GhostFill.effects` lists for them. Received ghost patches (`recv`) hold the sent values in the
outermost `mbc` interior layers at least (C41).
-/
set_option autoImplicit false
namespace Fclaw.CopyGhost

open Fort Transform GhostFill

/-- All grids that a process has: for each patch the solution (`false`) and the solution interpolated in
time (`true`). -/
abbrev State (α : Type) := Nat → Bool → Grid α

/-- Where patches lie and how they are connected. -/
structure Geometry where
  patch : Nat → Patch
  /-- transformation for a face, as set up by `get_face_neighbors`,
  src/fclaw2d_face_neighbors.c:80-188 -/
  faceT : Nat → Nat → Nat → Nat
  /-- the same for a corner, `get_corner_neighbor`, src/fclaw2d_corner_neighbors.c:128-316 -/
  cornerT : Nat → Nat → Nat → Nat
  isBlockCorner : Nat → Nat → Bool
  blockIface : Nat → Nat → ℤ
  junk : ℤ → ℤ → Nat → ℚ

/-- `transform_data` in `cb_face_fill`, src/fclaw2d_face_neighbors.c:231-330. -/
def faceData (G : Geometry) (x f y : Nat) : TData :=
  ⟨G.patch x, G.patch y, G.faceT x f, 0, false, -1, G.junk⟩

/-- `transform_data` in `cb_corner_fill`, src/fclaw2d_corner_neighbors.c:350-440. -/
def cornerData (G : Geometry) (x k y : Nat) : TData :=
  ⟨G.patch x, G.patch y, G.cornerT x k, k, G.isBlockCorner x k, G.blockIface x k, G.junk⟩

/-- Replace one grid. -/
def put {α : Type} (s : State α) (x : Nat) (t : Bool) (q : Grid α) : State α :=
  fun x' t' => if x' = x ∧ t' = t then q else s x' t'

/-- Carry out an operation: `clawpatch_copy_face`, `clawpatch_copy_corner`,
src/patches/clawpatch/fclaw2d_clawpatch.cpp:532-565, 643-680; others by `oth`. -/
def exec {α : Type} (d : Dims) (G : Geometry) (oth : Op → State α → State α) (s : State α) : Op → Option (State α)
  | .copyFace t x f y => (copyFace d (faceData G x f y) f (s y t) (s x t)).map (put s x t)
  | .copyCorner t x k y => (copyCorner d (cornerData G x k y) k (s y t) (s x t)).map (put s x t)
  | o => some (oth o s)

def execAll {α : Type} (d : Dims) (G : Geometry) (oth : Op → State α → State α) (os : List Op) (s : State α) :
    Option (State α) :=
  loop os (fun o s => exec d G oth s o) s

/-- The exchange: `s1` holds the states of all processes after step 1, `s2` the state of this one after
step 2. -/
def exchange {α : Type} (M : Mesh) (minl : Int) (ti : Bool) (recv : Grid α → Grid α) (p : Nat)
    (s1 : Nat → State α) (s2 : State α) : State α := fun y t =>
  if isGhost M p y && current M minl ti y t then recv (s1 (M.owner y) y t) else s2 y t

/-- A ghost update on process `p`, from the states `init` of all processes to `fin`. -/
def Update {α : Type} (d : Dims) (M : Mesh) (G : Geometry) (oth : Op → State α → State α) (recv : Grid α → Grid α)
    (minl maxl : Int) (ti : Bool) (p : Nat) (init : Nat → State α) (fin : State α) : Prop :=
  ∃ s1 : Nat → State α, (∀ q, execAll d G oth (ops M q (step1 M q minl maxl ti)) (init q) = some (s1 q)) ∧
  ∃ s2, execAll d G oth (ops M p (step2 M p minl maxl ti)) (s1 p) = some s2 ∧
  ∃ s3, execAll d G oth (indirectOps M p minl ti) (exchange M minl ti recv p s1 s2) = some s3 ∧
  execAll d G oth (ops M p (step3 M p minl maxl ti)) s3 = some fin

/-! ### Hypotheses -/

/-- The cells of a region. -/
def inRegion (d : Dims) : Region → ℤ → ℤ → Prop
  | .interior, i, j => interior d i j
  | .strip f h, i, j => inStrip d f i j ∧
      (if f / 2 = 0 then (h = 0 ↔ 2 * j ≤ d.my) else (h = 0 ↔ 2 * i ≤ d.mx)) ∧ h < 2
  | .corner k, i, j => inCorner d k i j

/-- Averages, interpolation and physical boundary conditions change only the regions listed for them. -/
def Framed {α : Type} (d : Dims) (M : Mesh) (oth : Op → State α → State α) : Prop :=
  ∀ o s x t r i j mq, inRegion d r i j → (∀ e ∈ effects M o, e.1 ≠ ⟨x, t, r⟩) →
    oth o s x t (i, j, mq) = s x t (i, j, mq)

/-- What is received is what was sent, in the outermost `mbc` layers of interior cells. -/
def Received {α : Type} (d : Dims) (recv : Grid α → Grid α) : Prop :=
  ∀ q i j mq, near d i j → comp d mq → recv q (i, j, mq) = q (i, j, mq)

/-- The geometry fits the mesh. -/
structure Fits (d : Dims) (M : Mesh) (G : Geometry) : Prop where
  face : ∀ x f y rf, f < 4 → M.face x f = .same y rf → FaceLink d (G.faceT x f) f (G.patch x) (G.patch y)
  corner : ∀ x k y rk, k < 4 → cornerNbr M x k = .same y rk → CornerLink d (cornerData G x k y) k

end Fclaw.CopyGhost
