import Verif.Layout.Model
/-
What "only the layout differs" means (C80): histories of operations on patches, for both layouts.
-/
set_option autoImplicit false
namespace Fclaw.Layout

open Fort Transform CopyGhost Transfer CoarseFine
open GhostPack (Loc Data Buf)
open Bc (Out ofOption)

/-- The memory holds the solution `q`, in the Clawpack 5 layout. -/
def Holds {α : Type} (d : Dims) (m : Mem α) (q : Grid α) : Prop := ∀ c, inBox d c = true → m (pos5 d c) = q c

/-- Is this an element of the solution? -/
def IsQ : Loc → Bool
  | .q _ _ _ => true
  | _ => false

/-- A patch in the Clawpack 5 layout and one in the 4.6 layout with the same solution, areas and
registers. -/
def SamePatch {α : Type} (d : Dims) (p : Patch5 α) (x : Data α) : Prop :=
  Holds d p.q (fun c => x (.q c.1 c.2.1 c.2.2)) ∧ ∀ l, IsQ l = false → p.rest l = x l

/-- Patches by number. -/
def SameState (d : Dims) (P : Nat → Patch5 ℚ) (X : Nat → Data ℚ) : Prop := ∀ a, SamePatch d (P a) (X a)

/-- What the library does with patches. Patches are numbered, whichever process they are on. -/
inductive Op where
  /-- fill the ghost cells of `this` at a face from a neighbour of the same size -/
  | copyFace (this neighbor : Nat) (td : TData) (iface : Nat)
  /-- … at a corner -/
  | copyCorner (this neighbor : Nat) (td : TData) (icorner : Nat)
  /-- fill the ghost cells of a coarse patch at a face from a smaller neighbour -/
  | averageFace (coarse fine : Nat) (td : TData) (iface : Nat) (manifold : Bool)
  | averageCorner (coarse fine : Nat) (td : TData) (icorner : Nat) (manifold : Bool)
  /-- fill the ghost cells of a fine patch at a face from a larger neighbour -/
  | interpFace (coarse fine : Nat) (td : TData) (iface : Nat)
  | interpCorner (coarse fine : Nat) (td : TData) (icorner : Nat)
  /-- replace four siblings by their parent -/
  | coarsen (coarse : Nat) (fine : ℤ → Nat) (manifold : ℤ)
  /-- replace a patch by its four children -/
  | refine (coarse : Nat) (fine : ℤ → Nat) (manifold : ℤ)
  /-- interpolate in time between `last` and `curr` -/
  | timeInterp (curr last interp : Nat) (alpha : ℚ) (interpWidth : Nat)
  /-- pack `src`, send it, unpack it into `dst` on another process; `buf` is the buffer before -/
  | exchange (src dst : Nat) (o : GhostPack.Opts) (buf : Buf ℚ)
  /-- physical boundary conditions -/
  | bc (a : Nat) (mthbc : Nat → ℤ)

/-! ### Clawpack 4.6 -/

def gridOf (x : Data ℚ) : Grid ℚ := fun c => x (.q c.1 c.2.1 c.2.2)

def areaOf (x : Data ℚ) : Area := fun c => x (.area c.1 c.2)

def setGrid (x : Data ℚ) (g : Grid ℚ) : Data ℚ
  | .q i j mq => g (i, j, mq)
  | l => x l

/-- Assign to the solution of patch `a`. -/
def putGrid (X : Nat → Data ℚ) (a : Nat) (g : Grid ℚ) : Nat → Data ℚ :=
  fun b => if b = a then setGrid (X a) g else X b

/-- Assign to the solutions of four patches. -/
def putFour (X : Nat → Data ℚ) (fine : ℤ → Nat) (g : ℤ → Grid ℚ) : Nat → Data ℚ :=
  putGrid (putGrid (putGrid (putGrid X (fine 0) (g 0)) (fine 1) (g 1)) (fine 2) (g 2)) (fine 3) (g 3)

def step46 (d : Dims) : Op → (Nat → Data ℚ) → Out (Nat → Data ℚ)
  | .copyFace a b td f, X =>
    ofOption ((copyFace d td f (gridOf (X b)) (gridOf (X a))).map (putGrid X a))
  | .copyCorner a b td k, X =>
    ofOption ((copyCorner d td k (gridOf (X b)) (gridOf (X a))).map (putGrid X a))
  | .averageFace a b td f mf, X =>
    ofOption ((averageFace d td f (areaOf (X b)) mf (gridOf (X b)) (gridOf (X a))).map (putGrid X a))
  | .averageCorner a b td k mf, X =>
    ofOption ((averageCorner d td k (areaOf (X b)) mf (gridOf (X b)) (gridOf (X a))).map (putGrid X a))
  | .interpFace a b td f, X =>
    ofOption ((interpolateFace d td f (gridOf (X a)) (gridOf (X b))).map (putGrid X b))
  | .interpCorner a b td k, X =>
    ofOption ((interpolateCorner d td k (gridOf (X a)) (gridOf (X b))).map (putGrid X b))
  | .coarsen a fine mf, X =>
    ofOption ((coarsen d (areaOf (X a)) (fun g => areaOf (X (fine g))) mf (fun g => gridOf (X (fine g)))
      (gridOf (X a))).map (putGrid X a))
  | .refine a fine mf, X =>
    ofOption ((refine d (areaOf (X a)) (fun g => areaOf (X (fine g))) mf (gridOf (X a))
      (fun g => gridOf (X (fine g)))).map (putFour X fine))
  | .timeInterp c l i alpha w, X =>
    ofOption ((TimeInterp.setupTimeinterp d w (gridOf (X c)) (gridOf (X l)) alpha (gridOf (X i))).map fun r =>
      putGrid X i r.1)
  | .exchange a b o buf, X =>
    ofOption ((GhostPack.localPack d o (X a) buf).bind fun r =>
      (GhostPack.remoteUnpack d o (X b) r.2).map fun r => fun c => if c = b then r.1 else X c)
  | .bc a mthbc, X => (Bc.bc2Default d mthbc (gridOf (X a))).bind fun q => .ok (putGrid X a q)

/-! ### Clawpack 5 -/

def areaOf5 (p : Patch5 ℚ) : Area := fun c => p.rest (.area c.1 c.2)

def putMem (P : Nat → Patch5 ℚ) (a : Nat) (m : Mem ℚ) : Nat → Patch5 ℚ :=
  fun b => if b = a then { P a with q := m } else P b

def putFour5 (P : Nat → Patch5 ℚ) (fine : ℤ → Nat) (g : ℤ → Mem ℚ) : Nat → Patch5 ℚ :=
  putMem (putMem (putMem (putMem P (fine 0) (g 0)) (fine 1) (g 1)) (fine 2) (g 2)) (fine 3) (g 3)

def step5 (d : Dims) : Op → (Nat → Patch5 ℚ) → Out (Nat → Patch5 ℚ)
  | .copyFace a b td f, P => ofOption ((copyFace5 d td f (P b).q (P a).q).map (putMem P a))
  | .copyCorner a b td k, P => ofOption ((copyCorner5 d td k (P b).q (P a).q).map (putMem P a))
  | .averageFace a b td f mf, P =>
    ofOption ((averageFace5 d td f (areaOf5 (P b)) mf (P b).q (P a).q).map (putMem P a))
  | .averageCorner a b td k mf, P =>
    ofOption ((averageCorner5 d td k (areaOf5 (P b)) mf (P b).q (P a).q).map (putMem P a))
  | .interpFace a b td f, P => ofOption ((interpolateFace5 d td f (P a).q (P b).q).map (putMem P b))
  | .interpCorner a b td k, P => ofOption ((interpolateCorner5 d td k (P a).q (P b).q).map (putMem P b))
  | .coarsen a fine mf, P =>
    ofOption ((coarsen5 d (areaOf5 (P a)) (fun g => areaOf5 (P (fine g))) mf (fun g => (P (fine g)).q)
      (P a).q).map (putMem P a))
  | .refine a fine mf, P =>
    ofOption ((refine5 d (areaOf5 (P a)) (fun g => areaOf5 (P (fine g))) mf (P a).q
      (fun g => (P (fine g)).q)).map (putFour5 P fine))
  | .timeInterp c l i alpha w, P =>
    ofOption ((setupTimeinterp5 d w (P c).q (P l).q alpha (P i).q).map fun r => putMem P i r.1)
  | .exchange a b o buf, P =>
    ofOption ((localPack5 d o (P a) buf).bind fun r =>
      (remoteUnpack5 d o (P b) r.2).map fun r => fun c => if c = b then r.1 else P c)
  | .bc a mthbc, P => (bc2Default5 d mthbc (P a).q).bind fun q => .ok (putMem P a q)

/-! ### Histories -/

def run {σ : Type} (step : Op → σ → Out σ) : List Op → σ → Out σ
  | [], s => .ok s
  | op :: ops, s => (step op s).bind (run step ops)

/-- The same outcome: both stop, both access memory outside of an array (or divide by zero, or fail an
assertion), or both end in related states. -/
def OutRel {σ τ : Type} (R : σ → τ → Prop) : Out σ → Out τ → Prop
  | .ok s, .ok t => R s t
  | .stop, .stop => True
  | .bad, .bad => True
  | _, _ => False

/-- Memory outside of the arrays is as before. -/
def Untouched (d : Dims) (P P' : Nat → Patch5 ℚ) : Prop :=
  ∀ a x, ¬ (0 ≤ x ∧ x < size d) → (P' a).q x = (P a).q x

/-- The operations for which the numbers of ghost layers in the Clawpack 5 routines are right: those for
ghost cells from larger neighbours assume that half the number of layers is one; interpolation in time and
packing assume two layers. -/
def Op.Fits (d : Dims) : Op → Prop
  | .interpFace .. => d.mbc / 2 = 1
  | .interpCorner .. => d.mbc / 2 = 1
  | .timeInterp .. => d.mbc = 2
  | .exchange .. => d.mbc = 2
  | _ => True

/-! ### What is observed -/

/-- The same patch, for tagging. -/
def SameTag (d : Dims) (p : TagPatch5) (x : Tag.Patch) : Prop :=
  Holds d p.q x.q ∧ p.xlower = x.xlower ∧ p.ylower = x.ylower

/-- The criteria for which the refinement routine of Clawpack 5 has the data:
it keeps minimum, maximum and neighbours of the first variable only. -/
def HasData (env : Tag.Env) (d : Dims) : Prop :=
  match env.criterion with
  | .value => 1 ≤ env.ivar ∧ env.ivar ≤ d.meqn
  | .user (some _) => False
  | .user none => True
  | .other => True
  | _ => env.ivar = 1

/-- The same patch, for diagnostics. -/
def SameDiag (d : Dims) (p : DiagPatch5) (x : Diag.Patch) : Prop :=
  Holds d p.q x.q ∧ Holds d p.error x.error ∧ p.area = x.area ∧ p.dx = x.dx ∧ p.dy = x.dy

end Fclaw.Layout
