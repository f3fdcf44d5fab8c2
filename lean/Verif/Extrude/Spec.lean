import Verif.Extrude.Model
import Verif.Transfer.Spec
/-
What "every layer of an extruded mesh is treated as a mesh of two dimensions" means (C84): histories of operations on
patches with layers, and on patches without.
-/
set_option autoImplicit false
namespace Fclaw.Extrude

open Fort CopyGhost

/-- A patch in two dimensions: solution and areas. -/
structure Patch2 where
  q : Grid ℚ
  area : Transfer.Area

/-- Layer `k` of a patch; the volumes of its cells are the areas. -/
def Patch3.slice (P : Patch3) (k : ℤ) : Patch2 :=
  ⟨fun c => P.q (c.1, c.2.1, k, c.2.2), fun c => P.vol (c.1, c.2, k)⟩

/-- What the library does with patches. Patches are numbered, whichever process they are on. -/
inductive Op where
  /-- fill the ghost cells of `this` at a face from a neighbour of the same size -/
  | copyFace (this neighbor : Nat) (td : TData) (iface : Nat)
  /-- … at a corner -/
  | copyCorner (this neighbor : Nat) (td : TData) (icorner : Nat)
  /-- fill the ghost cells of a coarse patch at a face from a smaller neighbour -/
  | averageFace (coarse fine : Nat) (td : TData) (iface : Nat) (manifold : Bool)
  | averageCorner (coarse fine : Nat) (td : TData) (icorner : Nat) (manifold : Bool)
  /-- fill the ghost cells of a fine patch at a face from a larger neighbour -/
  | interpFace (coarse fine : Nat) (td : TData) (iface : Nat)
  | interpCorner (coarse fine : Nat) (td : TData) (icorner : Nat)
  /-- replace four siblings by their parent -/
  | coarsen (coarse : Nat) (fine : ℤ → Nat) (manifold : ℤ)
  /-- replace a patch by its four children -/
  | refine (coarse : Nat) (fine : ℤ → Nat) (manifold : ℤ)
  /-- interpolate in time between `last` and `curr` -/
  | timeInterp (curr last interp : Nat) (alpha : ℚ) (interpWidth : Nat)
  /-- pack `src`, send it, unpack it into `dst` on another process; `buf` is the buffer before -/
  | exchange (src dst : Nat) (o : GhostPack.Opts) (buf : Buf)
  /-- fill the ghost cells of two patches at a corner of the blocks of a pillow sphere -/
  | pillowCopy (this neighbor : Nat) (icorner : Nat)
  /-- … of a fine patch from a coarse one -/
  | pillowInterp (coarse fine : Nat) (icorner : Nat)

/-! ### With layers -/

def put3 (P : Nat → Patch3) (a : Nat) (q : Grid3 ℚ) : Nat → Patch3 := fun b => if b = a then { P a with q := q } else P b

def putFour3 (P : Nat → Patch3) (fine : ℤ → Nat) (g : ℤ → Grid3 ℚ) : Nat → Patch3 :=
  put3 (put3 (put3 (put3 P (fine 0) (g 0)) (fine 1) (g 1)) (fine 2) (g 2)) (fine 3) (g 3)

def step3 (D : Dims3) : Op → (Nat → Patch3) → Option (Nat → Patch3)
  | .copyFace a b td f, P => (copyFace3 D td f (P b).q (P a).q).map (put3 P a)
  | .copyCorner a b td c, P => (copyCorner3 D td c (P b).q (P a).q).map (put3 P a)
  | .averageFace a b td f mf, P => (averageFace3 D td f (P b).vol mf (P b).q (P a).q).map (put3 P a)
  | .averageCorner a b td c mf, P => (averageCorner3 D td c (P b).vol mf (P b).q (P a).q).map (put3 P a)
  | .interpFace a b td f, P => (interpolateFace3 D td f (P a).q (P b).q).map (put3 P b)
  | .interpCorner a b td c, P => (interpolateCorner3 D td c (P a).q (P b).q).map (put3 P b)
  | .coarsen a fine mf, P =>
    (coarsen3 D (fun g => (P (fine g)).vol) mf (fun g => (P (fine g)).q) (P a).q).map (put3 P a)
  | .refine a fine mf, P =>
    (refine3 D (P a).vol (fun g => (P (fine g)).vol) mf (P a).q (fun g => (P (fine g)).q)).map (putFour3 P fine)
  | .timeInterp c l i alpha w, P =>
    (setupTimeinterp3 D w (P c).q (P l).q alpha (P i).q).map fun r => put3 P i r.1
  | .exchange a b o buf, P =>
    (localPack3 D o (P a) buf).bind fun r => (remoteUnpack3 D o (P b) r.2).map fun r =>
      fun c => if c = b then r.1 else P c
  | .pillowCopy a b c, P =>
    (copyBlockCorner3 D c ((P a).q, (P b).q)).map fun r => put3 (put3 P a r.1) b r.2
  | .pillowInterp a b c, P => (interpolateBlockCorner3 D c (P a).q (P b).q).map (put3 P b)

/-! ### Without layers -/

def put2 (S : Nat → Patch2) (a : Nat) (q : Grid ℚ) : Nat → Patch2 := fun b => if b = a then { S a with q := q } else S b

def putFour2 (S : Nat → Patch2) (fine : ℤ → Nat) (g : ℤ → Grid ℚ) : Nat → Patch2 :=
  put2 (put2 (put2 (put2 S (fine 0) (g 0)) (fine 1) (g 1)) (fine 2) (g 2)) (fine 3) (g 3)

/-- The areas of the four cells of child number `igrid` that make up the cell `c` of the parent. -/
def sums (d : Dims) (areafine : Transfer.Area) (igrid : ℤ) : Transfer.Area := fun c =>
  let ig := igrid % 2
  let jg := (igrid - ig) / 2
  let i := c.1 - ig * d.mx / 2
  let j := c.2 - jg * d.mx / 2
  areafine (2 * i - 1, 2 * j - 1) + areafine (2 * i, 2 * j - 1) + areafine (2 * i - 1, 2 * j) + areafine (2 * i, 2 * j)

/-- Coarsening in two dimensions, where the area of a cell of the parent is taken to be the sum of four areas. -/
def coarsenSums (d : Dims) (areafine : ℤ → Transfer.Area) (manifold : ℤ) (qfine : ℤ → Grid ℚ) (qcoarse : Grid ℚ) :
    Option (Grid ℚ) :=
  doLoop 0 3 (fun g => Transfer.average2coarse d (sums d (areafine g) g) (areafine g) g manifold (qfine g)) qcoarse

/-- The patch as memory for packing; there are no registers. -/
def Patch2.data (p : Patch2) : GhostPack.Data ℚ
  | .q i j mq => p.q (i, j, mq)
  | .area i j => p.area (i, j)
  | _ => 0

def Patch2.ofData (x : GhostPack.Data ℚ) : Patch2 := ⟨fun c => x (.q c.1 c.2.1 c.2.2), fun c => x (.area c.1 c.2)⟩

def step2 (d : Dims) : Op → (Nat → Patch2) → Option (Nat → Patch2)
  | .copyFace a b td f, S => (copyFace d td f (S b).q (S a).q).map (put2 S a)
  | .copyCorner a b td c, S => (copyCorner d td c (S b).q (S a).q).map (put2 S a)
  | .averageFace a b td f mf, S => (CoarseFine.averageFace d td f (S b).area mf (S b).q (S a).q).map (put2 S a)
  | .averageCorner a b td c mf, S => (CoarseFine.averageCorner d td c (S b).area mf (S b).q (S a).q).map (put2 S a)
  | .interpFace a b td f, S => (CoarseFine.interpolateFace d td f (S a).q (S b).q).map (put2 S b)
  | .interpCorner a b td c, S => (CoarseFine.interpolateCorner d td c (S a).q (S b).q).map (put2 S b)
  | .coarsen a fine mf, S =>
    (coarsenSums d (fun g => (S (fine g)).area) mf (fun g => (S (fine g)).q) (S a).q).map (put2 S a)
  | .refine a fine mf, S =>
    (Transfer.refine d (S a).area (fun g => (S (fine g)).area) mf (S a).q (fun g => (S (fine g)).q)).map (putFour2 S fine)
  | .timeInterp c l i alpha w, S =>
    (TimeInterp.setupTimeinterp d w (S c).q (S l).q alpha (S i).q).map fun r => put2 S i r.1
  | .exchange a b o buf, S =>
    (GhostPack.localPack d o (S a).data buf).bind fun r => (GhostPack.remoteUnpack d o (S b).data r.2).map fun r =>
      fun c => if c = b then Patch2.ofData r.1 else S c
  | .pillowCopy a b c, S =>
    (Pillow.copyBlockCorner d c ((S a).q, (S b).q)).map fun r => put2 (put2 S a r.1) b r.2
  | .pillowInterp a b c, S => (Pillow.interpolateBlockCorner d c (S a).q (S b).q).map (put2 S b)

/-! ### Histories -/

def run {σ : Type} (step : Op → σ → Option σ) : List Op → σ → Option σ
  | [], s => some s
  | op :: ops, s => (step op s).bind (run step ops)

/-- Is it an exchange with another process? -/
def Op.isExchange : Op → Bool
  | .exchange .. => true
  | _ => false

/-- The operations that layer `k` takes part in: all of them for the layers `1, …, mz`. The layers of ghost cells below and
above them only are sent to other processes. -/
def seen (D : Dims3) (k : ℤ) (ops : List Op) : List Op :=
  if 1 ≤ k ∧ k ≤ D.mz then ops
  else if 1 - (D.mbc : ℤ) ≤ k ∧ k ≤ D.mz + D.mbc then ops.filter Op.isExchange
  else []

/-- What is assumed: exchanges use patches that are large enough for that (see C41), without the registers for conservation
(with them the program ends, in 3D); at a corner of a pillow sphere two different patches meet. -/
def Op.Fits (D : Dims3) : Op → Prop
  | .exchange _ _ o _ => o.refratio = 2 ∧ o.timeSync = false ∧ 1 ≤ D.mbc ∧ 4 * D.mbc ≤ D.mx ∧ 4 * D.mbc ≤ D.my
  | .pillowCopy a b _ => a ≠ b
  | _ => True

/-! ### Mass -/

/-- The mass of component `mq` on a patch: all layers. -/
def coarseMass3 (D : Dims3) (v : Vol) (q : Grid3 ℚ) (mq : ℤ) : ℚ :=
  ∑ k ∈ Finset.Icc 1 (D.mz : ℤ), ∑ C ∈ Transfer.coarseCells D.toDims, v (C.1, C.2, k) * q (C.1, C.2, k, mq)

/-- … on four children. -/
def fineMass3 (D : Dims3) (v : ℤ → Vol) (q : ℤ → Grid3 ℚ) (mq : ℤ) : ℚ :=
  ∑ k ∈ Finset.Icc 1 (D.mz : ℤ), ∑ c ∈ Transfer.fineCells D.toDims,
    v c.1 (c.2.1, c.2.2, k) * q c.1 (c.2.1, c.2.2, k, mq)

/-- The volume of the cells of the children that a cell of the parent consists of. -/
def volIn (D : Dims3) (v : ℤ → Vol) : Vol := fun c =>
  ∑ f ∈ Transfer.fineCells D.toDims with Transfer.parent D.toDims f = (c.1, c.2.1), v f.1 (f.2.1, f.2.2, c.2.2)

/-- Proper volumes: positive; without a mapping (`manifold = 0`) all cells of a layer have the same. -/
def Volumes (D : Dims3) (manifold : ℤ) (v : ℤ → Vol) : Prop :=
  ∀ k : ℤ, 1 ≤ k → k ≤ D.mz → (∀ c ∈ Transfer.fineCells D.toDims, 0 < v c.1 (c.2.1, c.2.2, k)) ∧
    (manifold = 1 ∨ manifold = 0 ∧ ∃ κ : ℚ, ∀ c ∈ Transfer.fineCells D.toDims, v c.1 (c.2.1, c.2.2, k) = κ)

end Fclaw.Extrude
