import Verif.Fort.Basic
import Verif.Transform.Model
/-
Model of the copies between patches of the same size: src/patches/clawpatch/fort_4.6/
fclaw2d_clawpatch46_copy.f, with the index transformations of fclaw2d_clawpatch_transform.c and
fclaw2d_clawpatch_utils.f. Values are copied only, so their type is arbitrary.
-/
set_option autoImplicit false
namespace Fclaw.CopyGhost

open Fort Transform

/-- What is used here of `fclaw2d_patch_transform_data_t`, src/fclaw2d_patch.h:131-160. `based` is 1
(fclaw2d_clawpatch_transform.c:60-61). `junk` stands for uninitialised memory in the callees. -/
structure TData where
  this : Patch
  neighbor : Patch
  transform : Nat → Nat
  icorner : Nat
  isBlockCorner : Bool
  blockIface : ℤ
  junk : ℤ → ℤ → Nat → ℚ

/-- `mx, my` as a function of the axis. -/
def sizes (d : Dims) : Nat → Nat := fun a => if a = 0 then d.mx else if a = 1 then d.my else 1

/-- `i, j` as a function of the axis. -/
def index (i j : ℤ) : Nat → ℤ := fun a => if a = 0 then i else if a = 1 then j else 0

/-- `FCLAW2D_CLAWPATCH_TRANSFORM_FACE`, fclaw2d_clawpatch_transform.c:80-97. -/
def clawFace (d : Dims) (td : TData) (i1 j1 : ℤ) : Option (ℤ × ℤ) :=
  (transformFace false td.this td.neighbor td.transform (sizes d) 1 (index i1 j1) (td.junk i1 j1)).map
    fun t => (t 0, t 1)

/-- `FCLAW2D_CLAWPATCH_TRANSFORM_CORNER`, lines 121-155. -/
def clawCorner (d : Dims) (td : TData) (i1 j1 : ℤ) : Option (ℤ × ℤ) :=
  if 0 ≤ td.blockIface then clawFace d td i1 j1
  else if td.blockIface ≠ -1 then none
  else
    (transformCorner false td.this td.neighbor td.icorner td.isBlockCorner (sizes d) 1
      (index i1 j1)).map fun t => (t 0, t 1)

/-- `a(2,2)` and `f(2)`. -/
structure Affine where
  a11 : ℤ
  a12 : ℤ
  a21 : ℤ
  a22 : ℤ
  f1 : ℤ
  f2 : ℤ
  deriving DecidableEq, Repr

/-- `fclaw2d_clawpatch_build_transform_same`, fclaw2d_clawpatch_utils.f:127-169. -/
def buildTransformSame (d : Dims) (td : TData) : Option Affine :=
  (clawFace d td 0 0).bind fun o =>
  (clawFace d td 1 0).bind fun e1 =>
  (clawFace d td 0 1).bind fun e2 =>
  some ⟨e1.1 - o.1, e2.1 - o.1, e1.2 - o.2, e2.2 - o.2, o.1, o.2⟩

/-- Lines 45-47 of fclaw2d_clawpatch46_copy.f (the same in all branches). -/
def copyCell {α : Type} (d : Dims) (A : Affine) (qneighbor : Grid α) (mq j1 i1 : ℤ) (qthis : Grid α) :
    Option (Grid α) :=
  let i2 := A.a11 * i1 + A.a12 * j1 + A.f1
  let j2 := A.a21 * i1 + A.a22 * j1 + A.f2
  (rd d qneighbor (i2, j2, mq)).bind fun v => wr d qthis (i1, j1, mq) v

/-- `fclaw2d_clawpatch46_fort_copy_face`, fclaw2d_clawpatch46_copy.f:17-86. -/
def copyFace {α : Type} (d : Dims) (td : TData) (iface : Nat) (qneighbor qthis : Grid α) :
    Option (Grid α) :=
  (buildTransformSame d td).bind fun A =>
  let body := copyCell d A qneighbor
  let (mx, my, mbc) := ((d.mx : ℤ), (d.my : ℤ), (d.mbc : ℤ))
  if iface = 0 then
    doLoop 1 d.meqn (fun mq => doLoop 1 my fun j1 => doLoop (1 - mbc) 0 fun i1 => body mq j1 i1) qthis
  else if iface = 1 then
    doLoop 1 d.meqn (fun mq => doLoop 1 my fun j1 => doLoop (mx + 1) (mx + mbc) fun i1 => body mq j1 i1) qthis
  else if iface = 2 then
    doLoop 1 d.meqn (fun mq => doLoop (1 - mbc) 0 fun j1 => doLoop 1 mx fun i1 => body mq j1 i1) qthis
  else if iface = 3 then
    doLoop 1 d.meqn (fun mq => doLoop (my + 1) (my + mbc) fun j1 => doLoop 1 mx fun i1 => body mq j1 i1) qthis
  else some qthis

/-- `(i1, j1)` in a loop over a corner, lines 112-124. -/
def cornerCell (d : Dims) (icorner : Nat) (ibc jbc : ℤ) : ℤ × ℤ :=
  if icorner = 0 then (1 - ibc, 1 - jbc)
  else if icorner = 1 then (d.mx + ibc, 1 - jbc)
  else if icorner = 2 then (1 - ibc, d.my + jbc)
  else (d.mx + ibc, d.my + jbc)

/-- `fclaw2d_clawpatch46_fort_copy_corner`, lines 95-133. -/
def copyCorner {α : Type} (d : Dims) (td : TData) (icorner : Nat) (qneighbor qthis : Grid α) :
    Option (Grid α) :=
  doLoop 1 d.meqn (fun mq => doLoop 1 d.mbc fun ibc => doLoop 1 d.mbc fun jbc => fun q =>
    let c1 := cornerCell d icorner ibc jbc
    (clawCorner d td c1.1 c1.2).bind fun c2 =>
    (rd d qneighbor (c2.1, c2.2, mq)).bind fun v => wr d q (c1.1, c1.2, mq) v) qthis

end Fclaw.CopyGhost
