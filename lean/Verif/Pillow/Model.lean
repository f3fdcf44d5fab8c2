import Verif.CoarseFine.Ops
import Verif.FaceNbr.Model
/-
Model of the exchange at the corners of the blocks of a pillow sphere: two square blocks, the halves of a
sphere, glued along all four faces, so that only two patches meet at the corner of a block.

* src/patches/clawpatch/fort_4.6/fclaw2d_clawpatch46_pillowsphere.f, and the same in
  src/patches/clawpatch/fort_5.0/fclaw2d_clawpatch5_pillowsphere.f with the indices in another order
* src/patches/clawpatch/fclaw2d_clawpatch_pillow.c:71-201: the callers (`refratio` is 2)
* src/fclaw2d_corner_neighbors.c:250-300: which patch is the neighbour
* src/mappings/pillowsphere/mapc2m_pillowsphere.f: where a point of a block is on the sphere

Simplifications: real numbers are rationals, without rounding. An array is a function of its indices, an access outside
of the bounds and a division by zero are `none`. The two patches do not share memory.
-/
set_option autoImplicit false
namespace Fclaw.Pillow

open Fort CopyGhost Transfer

/-- The cells next to a corner on the right hand sides, pillowsphere.f:29-53. -/
def mirrorCell (d : Dims) (icorner : Nat) (ibc jbc : ℤ) : ℤ × ℤ :=
  if icorner = 0 then (ibc, jbc)
  else if icorner = 1 then (d.mx + 1 - ibc, jbc)
  else if icorner = 2 then (ibc, d.my + 1 - jbc)
  else (d.mx + 1 - ibc, d.my + 1 - jbc)

/-- `fclaw2d_pillow46_copy_block_corner`, pillowsphere.f:14-58, for `icorner` from 0 to 3. The state is the pair
of `qthis` and `qneighbor`. -/
def copyBlockCorner {α : Type} (d : Dims) (icorner : Nat) (Q : Grid α × Grid α) : Option (Grid α × Grid α) :=
  doLoop 1 d.meqn (fun mq => doLoop 1 d.mbc fun ibc => doLoop 1 d.mbc fun jbc => fun Q =>
    let g := cornerCell d icorner ibc jbc
    let m := mirrorCell d icorner ibc jbc
    (rd d Q.2 (m.1, m.2, mq)).bind fun v =>
    (wr d Q.1 (g.1, g.2, mq) v).bind fun qthis =>
    (rd d qthis (m.1, m.2, mq)).bind fun v =>
    (wr d Q.2 (g.1, g.2, mq) v).bind fun qneighbor =>
    some (qthis, qneighbor)) Q

/-- Reading `area(-mbc:mx+mbc+1,-mbc:my+mbc+1)`. -/
def rdArea (d : Dims) (area : ℤ × ℤ → ℚ) (c : ℤ × ℤ) : Option ℚ :=
  if -(d.mbc : ℤ) ≤ c.1 ∧ c.1 ≤ d.mx + d.mbc + 1 ∧ -(d.mbc : ℤ) ≤ c.2 ∧ c.2 ≤ d.my + d.mbc + 1 then some (area c) else none

/-- The element of `areacoarse` that is read, pillowsphere.f:98, 115, 132 and 149. Note line 98. -/
def coarseAreaCell (d : Dims) (icorner : Nat) (ibc jbc : ℤ) : ℤ × ℤ :=
  if icorner = 0 then (1 - ibc, 1 - ibc) else cornerCell d icorner ibc jbc

/-- `fclaw2d_pillow46_average_block_corner`, pillowsphere.f:67-156, for `icorner` from 0 to 3, with `refratio = 2`. -/
def averageBlockCorner (d : Dims) (icorner : Nat) (areacoarse areafine : ℤ × ℤ → ℚ) (qfine qcoarse : Grid ℚ) :
    Option (Grid ℚ) :=
  doLoop 1 d.meqn (fun mq => doLoop 1 d.mbc fun ibc => doLoop 1 d.mbc fun jbc => fun q =>
    let g := cornerCell d icorner ibc jbc
    (doLoop 1 2 (fun ii => doLoop 1 2 fun jj => fun sum =>
      let f := mirrorCell d icorner ((ibc - 1) * 2 + ii) ((jbc - 1) * 2 + jj)
      (rd d qfine (f.1, f.2, mq)).bind fun qf =>
      (rdArea d areafine f).bind fun kf =>
      some (sum + kf * qf)) (0 : ℚ)).bind fun sum =>
    (rdArea d areacoarse (coarseAreaCell d icorner ibc jbc)).bind fun kc =>
    (divide sum kc).bind fun v =>
    wr d q (g.1, g.2, mq) v) qcoarse

/-- `fclaw2d_pillow46_interpolate_block_corner`, pillowsphere.f:166-231, for `icorner` from 0 to 3, with
`refratio = 2`. -/
def interpolateBlockCorner (d : Dims) (icorner : Nat) (qcoarse qfine : Grid ℚ) : Option (Grid ℚ) :=
  let c := mirrorCell d icorner 1 1
  doLoop 1 d.meqn (fun mq => fun q =>
    (slopes d qcoarse c.1 c.2 mq).bind fun s =>
    doLoop 1 d.mbc (fun ibc => doLoop 1 d.mbc fun jbc => fun q =>
      let g := cornerCell d icorner ibc jbc
      wr d q (g.1, g.2, mq) (s.1 + Transfer.shift ibc * s.2.1 + Transfer.shift jbc * s.2.2)) q) qfine

/-! ### The neighbour -/

/-- What the search returns: relation of sizes, process, block and number of the neighbour, and its corner. -/
structure Found where
  rel : FaceNbr.Rel
  rproc : ℤ
  rblockno : ℤ
  rpatchno : ℤ
  rcorner : ℤ
  deriving DecidableEq

/-- Case 4 of `get_corner_neighbor`, fclaw2d_corner_neighbors.c:250-300, for a corner of a block where the mesh names no
neighbour (`has_corner_neighbor` false), on a pillow sphere. Reading beyond the arrays is `none`. -/
def pillowNeighbor (M : FaceNbr.Mesh) (blockno patchno icorner : Nat) : Option Found :=
  let iface := icorner % 2
  (FaceNbr.faceNeighbors FaceNbr.dim2 M blockno patchno iface).bind fun r =>
  let igrid := if r.rel = .halfSize then icorner / 2 * (2 - 1) else 0
  (r.rpatchno[igrid]?).bind fun p =>
  (r.rproc[igrid]?).bind fun proc =>
  some ⟨r.rel, proc, r.rblockno, p, icorner⟩

/-! ### The mapping -/

/-- `x1`, mapc2m_pillowsphere.f:25-26 (`y1` at lines 28-29). For the values of interest `1 + d` is not zero. -/
def fold (xc : ℚ) : ℚ :=
  let d := max (xc - 1) 0 + max (-1 - xc) 0
  (1 - d) / (1 + d) * xc

/-- `zp` is positive or negative in the end, mapc2m_pillowsphere.f:47-51 and 59-63. `true`: not negated. -/
def upper (blockno : ℕ) (xc yc : ℚ) : Bool :=
  (decide (1 < |xc|) == decide (1 < |yc|)) == decide (blockno ≠ 1)

/-- The point of the sphere that `(xc, yc)` in `[-1,1] x [-1,1]` is mapped to: it is a function of `fold xc`, `fold yc`
(lines 33-41, not modelled: that function has sines and roots), with the sign `upper` of its third coordinate. -/
def place (blockno : ℕ) (p : ℚ × ℚ) : ℚ × ℚ × Bool := (fold p.1, fold p.2, upper blockno p.1 p.2)

end Fclaw.Pillow
