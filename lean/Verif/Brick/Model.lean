/-
Model of the brick mapping, src/fclaw2d_map_brick.c, and of how it is reached from other mappings, src/fclaw2d_map.c
and src/mappings/fclaw2d_map_nomap_brick.c. Coordinates are rational numbers.
-/
import Mathlib.Data.Rat.Defs
import Mathlib.Algebra.Order.Ring.Rat

set_option autoImplicit false
namespace Fclaw.Brick

/-- The part of p4est's connectivity that is read: number of trees, the four vertices of each tree, and three
coordinates per vertex, stored consecutively. -/
structure Conn where
  numTrees : Nat
  treeToVertex : Nat → Nat
  vertices : Nat → ℚ

/-- The twelve numbers `block->vertices` as filled by `fclaw2d_domain_new`, src/fclaw2d_convenience.c:179-188:
entry `3 j + c` is coordinate `c` of corner `j` (2D, where a block has 4 corners; vertices are present). -/
def blockVertices (conn : Conn) (i : Nat) (k : Nat) : ℚ :=
  conn.vertices (3 * conn.treeToVertex (4 * i + k / 3) + k % 3)

/-- `fclaw2d_block_ll_t`: the lower left corner of each block, and the size of the brick. -/
structure Ll where
  nb : Nat
  mi : Nat
  mj : Nat
  xv : Nat → ℚ
  yv : Nat → ℚ

/-- `fclaw2d_map_new_brick`, src/fclaw2d_map_brick.c:136-184, without writing the file brick.dat. -/
def newBrick (conn : Conn) (mi mj : Nat) : Ll :=
  { nb := conn.numTrees, mi := mi, mj := mj
    xv := fun i => blockVertices conn i 0
    yv := fun i => blockVertices conn i 1 }

/-- `fclaw2d_map_new_brick_conn`, lines 90-134. -/
def newBrickConn (conn : Conn) (mi mj : Nat) : Ll :=
  { nb := conn.numTrees, mi := mi, mj := mj
    xv := fun i => conn.vertices (3 * conn.treeToVertex (4 * i))
    yv := fun i => conn.vertices (3 * conn.treeToVertex (4 * i) + 1) }

/-- `fclaw2d_map_c2m_brick`, lines 68-78 (the third coordinate is always 0). -/
def c2m (bv : Ll) (blockno : Nat) (xc yc : ℚ) : ℚ × ℚ × ℚ :=
  ((bv.xv blockno + xc) / bv.mi, (bv.yv blockno + yc) / bv.mj, 0)

inductive Err where
  | assertion
  deriving DecidableEq, Repr

/-- `FCLAW2D_MAP_BRICK2C`, src/fclaw2d_map.c:123-142, reached also from `fclaw2d_map_c2m_nomap_brick`,
src/mappings/fclaw2d_map_nomap_brick.c:64-71, and from the Fortran mappings. Without a brick, the
assertion in line 137 compares the address of the block number, which is never null, with zero; `debug` says
whether assertions are compiled in. -/
def brick2c (debug : Bool) (brick : Option Ll) (blockno : Nat) (xc yc : ℚ) : Except Err (ℚ × ℚ × ℚ) :=
  match brick with
  | some bv => .ok (c2m bv blockno xc yc)
  | none => if debug then .error .assertion else .ok (xc, yc, 0)

end Fclaw.Brick
