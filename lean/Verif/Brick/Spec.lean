/-
What it means to tile the unit square.
-/
import Verif.Brick.Model

set_option autoImplicit false
namespace Fclaw.Brick

/-- The connectivity is a brick: tree `i` has its lower left corner at the integer point
`(px i, py i)` with `px i < mi`, `py i < mj`, and every such integer point is the lower left corner of exactly one
tree. (p4est numbers the trees of a brick along a space filling curve, so the order is not the obvious one.) -/
structure IsBrick (conn : Conn) (mi mj : Nat) (px py : Nat → Nat) : Prop where
  x : ∀ i, i < conn.numTrees → conn.vertices (3 * conn.treeToVertex (4 * i)) = px i
  y : ∀ i, i < conn.numTrees → conn.vertices (3 * conn.treeToVertex (4 * i) + 1) = py i
  xlt : ∀ i, i < conn.numTrees → px i < mi
  ylt : ∀ i, i < conn.numTrees → py i < mj
  inj : ∀ i j, i < conn.numTrees → j < conn.numTrees → px i = px j → py i = py j → i = j
  surj : ∀ a b, a < mi → b < mj → ∃ i, i < conn.numTrees ∧ px i = a ∧ py i = b

/-- The closed unit square. -/
def InSquare (x y : ℚ) : Prop := 0 ≤ x ∧ x ≤ 1 ∧ 0 ≤ y ∧ y ≤ 1

/-- The open unit square. -/
def Inside (x y : ℚ) : Prop := 0 < x ∧ x < 1 ∧ 0 < y ∧ y < 1

/-- The cell in column `a` and row `b` when the unit square is cut into `mi` columns and `mj` rows. -/
def InCell (mi mj a b : Nat) (x y : ℚ) : Prop :=
  (a : ℚ) / mi ≤ x ∧ x ≤ ((a : ℚ) + 1) / mi ∧ (b : ℚ) / mj ≤ y ∧ y ≤ ((b : ℚ) + 1) / mj

/-- The brick of two blocks side by side, with the trees in reverse order. -/
def exConn : Conn :=
  { numTrees := 2
    treeToVertex := fun k => if k = 0 then 1 else if k = 4 then 0 else 2
    vertices := fun k => if k = 3 then 1 else 0 }

end Fclaw.Brick
