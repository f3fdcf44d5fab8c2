import Verif.Pillow.Model
import Verif.FaceNbr.Spec
/-
What is expected at the corners of a pillow sphere.
-/
set_option autoImplicit false
namespace Fclaw.Pillow

open Fort CopyGhost

/-- Number of a cell counted from corner `k` of the patch: 1, 2, … inside, 0, -1, … outside. -/
def away (d : Dims) (k : Nat) (c : ℤ × ℤ) : ℤ × ℤ :=
  (if k % 2 = 0 then c.1 else d.mx + 1 - c.1, if k / 2 = 0 then c.2 else d.my + 1 - c.2)

/-- The cell on the other block that a ghost cell at corner `k` is folded onto. -/
def Folded (d : Dims) (k : Nat) (g m : ℤ × ℤ) : Prop :=
  (away d k m).1 = 1 - (away d k g).1 ∧ (away d k m).2 = 1 - (away d k g).2

/-- Part `(x, y)` of the place that the ghost cell `g` of a large patch is folded onto is the cell `m` of a small patch at
the same corner. -/
def FoldedPart (d : Dims) (k : Nat) (g : ℤ × ℤ) (x y : Nat) (m : ℤ × ℤ) : Prop :=
  (away d k m).1 = -2 * (away d k g).1 + 1 + x ∧ (away d k m).2 = -2 * (away d k g).2 + 1 + y

/-- The half of a large cell, numbered from left to right (from bottom to top), that the ghost cell with number `n` (counted
from the corner) of a small patch is folded onto. `low`: the corner is at the left (bottom). -/
def foldedHalf (low : Bool) (n : ℤ) : Nat := if low then ((1 - n + 1) % 2).toNat else ((1 - n) % 2).toNat

/-- A patch: its block, level, and position in units of its size. -/
structure Quad where
  block : Nat
  level : Nat
  x : Nat
  y : Nat

/-- It lies at corner `k` of its block. -/
def Quad.atCorner (k : Nat) (Q : Quad) : Prop :=
  Q.x = (if k % 2 = 0 then 0 else 2 ^ Q.level - 1) ∧ Q.y = (if k / 2 = 0 then 0 else 2 ^ Q.level - 1)

/-- What lies behind the left or right face of a patch at that face of its block, on a pillow sphere: patches of the other
block in the same position. Two small ones are numbered from bottom to top. -/
def Behind (pos : FaceNbr.Where → Quad) (f : Nat) (Q : Quad) : FaceNbr.Neighbor → Prop
  | .boundary => False
  | .same w _ _ => pos w = ⟨1 - Q.block, Q.level, Q.x, Q.y⟩
  | .double w _ _ _ => 1 ≤ Q.level ∧ pos w = ⟨1 - Q.block, Q.level - 1, Q.x / 2, Q.y / 2⟩
  | .half ws _ _ => ∀ (k : Nat) (w : FaceNbr.Where), ws[k]? = some w → pos w = ⟨1 - Q.block, Q.level + 1, 2 * Q.x + f % 2, 2 * Q.y + k⟩

/-- Centre of cell `(i, j)` of a patch, in the coordinates of its block, from -1 to 1. -/
def centre (d : Dims) (Q : Quad) (c : ℤ × ℤ) : ℚ × ℚ :=
  (2 * ((Q.x * d.mx + c.1 - 1 / 2) / (2 ^ Q.level * d.mx)) - 1, 2 * ((Q.y * d.my + c.2 - 1 / 2) / (2 ^ Q.level * d.my)) - 1)

/-- It lies at face `f` of its block. -/
def Quad.atFace (f : Nat) (Q : Quad) : Prop :=
  match f with
  | 0 => Q.x = 0
  | 1 => Q.x = 2 ^ Q.level - 1
  | 2 => Q.y = 0
  | 3 => Q.y = 2 ^ Q.level - 1
  | _ => False

/-- It lies within its block. -/
def Quad.inside (Q : Quad) : Prop := Q.x < 2 ^ Q.level ∧ Q.y < 2 ^ Q.level

/-- The cell that a ghost cell at face `f` is folded onto. -/
def folded (d : Dims) (f : Nat) (g : ℤ × ℤ) : ℤ × ℤ :=
  match f with
  | 0 => (1 - g.1, g.2)
  | 1 => (2 * d.mx + 1 - g.1, g.2)
  | 2 => (g.1, 1 - g.2)
  | _ => (g.1, 2 * d.my + 1 - g.2)

end Fclaw.Pillow
