import Verif.Edge.Model
import Verif.Transform.Spec
import Verif.FaceNbr.Spec
/-
Geometric specification: where the twelve edges of a cube are, and what it means that two blocks
with parallel axes meet in an edge.
-/
set_option autoImplicit false
namespace Fclaw.Edge

open Fclaw.Transform (Patch inside outside location cellCentre childCentre patchCentre bits IsChild)
open Fclaw.FaceNbr (Where SizeRel)

/-- Which end of an axis an edge is at: it is parallel to the axis, or at the lower or upper end. -/
inductive End where
  | along | lo | hi
  deriving DecidableEq

/-- The twelve edges of a cube: four parallel to x, four parallel to y, four parallel to z
(src/forestclaw3d.h:575-576), each four in the order lower-lower, upper-lower, lower-upper,
upper-upper of the remaining axes (numbering of p8est). -/
def edgeEnds : Nat → End × End × End
  | 0 => (.along, .lo, .lo)
  | 1 => (.along, .hi, .lo)
  | 2 => (.along, .lo, .hi)
  | 3 => (.along, .hi, .hi)
  | 4 => (.lo, .along, .lo)
  | 5 => (.hi, .along, .lo)
  | 6 => (.lo, .along, .hi)
  | 7 => (.hi, .along, .hi)
  | 8 => (.lo, .lo, .along)
  | 9 => (.hi, .lo, .along)
  | 10 => (.lo, .hi, .along)
  | _ => (.hi, .hi, .along)

/-- The end of axis `a` (0, 1, 2) at which edge `e` lies. -/
def edgeEnd (e a : Nat) : End :=
  if a = 0 then (edgeEnds e).1 else if a = 1 then (edgeEnds e).2.1 else (edgeEnds e).2.2

/-- The other end. -/
def End.opposite : End → End
  | .along => .along
  | .lo => .hi
  | .hi => .lo

/-- Same physical point across edge `e`, in coordinates `p` of this block and `p'` of the other.
Within a block the coordinates agree. Different blocks have parallel axes and meet in the block edge
`e`: along the edge the coordinates agree, and along the two other axes, how far the point lies
outside this block is how far it lies inside the other block from the opposite end. -/
def EdgeSamePoint (e : Nat) (differentBlocks : Bool) (p p' : Nat → ℚ) : Prop :=
  ∀ a, a < 3 →
    if differentBlocks then
      match edgeEnd e a with
      | .along => p' a = p a
      | .lo => inside true (p' a) = outside false (p a)
      | .hi => inside false (p' a) = outside true (p a)
    else p' a = p a

/-- The patch touches edge `e` of its block. -/
def TouchesEdge (e : Nat) (p : Patch) : Prop :=
  ∀ a, a < 3 →
    match edgeEnd e a with
    | .along => True
    | .lo => p.lower a = 0
    | .hi => p.lower a + 1 / 2 ^ p.level = 1

/-- `e'` is the edge diagonally opposite to `e`. -/
def Opposite (e e' : Nat) : Prop := e' < 12 ∧ ∀ a, a < 3 → edgeEnd e' a = (edgeEnd e a).opposite

/-- Unit step out of a cube across edge `e`. -/
def edgeStep (e a : Nat) : ℤ :=
  match edgeEnd e a with
  | .along => 0
  | .lo => -1
  | .hi => 1

/-- Admissible patch sizes and index base. -/
def Sizes (m : Nat → Nat) (based : Nat) : Prop := based ≤ 1 ∧ ∀ a, a < 3 → 1 ≤ m a

/-- What may lie behind an edge. -/
inductive EdgeNeighbor where
  | none
  | several                        -- more than four blocks meet: not supported by the query
  | inside (w : Where)             -- no change of block coordinates: the opposite edge
  | across (w : Where) (edge : Nat) -- in another block

/-- The encoding in `quad_to_edge` and the edge lists. -/
def EncodesEdge (M : EdgeMesh) (leaf e : Nat) : EdgeNeighbor → Prop
  | .none => M.quadToEdge leaf e < 0
  | .several => ∃ k, M.quadToEdge leaf e = ((M.base.localNum + M.base.ghostNum + k : Nat) : Int) ∧
      M.edgeOffset k + 1 < M.edgeOffset (k + 1)
  | .inside w => w.exists M.base ∧ M.quadToEdge leaf e = (w.id M.base : Int)
  | .across w edge => w.exists M.base ∧ edge < 12 ∧
      ∃ k, M.quadToEdge leaf e = ((M.base.localNum + M.base.ghostNum + k : Nat) : Int) ∧
        M.edgeOffset (k + 1) = M.edgeOffset k + 1 ∧
        M.edgeQuad (M.edgeOffset k) = w.id M.base ∧ M.edgeEdge (M.edgeOffset k) = edge

end Fclaw.Edge
