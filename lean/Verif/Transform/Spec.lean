import Verif.Transform.Model
/-
Geometric specification of the index transformations: positions of cells in the reference cube of a
block, and what it means that two blocks are glued along a face.
-/
set_option autoImplicit false
namespace Fclaw.Transform

def axes (d3 : Bool) : List Nat := if d3 then [0, 1, 2] else [0, 1]

/-- The patch is an element of the refinement of its block: its lower corner has integer
coordinates in units of its size. -/
def OnLattice (p : Patch) : Prop := ∀ a, ∃ X : ℤ, p.lower a = X / 2 ^ p.level

/-- Position, in the reference cube of the block, of the cell centre (`based = 1`, cells are
numbered from 1) or cell corner (`based = 0`, corners are numbered from 0) with index `idx` of a
patch with `m` cells per direction. -/
def location (p : Patch) (m : Nat → Nat) (based : Nat) (idx : Nat → ℤ) (a : Nat) : ℚ :=
  p.lower a + ((idx a : ℚ) - based / 2) / (m a * 2 ^ p.level)

/-- Position of the centre of a cell of a patch whose cells are numbered from `based`. -/
def cellCentre (p : Patch) (m : Nat → Nat) (based : Nat) (idx : Nat → ℤ) (a : Nat) : ℚ :=
  p.lower a + ((idx a : ℚ) - based + 1 / 2) / (m a * 2 ^ p.level)

/-- Position of the centre of child `b` (one bit per axis) of such a cell. -/
def childCentre (p : Patch) (m : Nat → Nat) (based : Nat) (idx : Nat → ℤ) (b : Nat → Nat) (a : Nat) : ℚ :=
  p.lower a + ((idx a : ℚ) - based + 1 / 4 + b a / 2) / (m a * 2 ^ p.level)

/-- How far a point lies outside of the unit interval beyond its upper or lower end. -/
def outside (upper : Bool) (x : ℚ) : ℚ := if upper then x - 1 else -x
/-- How far a point lies inside of the unit interval from its upper or lower end. -/
def inside (upper : Bool) (x : ℚ) : ℚ := if upper then 1 - x else x

/-- A structurally correct description of a block gluing: axis `ft 2` of this block is normal to
the common face and corresponds to axis `ft 5` of the other block; the transversal axes `ft 0`
(and `ft 1` in 3D) correspond to `ft 3` (and `ft 4`), reversed if `ft 6` (`ft 7`) is 1; `ft 8` is
twice (upper face on this side) plus (upper face on the other side). -/
structure Gluing (d3 : Bool) (ft : Nat → Nat) : Prop where
  my0 : ft 0 < if d3 then 3 else 2
  my1 : ft 1 < if d3 then 3 else 1
  my2 : ft 2 < if d3 then 3 else 2
  t0 : ft 3 < if d3 then 3 else 2
  t1 : ft 4 < if d3 then 3 else 1
  t2 : ft 5 < if d3 then 3 else 2
  r0 : ft 6 ≤ 1
  r1 : ft 7 ≤ if d3 then 1 else 0
  r2 : ft 8 ≤ 3
  my02 : ft 0 ≠ ft 2
  my01 : d3 = true → ft 0 ≠ ft 1 ∧ ft 1 ≠ ft 2
  t02 : ft 3 ≠ ft 5
  t01 : d3 = true → ft 3 ≠ ft 4 ∧ ft 4 ≠ ft 5

/-- Same physical point, in coordinates `p` of this block and `p'` of the other block: the
transversal coordinates agree up to reversal, and how far the point lies outside this block beyond
the common face is how far it lies inside the other block. -/
structure SamePoint (d3 : Bool) (ft : Nat → Nat) (p p' : Nat → ℚ) : Prop where
  trans0 : p' (ft 3) = if ft 6 = 0 then p (ft 0) else 1 - p (ft 0)
  trans1 : d3 = true → p' (ft 4) = if ft 7 = 0 then p (ft 1) else 1 - p (ft 1)
  norm : inside (decide (ft 8 % 2 = 1)) (p' (ft 5)) = outside (decide (ft 8 / 2 = 1)) (p (ft 2))

/-- The gluing seen from the other block. -/
def reverse (ft : Nat → Nat) : Nat → Nat
  | 0 => ft 3
  | 1 => ft 4
  | 2 => ft 5
  | 3 => ft 0
  | 4 => ft 1
  | 5 => ft 2
  | 6 => ft 6
  | 7 => ft 7
  | 8 => 2 * (ft 8 % 2) + ft 8 / 2
  | _ => 0

/-- Unit step out of the block across the common face. -/
def outStep (ft : Nat → Nat) (a : Nat) : ℤ :=
  if a = ft 2 then (if ft 8 / 2 = 1 then 1 else -1) else 0

/-- Centre of the patch next to `p` displaced by `s` patches. -/
def patchCentre (p : Patch) (s : Nat → ℤ) (a : Nat) : ℚ := p.lower a + (1 / 2 + s a) / 2 ^ p.level

/-- The patches have the same number of cells along corresponding axes. -/
def SizesMatch (d3 : Bool) (ft m : Nat → Nat) : Prop :=
  m (ft 0) = m (ft 3) ∧ (d3 = true → m (ft 1) = m (ft 4)) ∧ m (ft 2) = m (ft 5)

/-- Same physical point across a corner, in coordinates `p` of this block and `p'` of the other.
Within a block the coordinates agree. If the blocks differ they meet in the block corner `icorner`
and have parallel axes: along each axis, how far the point lies outside this block beyond the corner
is how far it lies inside the other block from the opposite end. -/
def CornerSamePoint (d3 : Bool) (icorner : Nat) (differentBlocks : Bool) (p p' : Nat → ℚ) : Prop :=
  ∀ a ∈ axes d3,
    if differentBlocks then
      inside (decide (icorner / 2 ^ a % 2 = 0)) (p' a) = outside (decide (icorner / 2 ^ a % 2 = 1)) (p a)
    else p' a = p a

/-- The patch lies in the corner of its block opposite to `icorner`. -/
def InOppositeCorner (d3 : Bool) (icorner : Nat) (p : Patch) : Prop :=
  ∀ a ∈ axes d3, if icorner / 2 ^ a % 2 = 0 then p.lower a + 1 / 2 ^ p.level = 1 else p.lower a = 0

/-- One bit per axis (none for the third axis in 2D). -/
def IsChild (d3 : Bool) (b : Nat → Nat) : Prop :=
  ∃ x y z, b = bits x y z ∧ x < 2 ∧ y < 2 ∧ (if d3 then z < 2 else z = 0)

/-- Admissible patch sizes and index base. -/
def Sizes (d3 : Bool) (m : Nat → Nat) (based : Nat) : Prop := based ≤ 1 ∧ ∀ a ∈ axes d3, 1 ≤ m a

end Fclaw.Transform
