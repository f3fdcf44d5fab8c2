import Verif.Mapping.Model
/-
What the mappings are meant to do. A place of a block is a block number with coordinates in [0,1].
-/
set_option autoImplicit false
namespace Fclaw.Mapping

noncomputable section

/-- A coordinate inside of a block. -/
def I01 (s : ℝ) : Prop := 0 ≤ s ∧ s ≤ 1

/-- The unit sphere. -/
def OnSphere (p : P3) : Prop := p.x ^ 2 + p.y ^ 2 + p.z ^ 2 = 1

/-- The unit disk in the plane `z = 0`, and its boundary. -/
def InDisk (p : P3) : Prop := p.x ^ 2 + p.y ^ 2 ≤ 1 ∧ p.z = 0
def OnCircle (p : P3) : Prop := p.x ^ 2 + p.y ^ 2 = 1 ∧ p.z = 0

/-- The square [-1,1] × [-1,1] in the plane `z = 0`. -/
def InSquare (p : P3) : Prop := -1 ≤ p.x ∧ p.x ≤ 1 ∧ -1 ≤ p.y ∧ p.y ≤ 1 ∧ p.z = 0

/-- A point on the surface of the cube with corners `(±1, ±1, ±1)`. The six blocks of the cubed sphere are
the faces of the cube; the first coordinate `s` of a block runs along the first axis named in the comment,
the second coordinate `t` along the second one. This is the numbering of the trees of
`p4est_connectivity_new_cubed`. -/
def cubePoint (b : ℤ) (s t : ℝ) : P3 :=
  let u := 2 * s - 1
  let v := 2 * t - 1
  if b = 0 then ⟨v, u, -1⟩        -- bottom: y, x
  else if b = 1 then ⟨v, 1, u⟩    -- back: z, x
  else if b = 2 then ⟨-1, v, u⟩   -- left: z, y
  else if b = 3 then ⟨u, v, 1⟩    -- top: x, y
  else if b = 4 then ⟨u, -1, v⟩   -- front: x, z
  else ⟨1, u, v⟩                  -- right: y, z

/-- A place: block, first and second coordinate. -/
abbrev Place := ℤ × ℝ × ℝ

/-- The place lies in one of the blocks `0, …, n - 1`. -/
def InBlocks (n : ℤ) (a : Place) : Prop := 0 ≤ a.1 ∧ a.1 < n ∧ I01 a.2.1 ∧ I01 a.2.2

/-- The eight edges that two of the five blocks of a disk have in common: below (0), left (1), centre (2),
right (3), above (4). -/
inductive Glue5 : Place → Place → Prop
  | below (s : ℝ) : Glue5 (0, s, 1) (2, s, 0)
  | left (t : ℝ) : Glue5 (1, 1, t) (2, 0, t)
  | right (t : ℝ) : Glue5 (3, 0, t) (2, 1, t)
  | above (s : ℝ) : Glue5 (4, s, 0) (2, s, 1)
  | belowLeft (t : ℝ) : Glue5 (0, 0, t) (1, t, 0)
  | belowRight (t : ℝ) : Glue5 (0, 1, t) (3, 1 - t, 0)
  | aboveLeft (t : ℝ) : Glue5 (4, 0, t) (1, 1 - t, 1)
  | aboveRight (t : ℝ) : Glue5 (4, 1, t) (3, t, 1)

/-- Two places are the same place of the disk. -/
def Same5 (a b : Place) : Prop := a = b ∨ Glue5 a b ∨ Glue5 b a

/-- The outer edges of the five blocks: lower edge of block 0, left edge of block 1, right edge of block 3,
upper edge of block 4. -/
inductive Outer5 : Place → Prop
  | below (s : ℝ) : Outer5 (0, s, 0)
  | left (t : ℝ) : Outer5 (1, 0, t)
  | right (t : ℝ) : Outer5 (3, 1, t)
  | above (s : ℝ) : Outer5 (4, s, 1)

/-- The four edges that two of the blocks of a 2 × 2 arrangement have in common. -/
inductive Glue4 : Place → Place → Prop
  | lower (t : ℝ) : Glue4 (0, 1, t) (1, 0, t)
  | upper (t : ℝ) : Glue4 (2, 1, t) (3, 0, t)
  | left (s : ℝ) : Glue4 (0, s, 1) (2, s, 0)
  | right (s : ℝ) : Glue4 (1, s, 1) (3, s, 0)

/-- The edge of a block. -/
def OnEdge (s t : ℝ) : Prop := s = 0 ∨ s = 1 ∨ t = 0 ∨ t = 1

/-- Inner product, cross product. -/
def dot (p q : P3) : ℝ := p.x * q.x + p.y * q.y + p.z * q.z
def cross (p q : P3) : P3 :=
  ⟨p.y * q.z - p.z * q.y, p.z * q.x - p.x * q.z, p.x * q.y - p.y * q.x⟩

end

end Fclaw.Mapping
