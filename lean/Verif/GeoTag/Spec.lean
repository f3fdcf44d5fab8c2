import Verif.GeoTag.Model
/-
When GeoClaw should refine and coarsen.
-/
set_option autoImplicit false
namespace Fclaw.GeoTag

/-- The rectangle of a patch. -/
structure Box where
  x0 : ℝ
  y0 : ℝ
  x1 : ℝ
  y1 : ℝ

/-- The rectangle that a patch covers. -/
noncomputable def Patch.box (p : Patch) : Box := ⟨p.xlower, p.ylower, p.xlower + p.mx * p.dx, p.ylower + p.my * p.dy⟩

/-- A point of the box is in the region at the time `t`. -/
def Region.Touches (r : Region) (t : ℝ) (B : Box) : Prop :=
  r.tLow ≤ t ∧ t ≤ r.tHi ∧ ∃ x y : ℝ, (B.x0 ≤ x ∧ x ≤ B.x1 ∧ B.y0 ≤ y ∧ y ≤ B.y1) ∧
    (r.xLow ≤ x ∧ x ≤ r.xHi ∧ r.yLow ≤ y ∧ y ≤ r.yHi)

/-- Regions and boxes are not empty, and levels are numbers from 0 to 100. -/
structure Region.Proper (r : Region) : Prop where
  x : r.xLow ≤ r.xHi
  y : r.yLow ≤ r.yHi
  low : 0 ≤ r.minLevel
  order : r.minLevel ≤ r.maxLevel
  high : r.maxLevel ≤ 100
structure Box.Proper (B : Box) : Prop where
  x : B.x0 ≤ B.x1
  y : B.y0 ≤ B.y1

/-- There is a wave in the cell, for a patch of the given level: it has water, and its surface is away from the sea level by more
than the tolerance, or its speed is above a tolerance that belongs to this or a finer level. -/
def Wave (P : Params) (factor : ℝ) (level : ℤ) (c : Cell) : Prop :=
  P.dryTolerance < c.h ∧
  (factor * P.waveTolerance < |c.h + c.b - P.seaLevel| ∨
   ∃ m : ℕ, 1 ≤ m ∧ m ≤ P.numSpeeds ∧ (m : ℤ) ≤ P.maxlevel ∧ level ≤ m ∧
     factor * P.speedTolerance m < Real.sqrt (c.hu ^ 2 + c.hv ^ 2) / c.h)

/-- There is a wave in a cell of the patch where flagging is allowed. -/
def WaveIn (P : Params) (factor : ℝ) (t : ℝ) (level : ℤ) (p : Patch) : Prop :=
  ∃ i j : ℕ, 1 ≤ i ∧ i ≤ p.mx ∧ 1 ≤ j ∧ j ≤ p.my ∧
    P.allowflag (p.xlower + (i - 1 / 2) * p.dx) (p.ylower + (j - 1 / 2) * p.dy) t level = true ∧
    Wave P factor level (p.cell i j)

/-- Four siblings: of the same size, in the order of the corners. -/
structure Family (p : Fin 4 → Patch) : Prop where
  mx : ∀ k, (p k).mx = (p 0).mx
  my : ∀ k, (p k).my = (p 0).my
  dx : ∀ k, (p k).dx = (p 0).dx
  dy : ∀ k, (p k).dy = (p 0).dy
  x1 : (p 1).xlower = (p 0).xlower + (p 0).mx * (p 0).dx
  x2 : (p 2).xlower = (p 0).xlower
  x3 : (p 3).xlower = (p 0).xlower + (p 0).mx * (p 0).dx
  y1 : (p 1).ylower = (p 0).ylower
  y2 : (p 2).ylower = (p 0).ylower + (p 0).my * (p 0).dy
  y3 : (p 3).ylower = (p 0).ylower + (p 0).my * (p 0).dy
  posx : 0 ≤ (p 0).dx
  posy : 0 ≤ (p 0).dy

/-- The rectangle of the parent of four siblings. -/
noncomputable def parentBox (p : Fin 4 → Patch) : Box :=
  ⟨(p 0).xlower, (p 0).ylower, (p 0).xlower + 2 * ((p 0).mx * (p 0).dx), (p 0).ylower + 2 * ((p 0).my * (p 0).dy)⟩

end Fclaw.GeoTag
