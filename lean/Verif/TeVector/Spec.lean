import Verif.TeVector.Model
/-
Where the elements of an array are in memory.
-/
set_option autoImplicit false
namespace Fclaw.TeVector

/-- The position of `q(i,j,m)` in memory, for a Fortran array `q(1-mbc:mx+mbc, 1-mbc:my+mbc, *)`: the first index runs fastest. -/
def element (C : Config) (i j m : ℤ) : ℤ :=
  (i - (1 - C.mbc)) + (C.mx + 2 * C.mbc) * ((j - (1 - C.mbc)) + (C.my + 2 * C.mbc) * (m - 1))

/-- Cell `(i,j)` of a patch or one of its ghost cells, counted from 0, and component `e`. -/
def IsCell (C : Config) (n : ℕ) (i j e : ℤ) : Prop :=
  (-(C.mbc : ℤ) ≤ i ∧ i < C.mx + C.mbc) ∧ (-(C.mbc : ℤ) ≤ j ∧ j < C.my + C.mbc) ∧ 0 ≤ e ∧ e < n

/-- The patches of this process. -/
def IsPatch (C : Config) (b p : ℕ) : Prop := b < C.numBlocks ∧ p < C.numPatches b

/-- Right-hand side or solution. -/
def fieldOf : Choice → Field
  | .rhs => .rhs
  | _ => .soln

end Fclaw.TeVector
