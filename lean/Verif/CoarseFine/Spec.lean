import Verif.CopyGhost.Spec
import Mathlib.Data.Rat.Defs
import Mathlib.Algebra.Order.Ring.Rat
/-
When a patch of half the size is the neighbour of another one, which of its cells lie where a cell of
the other one is, and the values that are expected in ghost cells where patches of different size meet
(C67, C68). Positions are in the reference squares of the blocks; see Verif/Transform/Spec.lean.
-/
set_option autoImplicit false
namespace Fclaw.CoarseFine

open Fort Transform CopyGhost

/-! ### Neighbours of half the size -/

/-- Where the neighbour of half the size lies: the number of its own widths between its lower corner and
the lower corner of the large patch (whose width is two). Across face `f`, in the lower (`g = 0`) or the
upper (`g = 1`) half of it; -/
def faceHalfStep (f g a : Nat) : ℤ := if a = f / 2 then (if f % 2 = 1 then 2 else -1) else g

/-- across corner `k`. -/
def cornerHalfStep (k a : Nat) : ℤ := if k / 2 ^ a % 2 = 1 then 2 else -1

/-- The centre of such a neighbour of `ip`. -/
def halfCentre (ip : Patch) (s : Nat → ℤ) (a : Nat) : ℚ := ip.lower a + (1 / 4 + s a / 2) / 2 ^ ip.level

structure FinerLevel (ip op : Patch) : Prop where
  level : ip.level + 1 = op.level
  latticeI : OnLattice ip
  latticeO : OnLattice op

def HalfInBlock (s : Nat → ℤ) (ip op : Patch) : Prop :=
  ∀ a ∈ axes false, patchCentre op (fun _ => 0) a = halfCentre ip s a

def HalfAcrossFace (d : Dims) (ft : Nat → Nat) (s : Nat → ℤ) (ip op : Patch) : Prop :=
  Gluing false ft ∧ SizesMatch false ft (sizes d) ∧
  SamePoint false ft (halfCentre ip s) (patchCentre op fun _ => 0)

/-- The transformation within a block. -/
def Intra (ft : Nat → Nat) : Prop := ft 8 / 4 % 2 = 1

/-- Neighbour number `g` across face `f`; `ft` is the transformation that the code has for it. -/
def HalfFaceLink (d : Dims) (ft : Nat → Nat) (f g : Nat) (ip op : Patch) : Prop :=
  FinerLevel ip op ∧
  if ft 8 / 4 % 2 = 1 then valid false ft = true ∧ HalfInBlock (faceHalfStep f g) ip op
  else HalfAcrossFace d ft (faceHalfStep f g) ip op ∧ ft 2 = f / 2 ∧ ft 8 / 2 = f % 2

/-- The neighbour across corner `k`. -/
def HalfCornerLink (d : Dims) (td : TData) (k : Nat) : Prop :=
  FinerLevel td.this td.neighbor ∧ td.icorner = k ∧ -1 ≤ td.blockIface ∧
  if 0 ≤ td.blockIface then td.transform 8 / 4 % 2 ≠ 1 ∧
    HalfAcrossFace d td.transform (cornerHalfStep k) td.this td.neighbor ∧
    td.transform 8 / 2 = k / 2 ^ td.transform 2 % 2
  else valid false td.transform = true ∧ td.transform 8 / 4 % 2 = 1 ∧
    if td.isBlockCorner then InOppositeCorner false k td.neighbor ∧
      CornerSamePoint false k true (halfCentre td.this (cornerHalfStep k)) (patchCentre td.neighbor fun _ => 0)
    else HalfInBlock (cornerHalfStep k) td.this td.neighbor

/-- Quarter `(x, y)` of cell `(i, j)` of `ip` is where cell `(i', j')` of `op` is. -/
def HalfFaceSame (d : Dims) (ft : Nat → Nat) (ip op : Patch) (i j : ℤ) (x y : Nat) (i' j' : ℤ) : Prop :=
  let p := childCentre ip (sizes d) 1 (index i j) (bits x y 0)
  let p' := cellCentre op (sizes d) 1 (index i' j')
  if ft 8 / 4 % 2 = 1 then ∀ a ∈ axes false, p' a = p a else SamePoint false ft p p'

def HalfCornerSame (d : Dims) (td : TData) (i j : ℤ) (x y : Nat) (i' j' : ℤ) : Prop :=
  let p := childCentre td.this (sizes d) 1 (index i j) (bits x y 0)
  let p' := cellCentre td.neighbor (sizes d) 1 (index i' j')
  if 0 ≤ td.blockIface then SamePoint false td.transform p p'
  else CornerSamePoint false td.icorner td.isBlockCorner p p'

/-- The face of the small patch that touches face `f` of the large one. -/
def touching (ft : Nat → Nat) (f : Nat) : Nat :=
  if ft 8 / 4 % 2 = 1 then (if f % 2 = 0 then f + 1 else f - 1) else 2 * ft 5 + ft 8 % 2

/-- The corner of small patch `g` in the middle of face `f` of the large one. -/
def hanging (ft : Nat → Nat) (f g : Nat) : Nat :=
  let r := touching ft f
  let t := if ft 8 / 4 % 2 = 1 ∨ ft 6 = 0 then 1 - g else g
  if r / 2 = 0 then r % 2 + 2 * t else t + 2 * (r % 2)

/-- The corner of the small patch that touches corner `k` of the large one. -/
def touchingCorner (td : TData) (k : Nat) : Nat :=
  if 0 ≤ td.blockIface then
    let n := td.transform 8 % 2
    let kt := k / 2 ^ td.transform 0 % 2
    let t := if td.transform 6 = 0 then 1 - kt else kt
    if td.transform 5 = 0 then n + 2 * t else t + 2 * n
  else 3 - k

/-! ### Values -/

/-- The mean of the values in four cells, by area if `manifold`. -/
def mean (area : ℤ × ℤ → ℚ) (manifold : Bool) (q : Grid ℚ) (c : Nat → Nat → ℤ × ℤ) (mq : ℤ) : ℚ :=
  let a := fun x y => if manifold then area (c x y) else 1
  let v := fun x y => q ((c x y).1, (c x y).2, mq)
  (a 0 0 * v 0 0 + a 1 0 * v 1 0 + a 0 1 * v 0 1 + a 1 1 * v 1 1) / (a 0 0 + a 1 0 + a 0 1 + a 1 1)

/-- Limited difference: of the two one-sided differences `l` and `r` (twice each) and their mean, the one
of least size; zero if they have different signs. -/
def limited (l r : ℚ) : ℚ :=
  if 0 < l ∧ 0 < r then min (min (2 * l) (2 * r)) ((l + r) / 2)
  else if l < 0 ∧ r < 0 then max (max (2 * l) (2 * r)) ((l + r) / 2)
  else 0

/-- Linear reconstruction in cell `(i, j)` at the centre of its quarter `(x, y)`. -/
def reconstruct (q : Grid ℚ) (i j mq : ℤ) (x y : Nat) : ℚ :=
  let qc := q (i, j, mq)
  qc + ((x : ℚ) / 2 - 1 / 4) * limited (qc - q (i - 1, j, mq)) (q (i + 1, j, mq) - qc)
     + ((y : ℚ) / 2 - 1 / 4) * limited (qc - q (i, j - 1, mq)) (q (i, j + 1, mq) - qc)

/-- Half `g` of the ghost cells at face `f`. -/
def inHalfStrip (d : Dims) (f g : Nat) (i j : ℤ) : Prop :=
  inStrip d f i j ∧
  if f / 2 = 0 then (if g = 0 then 2 * j ≤ d.my else (d.my : ℤ) < 2 * j)
  else (if g = 0 then 2 * i ≤ d.mx else (d.mx : ℤ) < 2 * i)

/-- Sizes: even, and at least twice as many cells as layers of ghost cells. -/
structure EvenDims (d : Dims) : Prop where
  mx : d.mx % 2 = 0
  my : d.my % 2 = 0
  mx1 : 1 ≤ d.mx
  my1 : 1 ≤ d.my
  bx : 2 * d.mbc ≤ d.mx
  by' : 2 * d.mbc ≤ d.my

end Fclaw.CoarseFine
