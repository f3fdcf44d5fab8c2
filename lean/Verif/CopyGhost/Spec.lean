import Verif.CopyGhost.Model
import Verif.Transform.Spec
/-
When a patch is the neighbour of another one, and which of its cells lies where a ghost cell of the
other one is (C34). Positions are in the reference squares of the blocks; see Verif/Transform/Spec.lean
for `location`, `SamePoint` and `CornerSamePoint`.
-/
set_option autoImplicit false
namespace Fclaw.CopyGhost

open Fort Transform

/-- One patch width out of the patch across face `f`. -/
def faceStep (f a : Nat) : ℤ := if a = f / 2 then (if f % 2 = 1 then 1 else -1) else 0

/-- … across corner `k`. -/
def cornerStep (k a : Nat) : ℤ := if k / 2 ^ a % 2 = 1 then 1 else -1

/-- Next to `ip`, displaced by `s` patch widths, in the same block. -/
def InBlock (s : Nat → ℤ) (ip op : Patch) : Prop :=
  ∀ a ∈ axes false, op.lower a = ip.lower a + s a / 2 ^ ip.level

/-- … in a block glued to this one as described by `ft`. -/
def AcrossFace (d : Dims) (ft : Nat → Nat) (s : Nat → ℤ) (ip op : Patch) : Prop :=
  Gluing false ft ∧ SizesMatch false ft (sizes d) ∧
  SamePoint false ft (patchCentre ip s) (patchCentre op fun _ => 0)

/-- … in a block that meets this one in its corner `k`. -/
def AcrossCorner (k : Nat) (s : Nat → ℤ) (ip op : Patch) : Prop :=
  InOppositeCorner false k op ∧
  CornerSamePoint false k true (patchCentre ip s) (patchCentre op fun _ => 0)

structure SameLevel (ip op : Patch) : Prop where
  level : ip.level = op.level
  latticeI : OnLattice ip
  latticeO : OnLattice op

/-- The neighbour across face `f`; `ft` is the transformation that the code has for it. -/
def FaceLink (d : Dims) (ft : Nat → Nat) (f : Nat) (ip op : Patch) : Prop :=
  SameLevel ip op ∧
  if ft 8 / 4 % 2 = 1 then valid false ft = true ∧ InBlock (faceStep f) ip op
  else AcrossFace d ft (faceStep f) ip op

/-- The neighbour across corner `k`. -/
def CornerLink (d : Dims) (td : TData) (k : Nat) : Prop :=
  SameLevel td.this td.neighbor ∧ td.icorner = k ∧ -1 ≤ td.blockIface ∧
  if 0 ≤ td.blockIface then td.transform 8 / 4 % 2 ≠ 1 ∧
    AcrossFace d td.transform (cornerStep k) td.this td.neighbor
  else if td.isBlockCorner then AcrossCorner k (cornerStep k) td.this td.neighbor
  else InBlock (cornerStep k) td.this td.neighbor

/-- Cell `(i, j)` of `ip` and cell `(i', j')` of `op` lie in the same place. -/
def FaceSame (d : Dims) (ft : Nat → Nat) (ip op : Patch) (i j i' j' : ℤ) : Prop :=
  let p := location ip (sizes d) 1 (index i j)
  let p' := location op (sizes d) 1 (index i' j')
  if ft 8 / 4 % 2 = 1 then ∀ a ∈ axes false, p' a = p a else SamePoint false ft p p'

def CornerSame (d : Dims) (td : TData) (i j i' j' : ℤ) : Prop :=
  let p := location td.this (sizes d) 1 (index i j)
  let p' := location td.neighbor (sizes d) 1 (index i' j')
  if 0 ≤ td.blockIface then SamePoint false td.transform p p'
  else CornerSamePoint false td.icorner td.isBlockCorner p p'

/-- Ghost cells at face `f`. -/
def inStrip (d : Dims) (f : Nat) (i j : ℤ) : Prop :=
  match f with
  | 0 => 1 - (d.mbc : ℤ) ≤ i ∧ i ≤ 0 ∧ 1 ≤ j ∧ j ≤ d.my
  | 1 => (d.mx : ℤ) + 1 ≤ i ∧ i ≤ d.mx + d.mbc ∧ 1 ≤ j ∧ j ≤ d.my
  | 2 => 1 ≤ i ∧ i ≤ d.mx ∧ 1 - (d.mbc : ℤ) ≤ j ∧ j ≤ 0
  | 3 => 1 ≤ i ∧ i ≤ d.mx ∧ (d.my : ℤ) + 1 ≤ j ∧ j ≤ d.my + d.mbc
  | _ => False

/-- Ghost cells at corner `k`. -/
def inCorner (d : Dims) (k : Nat) (i j : ℤ) : Prop :=
  (if k % 2 = 0 then 1 - (d.mbc : ℤ) ≤ i ∧ i ≤ 0 else (d.mx : ℤ) + 1 ≤ i ∧ i ≤ d.mx + d.mbc) ∧
  (if k / 2 = 0 then 1 - (d.mbc : ℤ) ≤ j ∧ j ≤ 0 else (d.my : ℤ) + 1 ≤ j ∧ j ≤ d.my + d.mbc)

/-- Interior cells. -/
def interior (d : Dims) (i j : ℤ) : Prop := 1 ≤ i ∧ i ≤ d.mx ∧ 1 ≤ j ∧ j ≤ d.my

/-- Among the outermost `mbc` layers of interior cells. -/
def near (d : Dims) (i j : ℤ) : Prop :=
  interior d i j ∧ (i ≤ d.mbc ∨ (d.mx : ℤ) - d.mbc < i ∨ j ≤ d.mbc ∨ (d.my : ℤ) - d.mbc < j)

/-- Components. -/
def comp (d : Dims) (mq : ℤ) : Prop := 1 ≤ mq ∧ mq ≤ d.meqn

/-- Proper sizes: no more ghost cells than there are cells. -/
def Proper (d : Dims) : Prop := 1 ≤ d.mx ∧ 1 ≤ d.my ∧ d.mbc ≤ d.mx ∧ d.mbc ≤ d.my

end Fclaw.CopyGhost
