/-
Where patches are in their block, and what C55 claims.  Independent of the model's flags.
-/
import Verif.BlockFace.Model
import Verif.FaceNbr.Spec

set_option autoImplicit false

namespace Fclaw.BlockFace

/-- A patch is given by the child numbers on the way from the block to it.  The bit `a` of a child
number tells on which side of axis `a` the child is. -/
def side (a c : Nat) : Nat := c / 2 ^ a % 2

/-- The lower end of a patch along axis `a`, in the block `[0,1]`. -/
def lowerEnd (a : Nat) : List Nat → ℚ
  | [] => 0
  | c :: cs => (side a c + lowerEnd a cs) / 2

/-- The length of a side of a patch. -/
def width (path : List Nat) : ℚ := 1 / 2 ^ path.length

def upperEnd (a : Nat) (path : List Nat) : ℚ := lowerEnd a path + width path

/-- Side `f` of the patch (axis `f / 2`, lower or upper) lies on the boundary of the block. -/
def OnBlockFace (path : List Nat) (f : Nat) : Prop :=
  if f % 2 = 0 then lowerEnd (f / 2) path = 0 else upperEnd (f / 2) path = 1

/-- `q` is the quadrant of a forest at this place: coordinates are multiples of the smallest
length, `1 / 2 ^ L` of the block. -/
def At (L : Nat) (path : List Nat) (q : Quad) : Prop :=
  q.level = path.length ∧ ∀ a, (q.x a : ℚ) / 2 ^ L = lowerEnd a path

/-- Number of children. -/
def children (dim3 : Bool) : Nat := if dim3 then 8 else 4
def faces (dim3 : Bool) : Nat := if dim3 then 6 else 4
def dimOf (dim3 : Bool) : FaceNbr.Dim := if dim3 then FaceNbr.dim3 else FaceNbr.dim2

/-- The mesh agrees with positions and connectivity: there is no neighbour behind a side exactly if the
side is on the boundary of its block and the block is not connected to anything there. -/
def Agrees (c : Conn) (b : Nat) (path : List Nat) (nbr : Nat → FaceNbr.Neighbor) (f : Nat) : Prop :=
  nbr f = .boundary ↔ OnBlockFace path f ∧ c.treeToTree b f = b ∧ c.treeToFace b f = f

end Fclaw.BlockFace
