import Verif.GhostAll.Model
import Verif.CoarseFine.Spec
import Verif.CoarseFine.Ops
import Verif.Bc.Spec
/-
The value that a cell should have after a ghost update, from the values in the interiors (C69).
-/
set_option autoImplicit false
namespace Fclaw.GhostAll

open Fort Transform GhostFill CopyGhost CoarseFine

variable (d : Dims) (M : Mesh) (S : Setup)

/-- Ghost cell `(i, j)` of `x` lies where cell `(i', j')` of `y` is, which has the same size. -/
def SameSource (x : Nat) (i j : ℤ) (y : Nat) (i' j' : ℤ) : Prop :=
  interior d i' j' ∧
  ((∃ f rf, f < 4 ∧ M.face x f = .same y rf ∧ inStrip d f i j ∧
      FaceSame d (S.geo.faceT x f) (S.geo.patch x) (S.geo.patch y) i j i' j') ∨
   (∃ k rk, k < 4 ∧ cornerNbr M x k = .same y rk ∧ inCorner d k i j ∧
      CornerSame d (cornerData S.geo x k y) i j i' j'))

/-- The quarters of ghost cell `(i, j)` of `x` lie where the cells `c` of `y` are, which has half the size. -/
def HalfSource (x : Nat) (i j : ℤ) (y : Nat) (c : Nat → Nat → ℤ × ℤ) : Prop :=
  (∀ a b, a < 2 → b < 2 → interior d (c a b).1 (c a b).2) ∧
  ((∃ f g y0 y1 rf, f < 4 ∧ g < 2 ∧ M.face x f = .half y0 y1 rf ∧ pick y0 y1 g = y ∧ inHalfStrip d f g i j ∧
      ∀ a b, a < 2 → b < 2 →
        HalfFaceSame d (S.geo.faceT x f) (S.geo.patch x) (S.geo.patch y) i j a b (c a b).1 (c a b).2) ∨
   (∃ k rk, k < 4 ∧ cornerNbr M x k = .half y rk ∧ inCorner d k i j ∧
      ∀ a b, a < 2 → b < 2 → HalfCornerSame d (cornerData S.geo x k y) i j a b (c a b).1 (c a b).2))

/-- Ghost cell `(i, j)` of `x` lies where quarter `(a, b)` of cell `(ic, jc)` of `c` is, which has twice the
size. This includes the ghost cells at the corner of `x` in the middle of a face of `c`. -/
def DoubleSource (x : Nat) (i j : ℤ) (c : Nat) (ic jc : ℤ) (a b : Nat) : Prop :=
  interior d ic jc ∧ a < 2 ∧ b < 2 ∧
  ((∃ f fc g hk, f < 4 ∧ M.face x f = .double c fc g hk ∧ (inStrip d f i j ∨ inCorner d hk i j) ∧
      HalfFaceSame d (S.geo.faceT c fc) (S.geo.patch c) (S.geo.patch x) ic jc a b i j) ∨
   (∃ k kc, k < 4 ∧ cornerNbr M x k = .double c kc ∧ inCorner d k i j ∧
      HalfCornerSame d (cornerData S.geo c kc x) ic jc a b i j))

/-- A cell and its four neighbours. -/
def cross : List (ℤ × ℤ) := [(0, 0), (-1, 0), (1, 0), (0, -1), (0, 1)]

/-- The boundary conditions of a patch. -/
def kinds (x : Nat) : Nat → Bc.Kind := Bc.kind S.mthbc (sides M x)

/-- The cell from which cell `(i, j)` takes its value by the boundary conditions; the cell itself if it is
not beyond the boundary. -/
def mirror (x : Nat) (i j : ℤ) : ℤ × ℤ :=
  (Bc.image d.mx (kinds M S x 0) (kinds M S x 1) i, Bc.image d.my (kinds M S x 2) (kinds M S x 3) j)

/-- The sign that goes with it. -/
def mirrorSign (x : Nat) (i j mq : ℤ) : ℚ :=
  Bc.sign d.mx (kinds M S x 0) (kinds M S x 1) i mq 2 * Bc.sign d.my (kinds M S x 2) (kinds M S x 3) j mq 3

/-- `v` is the value that component `mq` of cell `(i, j)` of patch `x` should have, in the solution (`t` is
`false`) or the solution interpolated in time, if `I` has the values in the interiors. -/
inductive Expected (minl : Int) (ti : Bool) (I : State ℚ) : Nat → Bool → ℤ → ℤ → ℤ → ℚ → Prop
  /-- interior cells do not change -/
  | interior (x : Nat) (t : Bool) (i j mq : ℤ) : interior d i j → Expected minl ti I x t i j mq (I x t (i, j, mq))
  /-- at a patch of the same size: the value there -/
  | same (x : Nat) (t : Bool) (i j mq : ℤ) (y : Nat) (i' j' : ℤ) : SameSource d M S x i j y i' j' →
      Expected minl ti I x t i j mq (I y t (i', j', mq))
  /-- at a patch of half the size: the mean -/
  | half (x : Nat) (t : Bool) (i j mq : ℤ) (y : Nat) (c : Nat → Nat → ℤ × ℤ) : HalfSource d M S x i j y c →
      Expected minl ti I x t i j mq (mean (S.area y) S.manifold (I y false) c mq)
  /-- at a patch of twice the size: linear reconstruction from the values that it should have -/
  | double (x : Nat) (i j mq : ℤ) (c : Nat) (t : Bool) (ic jc : ℤ) (a b : Nat) (Q : Grid ℚ) :
      DoubleSource d M S x i j c ic jc a b → current M minl ti c t = true →
      (∀ δ ∈ cross, Expected minl ti I c t (ic + δ.1) (jc + δ.2) mq (Q (ic + δ.1, jc + δ.2, mq))) →
      Expected minl ti I x false i j mq (reconstruct Q ic jc mq a b)
  /-- beyond the physical boundary: by the boundary conditions -/
  | boundary (x : Nat) (t : Bool) (i j mq : ℤ) (v : ℚ) : mirror d M S x i j ≠ (i, j) →
      Expected minl ti I x t (mirror d M S x i j).1 (mirror d M S x i j).2 mq v →
      Expected minl ti I x t i j mq (mirrorSign d M S x i j mq * v)

/-! ### Hypotheses -/

/-- Sizes for which all operations work: see C37, C66 and C68 for what happens otherwise. -/
structure Sizes : Prop where
  even : EvenDims d
  square : d.mx = d.my
  layers : d.mbc % 2 = 0

/-- The geometry fits the mesh. -/
structure Fits : Prop where
  face : ∀ x f y rf, f < 4 → M.face x f = .same y rf →
    FaceLink d (S.geo.faceT x f) f (S.geo.patch x) (S.geo.patch y)
  corner : ∀ x k y rk, k < 4 → cornerNbr M x k = .same y rk → CornerLink d (cornerData S.geo x k y) k
  half : ∀ x f y0 y1 rf g, f < 4 → g < 2 → M.face x f = .half y0 y1 rf →
    HalfFaceLink d (S.geo.faceT x f) f g (S.geo.patch x) (S.geo.patch (pick y0 y1 g)) ∧
    touching (S.geo.faceT x f) f = rf ∧
    ∀ hk, M.face (pick y0 y1 g) rf = .double x f g hk → CoarseFine.hanging (S.geo.faceT x f) f g = hk
  halfCorner : ∀ x k y rk, k < 4 → cornerNbr M x k = .half y rk →
    HalfCornerLink d (cornerData S.geo x k y) k ∧ touchingCorner (cornerData S.geo x k y) k = rk
  /-- a corner lies in the middle of one larger patch's face at most -/
  oneFace : ∀ x f y rf g f' y' rf' g' hk, f < 4 → f' < 4 → M.face x f = .double y rf g hk →
    M.face x f' = .double y' rf' g' hk → f = f'
  /-- areas -/
  area : S.manifold = true → ∀ x, Positive d (S.area x)
  /-- options for the boundary conditions -/
  bc : ∀ x, Bc.Usable d S.mthbc (sides M x)

/-- Among the outermost `2 mbc` layers of interior cells. -/
def near2 (i j : ℤ) : Prop :=
  interior d i j ∧ (i ≤ 2 * d.mbc ∨ (d.mx : ℤ) - 2 * d.mbc < i ∨ j ≤ 2 * d.mbc ∨ (d.my : ℤ) - 2 * d.mbc < j)

/-- Ghost cells. -/
def isGhostCell (i j : ℤ) : Prop := (∃ f, f < 4 ∧ inStrip d f i j) ∨ ∃ k, k < 4 ∧ inCorner d k i j

/-- What is received is what was sent, in ghost cells and the outermost `2 mbc` layers of interior cells. -/
def Received (recv : Grid ℚ → Grid ℚ) : Prop :=
  ∀ q i j mq, near2 d i j ∨ isGhostCell d i j → comp d mq → recv q (i, j, mq) = q (i, j, mq)

/-- The ghost cells of a patch that an update has to fill: see `DueStrip` and `DueCorner`, C32. -/
def Due (minl : Int) (ti : Bool) (x : Nat) (i j : ℤ) : Prop :=
  (∃ f, f < 4 ∧ inStrip d f i j ∧ DueStrip M minl ti x f) ∨
  ∃ k, k < 4 ∧ inCorner d k i j ∧ DueCorner M minl ti x k

end Fclaw.GhostAll
