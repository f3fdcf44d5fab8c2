/-
What C73 claims: cell areas add up, and do not depend on how a patch came into being.
-/
import Verif.Metric.Model
import Verif.Transfer.Spec
import Verif.Adapt.Spec

set_option autoImplicit false
namespace Fclaw.Metric

open Fort Transfer

/-- A square of the refinement tree of a block: level, and position in units of squares of this level. -/
structure Quad where
  level : Nat
  x : ℤ
  y : ℤ
  deriving DecidableEq

/-- Child number `g`, in Morton order. -/
def Quad.child (Q : Quad) (g : ℤ) : Quad := ⟨Q.level + 1, 2 * Q.x + g % 2, 2 * Q.y + g / 2⟩

/-- Where the patch lies in the unit square (src/fclaw2d_convenience.c, see Verif/Domain), and its cell sizes
(src/patches/clawpatch/fclaw2d_clawpatch.cpp:223-291 for a mapped grid). -/
def Quad.geom {K : Type} [Field K] (d : Dims) (Q : Quad) : Geom K :=
  let h : K := 1 / 2 ^ Q.level
  ⟨Q.x * h, Q.y * h, h / (d.mx : K), h / (d.my : K)⟩

/-- The areas of a patch, after any history: built from scratch, or from the areas of its children when these
were merged. Memory is not initialised when allocated. -/
inductive Built {K P A : Type} [Field K] [AddCommMonoid A] (d : Dims) (M : Map K P A) (maxlevel : Nat) :
    Quad → Areas A → Prop
  | scratch (Q : Quad) (s : Store P) (a a' : Areas A) : Q.level ≤ maxlevel →
      build d M maxlevel Q.level (Q.geom d) s a = some a' → Built d M maxlevel Q a'
  | merged (Q : Quad) (s : Store P) (fine : ℤ → Areas A) (a a' : Areas A) : Q.level < maxlevel →
      (∀ g, 0 ≤ g → g ≤ 3 → Built d M maxlevel (Q.child g) (fine g)) →
      buildFromFine d M maxlevel Q.level (Q.geom d) s fine a = some a' → Built d M maxlevel Q a'

/-- The cells that areas are stored for. -/
def Stored (d : Dims) (c : ℤ × ℤ) : Prop :=
  -(d.mbc : ℤ) ≤ c.1 ∧ c.1 ≤ d.mx + d.mbc + 1 ∧ -(d.mbc : ℤ) ≤ c.2 ∧ c.2 ≤ d.my + d.mbc + 1

/-- Is the map affine, if it says so? Then areas are those of parallelograms. -/
def Proper (M : Map ℝ Vec ℝ) : Prop :=
  M.elem = getAreaApprox ∧
  (M.affine = true → ∃ p u v : Vec, ∀ x y : ℝ,
    M.c2m x y = (p.1 + x * u.1 + y * v.1, p.2.1 + x * u.2.1 + y * v.2.1, p.2.2 + x * u.2.2 + y * v.2.2))

section
variable {K P A : Type} [Field K] [AddCommMonoid A]

/-- The area of the quadrilateral number `(X, Y)` of a grid with spacings `h` and `k`. -/
def small (M : Map K P A) (h k : K) (X Y : ℤ) : A :=
  M.elem (M.c2m (X * h) (Y * k)) (M.c2m ((X + 1 : ℤ) * h) (Y * k)) (M.c2m (X * h) ((Y + 1 : ℤ) * k))
    (M.c2m ((X + 1 : ℤ) * h) ((Y + 1 : ℤ) * k))

/-- If the map says that it is affine, areas of quarters add up. (All `Proper` maps do this.) -/
def Splits (M : Map K P A) : Prop := M.affine = true → ∀ h k : K, ∀ X Y : ℤ,
  small M (2 * h) (2 * k) X Y =
    small M h k (2 * X) (2 * Y) + small M h k (2 * X + 1) (2 * Y) +
    (small M h k (2 * X) (2 * Y + 1) + small M h k (2 * X + 1) (2 * Y + 1))

end

/-- The square at the end of a path in the refinement tree. -/
def quadAt (q : Domain.Path 4) : Quad := q.foldl (fun Q k => Q.child (k.val : ℤ)) ⟨0, 0, 0⟩

end Fclaw.Metric
