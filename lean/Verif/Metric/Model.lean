/-
Model of the computation of cell areas on mapped grids (2D), src/patches/metric:

* fclaw2d_metric.cpp:270-339, 358-426: areas of a new patch, from scratch or from its four children
* fclaw2d_metric_default.c:110-164: size of the subgrid used in each cell
* fortran_source2d/fclaw2d_metric_default_fort.f90:71-332, 690-755

Simplifications: real numbers are the elements of a field, without rounding. In the general case the map and
the function that approximates the area of a small quadrilateral are arbitrary, so points and areas can be
of any types. Accesses outside of the bounds of an array are `none`.
-/
import Verif.Fort.Basic
import Mathlib.Algebra.Field.Basic
import Mathlib.Data.Int.Cast.Basic
import Mathlib.Data.Real.Sqrt

set_option autoImplicit false
namespace Fclaw.Metric

open Fort

/-- `area(-mbc:mx+mbc+1,-mbc:my+mbc+1)`. -/
abbrev Areas (A : Type) := ℤ × ℤ → A

def inArea (d : Dims) (c : ℤ × ℤ) : Bool :=
  decide (-(d.mbc : ℤ) ≤ c.1) && decide (c.1 ≤ d.mx + d.mbc + 1) &&
  decide (-(d.mbc : ℤ) ≤ c.2) && decide (c.2 ≤ d.my + d.mbc + 1)

def rdA {A : Type} (d : Dims) (a : Areas A) (c : ℤ × ℤ) : Option A := if inArea d c then some (a c) else none

def wrA {A : Type} (d : Dims) (a : Areas A) (c : ℤ × ℤ) (v : A) : Option (Areas A) :=
  if inArea d c then some (fun c' => if c' = c then v else a c') else none

/-- `quadstore(0:quadsize,0:quadsize,3)`: points. -/
abbrev Store (P : Type) := ℤ × ℤ → P

def inStore (r : ℤ) (c : ℤ × ℤ) : Bool := decide (0 ≤ c.1) && decide (c.1 ≤ r) && decide (0 ≤ c.2) && decide (c.2 ≤ r)

def rdS {P : Type} (r : ℤ) (s : Store P) (c : ℤ × ℤ) : Option P := if inStore r c then some (s c) else none

def wrS {P : Type} (r : ℤ) (s : Store P) (c : ℤ × ℤ) (p : P) : Option (Store P) :=
  if inStore r c then some (fun c' => if c' = c then p else s c') else none

/-- The lower left corner and the cell sizes of a patch. -/
structure Geom (K : Type) where
  xlower : K
  ylower : K
  dx : K
  dy : K

/-- What the user provides: `c2m` is the map of the block (`fclaw2d_map_c2m`), defined for all coordinates, and
also outside of the block; `affine` is `isaffine()`. `elem` is `get_area_approx`, a function of the corners
`quad(0,0,:), quad(1,0,:), quad(0,1,:), quad(1,1,:)`. -/
structure Map (K P A : Type) where
  c2m : K → K → P
  affine : Bool
  elem : P → P → P → P → A

/-- `is_area_interior`, lines 259-266. -/
def isAreaInterior (d : Dims) (i j : ℤ) : Bool :=
  decide (0 ≤ i) && decide (i ≤ d.mx + 1) && decide (0 ≤ j) && decide (j ≤ d.my + 1)

section
variable {K P A : Type} [Field K] [AddCommMonoid A]

/-- The corners of the small quadrilaterals in a cell, lines 154-166. -/
def fillStore (M : Map K P A) (r : ℤ) (xe ye dxf dyf : K) (s : Store P) : Option (Store P) :=
  doLoop 0 r (fun ii => doLoop 0 r fun jj s => wrS r s (ii, jj) (M.c2m (xe + ii * dxf) (ye + jj * dyf))) s

/-- The sum of their areas, lines 168-181. -/
def sumArea (M : Map K P A) (r : ℤ) (s : Store P) : Option A :=
  doLoop 0 (r - 1) (fun ii => doLoop 0 (r - 1) fun jj (sum : A) =>
    (rdS r s (ii, jj)).bind fun p00 =>
    (rdS r s (ii + 1, jj)).bind fun p10 =>
    (rdS r s (ii, jj + 1)).bind fun p01 =>
    (rdS r s (ii + 1, jj + 1)).bind fun p11 => some (sum + M.elem p00 p10 p01 p11)) (0 : A)

/-- `fclaw2d_metric_fort_compute_area_general`, lines 112-186. The store is kept from cell to cell. -/
def areaGeneral (d : Dims) (M : Map K P A) (G : Geom K) (r : ℤ) (ghostOnly : Bool) (st : Areas A × Store P) :
    Option (Areas A × Store P) :=
  doLoop (-(d.mbc : ℤ)) (d.my + d.mbc + 1) (fun j => doLoop (-(d.mbc : ℤ)) (d.mx + d.mbc + 1) fun i st =>
    if isAreaInterior d i j && ghostOnly then some st
    else
      let xe := G.xlower + ((i - 1 : ℤ) : K) * G.dx
      let ye := G.ylower + ((j - 1 : ℤ) : K) * G.dy
      (fillStore M r xe ye (G.dx / (r : K)) (G.dy / (r : K)) st.2).bind fun s =>
      (sumArea M r s).bind fun v =>
      (wrA d st.1 (i, j) v).bind fun a => some (a, s)) st

/-- `fclaw2d_metric_fort_compute_area_affine`, lines 206-250. (`quad` is a local array of 2 by 2 points.) -/
def areaAffine (d : Dims) (M : Map K P A) (G : Geom K) (ghostOnly : Bool) (a : Areas A) : Option (Areas A) :=
  doLoop (-(d.mbc : ℤ)) (d.my + d.mbc + 1) (fun j => doLoop (-(d.mbc : ℤ)) (d.mx + d.mbc + 1) fun i a =>
    if isAreaInterior d i j && ghostOnly then some a
    else
      let xe := G.xlower + ((i - 1 : ℤ) : K) * G.dx
      let ye := G.ylower + ((j - 1 : ℤ) : K) * G.dy
      wrA d a (i, j) (M.elem (M.c2m xe ye) (M.c2m (xe + G.dx) ye) (M.c2m xe (ye + G.dy)) (M.c2m (xe + G.dx) (ye + G.dy)))) a

/-- `fclaw2d_metric_fort_compute_area`, lines 71-97, called by `fclaw2d_metric_compute_area_default` (not
`ghostOnly`) and `fclaw2d_metric_compute_area_ghost_default`, with `m = pow_int(refratio,maxlevel-level)`, for
`refratio = 2` and `level <= maxlevel`. `s` is the content of `quadstore` as allocated. -/
def computeArea (d : Dims) (M : Map K P A) (maxlevel level : Nat) (G : Geom K) (ghostOnly : Bool) (s : Store P)
    (a : Areas A) : Option (Areas A) :=
  if M.affine then areaAffine d M G ghostOnly a
  else (areaGeneral d M G (2 ^ (maxlevel - level) : Nat) ghostOnly (a, s)).map fun st => st.1

/-- `fclaw2d_metric_fort_average_area`, lines 690-755. Note `mx` in `jc_add` (line 729). -/
def averageArea (d : Dims) (igrid : ℤ) (fine coarse : Areas A) : Option (Areas A) :=
  let ig := igrid % 2
  let jg := (igrid - ig) / 2
  let ic_add := ig * d.mx / 2
  let jc_add := jg * d.mx / 2
  doLoop 0 ((d.my : ℤ) / 2 + 1) (fun j => doLoop 0 ((d.mx : ℤ) / 2 + 1) fun i a =>
    (doLoop 0 3 (fun m (sum : A) =>
      (rdA d fine ((i - 1) * 2 + (m % 2 + 1), (j - 1) * 2 + (m / 2 + 1))).bind fun kf => some (sum + kf)) (0 : A)).bind
    fun sum => wrA d a (i + ic_add, j + jc_add) sum) coarse

/-- The areas of a patch built from scratch, fclaw2d_metric.cpp:358-389. `a` is the content of the array as
allocated. -/
def build (d : Dims) (M : Map K P A) (maxlevel level : Nat) (G : Geom K) (s : Store P) (a : Areas A) : Option (Areas A) :=
  computeArea d M maxlevel level G false s a

/-- `metric_average_area_from_fine`, fclaw2d_metric.cpp:270-339, called by
`fclaw2d_metric_patch_build_from_fine`: the areas of a patch built from its four children. -/
def buildFromFine (d : Dims) (M : Map K P A) (maxlevel level : Nat) (G : Geom K) (s : Store P) (fine : ℤ → Areas A)
    (a : Areas A) : Option (Areas A) :=
  (doLoop 0 3 (fun igrid a => averageArea d igrid (fine igrid) a) a).bind fun a =>
  computeArea d M maxlevel level G true s a

end

/-! ### The area of a small quadrilateral -/

abbrev Vec := ℝ × ℝ × ℝ

/-- `norm_cross`, lines 321-332. -/
noncomputable def normCross (u v : Vec) : ℝ :=
  let w1 := u.2.1 * v.2.2 - u.2.2 * v.2.1
  let w2 := -u.1 * v.2.2 + u.2.2 * v.1
  let w3 := u.1 * v.2.1 - u.2.1 * v.1
  Real.sqrt (w1 * w1 + w2 * w2 + w3 * w3)

/-- `get_area_approx`, lines 278-313, with `xi = eta = 1/2`. -/
noncomputable def getAreaApprox (q00 q10 q01 q11 : Vec) : ℝ :=
  let txi (f : Vec → ℝ) : ℝ := (f q10 - f q00) + (f q11 - f q10 - f q01 + f q00) * (1 / 2)
  let teta (f : Vec → ℝ) : ℝ := (f q01 - f q00) + (f q11 - f q10 - f q01 + f q00) * (1 / 2)
  normCross (txi (·.1), txi (·.2.1), txi (·.2.2)) (teta (·.1), teta (·.2.1), teta (·.2.2))

/-! ### Extruded meshes -/

/-- `hex_dot_cross`, fortran_source3d/fclaw3d_metric_default_fort.f90:678-687. -/
def dotCross (u v w : ℚ × ℚ × ℚ) : ℚ :=
  u.1 * (v.2.1 * w.2.2 - v.2.2 * w.2.1) - u.2.1 * (v.1 * w.2.2 - v.2.2 * w.1) + u.2.2 * (v.1 * w.2.1 - v.2.1 * w.1)

/-- `hex_compute_volume`, lines 632-676. -/
def hexVolume (hex : ℤ → ℤ → ℤ → ℚ × ℚ × ℚ) : ℚ :=
  let tet (o a b c : ℚ × ℚ × ℚ) : ℚ := |dotCross (a - o) (b - o) (c - o)| / 6
  let v := tet (hex 0 0 0) (hex 0 1 1) (hex 1 0 1) (hex 1 1 0) + tet (hex 1 1 1) (hex 0 0 1) (hex 0 1 0) (hex 1 0 0)
  let v := ((range 0 1).flatMap fun i => (range 0 1).flatMap fun j => (range 0 1).map fun k =>
    tet (hex i j k) (hex ((i + 1) % 2) j k) (hex i ((j + 1) % 2) k) (hex i j ((k + 1) % 2))).foldl (· + ·) v
  v / 2

/-- The volume of a cell with lower corner `(xe, ye, ze)` in
`fclaw3d_metric_fort_compute_volume_general`, lines 177-244, with `rfactor = hexsize` subcells in all three
directions. (The stored corners `hexfine` are left out.) -/
def cellVolume (c2m : ℚ → ℚ → ℚ → ℚ × ℚ × ℚ) (r : ℤ) (xe ye ze dx dy dz : ℚ) : ℚ :=
  ((range 0 (r - 1)).flatMap fun ii => (range 0 (r - 1)).flatMap fun jj => (range 0 (r - 1)).map fun kk =>
    hexVolume fun a b c => c2m (xe + ((ii + a : ℤ) : ℚ) * (dx / r)) (ye + ((jj + b : ℤ) : ℚ) * (dy / r))
      (ze + ((kk + c : ℤ) : ℚ) * (dz / r))).foldl (· + ·) 0

/-- `fclaw3dx_metric_fort_average_volume`, lines 842-854: the volume of a cell of an extruded mesh from those of
the four cells of half the size in x and y, each of them computed with `r` subcells. -/
def averagedVolume (c2m : ℚ → ℚ → ℚ → ℚ × ℚ × ℚ) (r : ℤ) (xe ye ze dx dy dz : ℚ) : ℚ :=
  ((range 0 3).map fun m =>
    cellVolume c2m r (xe + ((m % 2 : ℤ) : ℚ) * (dx / 2)) (ye + ((m / 2 : ℤ) : ℚ) * (dy / 2)) ze (dx / 2) (dy / 2) dz).foldl
    (· + ·) 0

end Fclaw.Metric
