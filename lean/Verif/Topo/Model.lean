import Verif.Fort.Basic
import Mathlib.Data.Real.Archimedean
import Mathlib.Algebra.Order.Floor.Ring
import Mathlib.Analysis.SpecialFunctions.Trigonometric.Basic
/-
Model of how GeoClaw finds the height of the ground in each cell from files with topographic data:

* src/solvers/fc2d_geoclaw/geolib_source/topo_module.f90:218-241 (order of the files), 281-297 (do the
  files cover the domain?), `topoarea` (1306-1378), `rectintegral` (1382-1470), `intersection` (1474-1502)
* src/solvers/fc2d_geoclaw/geolib_source/cellgridintegrate2.f (this is the file that is compiled)
* src/solvers/fc2d_geoclaw/geolib_source/topointegral.f
* src/solvers/fc2d_geoclaw/geolib_source/bilinearintegral.f: `bilinearintegral`, `bilinearintegral_s`
* src/solvers/fc2d_geoclaw/fortran_source/geoclaw_setaux_fort.f90: `fc2d_geoclaw_setaux`, `ghost_invalid`
* src/solvers/fc2d_geoclaw/fc2d_geoclaw.cpp:179-206: the arguments of `setaux`

Simplifications: numbers are real numbers, without rounding. Each file has its own array `zz(1:mx,1:my)`;
in the program these are consecutive parts of `topowork`. An access outside of the bounds and a `stop` are
`none`. Not modelled: reading the files, moving ground (`dtopo`), test topographies
(`test_topography > 0`), fields for storms and friction, which are other components of `aux`.
-/
set_option autoImplicit false
namespace Fclaw.Topo

open Fort

noncomputable section

/-- `coordinate_system` (1: Cartesian, 2: longitude and latitude in degrees) and `earth_radius`. -/
structure World where
  coord : ℤ
  earthRadius : ℝ

/-- `DEG2RAD`, `RAD2DEG` (geolib_source/geoclaw_module.f90:23-25). -/
def deg2rad : ℝ := Real.pi / 180
def rad2deg : ℝ := 180 / Real.pi

/-- A file: `mxtopo`, `mytopo`, `xlowtopo`, `xhitopo`, `ylowtopo`, `yhitopo`, `dxtopo`, `dytopo` and the
values. -/
structure File where
  mx : ℕ
  my : ℕ
  xlow : ℝ
  xhi : ℝ
  ylow : ℝ
  yhi : ℝ
  dx : ℝ
  dy : ℝ
  zz : ℤ × ℤ → ℝ

/-- `zz(i,j)` with `zz(1:mxx,1:myy)` (topointegral.f:26). -/
def File.rd (T : File) (i j : ℤ) : Option ℝ :=
  if 1 ≤ i ∧ i ≤ T.mx ∧ 1 ≤ j ∧ j ≤ T.my then some (T.zz (i, j)) else none

/-- The corners of a rectangle. -/
structure Rect where
  xlo : ℝ
  xhi : ℝ
  ylo : ℝ
  yhi : ℝ

/-- What `intersection` returns. -/
structure Meet where
  indicator : ℤ
  area : ℝ
  rect : Rect

/-- `intersection` (topo_module.f90:1474-1502). -/
def intersection (a b : Rect) : Meet :=
  let xintlo := max a.xlo b.xlo
  let xinthi := min a.xhi b.xhi
  let yintlo := max a.ylo b.ylo
  let yinthi := min a.yhi b.yhi
  if xinthi > xintlo ∧ yinthi > yintlo then
    ⟨1, (xinthi - xintlo) * (yinthi - yintlo), ⟨xintlo, xinthi, yintlo, yinthi⟩⟩
  else ⟨0, 0, ⟨xintlo, xinthi, yintlo, yinthi⟩⟩

/-- `xlowtopo(mfid),xhitopo(mfid),ylowtopo(mfid),yhitopo(mfid)`. -/
def File.rect (T : File) : Rect := ⟨T.xlow, T.xhi, T.ylow, T.yhi⟩

/-- `bilinearintegral` (bilinearintegral.f:2-53). -/
def bilinearintegral (R : Rect) (x1 x2 y1 y2 dxx dyy z11 z12 z21 z22 : ℝ) : ℝ :=
  let xlow := max R.xlo x1
  let ylow := max R.ylo y1
  let xhi := min R.xhi x2
  let yhi := min R.yhi y2
  let area := (yhi - ylow) * (xhi - xlow)
  let sumxi := (xhi + xlow - 2 * x1) / dxx
  let sumeta := (yhi + ylow - 2 * y1) / dyy
  let a := z21 - z11
  let b := z12 - z11
  let c := z22 - z21 - z12 + z11
  let d := z11
  (1 / 2 * (a * sumxi + b * sumeta) + 1 / 4 * c * sumxi * sumeta + d) * area

/-- `bilinearintegral_s` (bilinearintegral.f:57-123). -/
def bilinearintegralS (w : World) (R : Rect) (x1 x2 y1 y2 dxx dyy z11 z12 z21 z22 : ℝ) : ℝ :=
  let xlo := max R.xlo x1
  let ylo := max R.ylo y1
  let xhi := min R.xhi x2
  let yhi := min R.yhi y2
  let delx := xhi - xlo
  let xdiffhi := xhi - x1
  let xdifflo := xlo - x1
  let ydiffhi := yhi - y1
  let ydifflo := ylo - y1
  let xdiff2 := 1 / 2 * (xdiffhi ^ 2 - xdifflo ^ 2)
  let cbsinint := (rad2deg * Real.cos (deg2rad * yhi) + ydiffhi * Real.sin (deg2rad * yhi))
    - (rad2deg * Real.cos (deg2rad * ylo) + ydifflo * Real.sin (deg2rad * ylo))
  let adsinint := rad2deg * (Real.sin (deg2rad * yhi) - Real.sin (deg2rad * ylo))
  let a := (z21 - z11) / dxx
  let b := (z12 - z11) / dyy
  let c := (z22 - z21 - z12 + z11) / (dxx * dyy)
  let d := z11
  ((a * xdiff2 + d * delx) * adsinint + rad2deg * (c * xdiff2 + b * delx) * cbsinint)
    * (w.earthRadius * deg2rad) ^ 2

/-- `idint`: the integer part, towards zero. -/
def idint (x : ℝ) : ℤ := if 0 ≤ x then ⌊x⌋ else ⌈x⌉

/-- `topointegral` (topointegral.f), with `intmethod = 1` as in all calls. -/
def topointegral (w : World) (R : Rect) (T : File) : Option ℝ :=
  let xxhi := T.xlow + ((T.mx : ℝ) - 1) * T.dx
  let yyhi := T.ylow + ((T.my : ℝ) - 1) * T.dy
  -- lines 35-43: test for small rounding error
  let cutx := R.xlo - T.xlow < 0 ∨ R.xhi - xxhi > 0
  let cuty := R.ylo - T.ylow < 0 ∨ R.yhi - yyhi > 0
  let xim := if cutx then max T.xlow R.xlo else R.xlo
  let xip := if cutx then min xxhi R.xhi else R.xhi
  let yjm := if cuty then max T.ylow R.ylo else R.ylo
  let yjp := if cuty then min yyhi R.yhi else R.yhi
  -- lines 55-70: the indices that include the region
  let jjstart := max (idint ((yjm - T.ylow) / T.dy) + 1) 1
  let iistart := max (idint ((xim - T.xlow) / T.dx) + 1) 1
  let iiend := min (T.mx : ℤ) (⌈(xip - T.xlow) / T.dx⌉ + 1)
  let jjend := min (T.my : ℤ) (⌈(yjp - T.ylow) / T.dy⌉ + 1)
  -- lines 73-106
  doLoop jjstart (jjend - 1) (fun jj sum =>
    let y1 := T.ylow + ((jj : ℝ) - 1) * T.dy
    let y2 := T.ylow + (jj : ℝ) * T.dy
    let jjz1 := T.my - jj + 1
    let jjz2 := jjz1 - 1
    doLoop iistart (iiend - 1) (fun ii sum =>
      let x1 := T.xlow + ((ii : ℝ) - 1) * T.dx
      let x2 := T.xlow + (ii : ℝ) * T.dx
      (T.rd ii jjz1).bind fun z11 =>
      (T.rd ii jjz2).bind fun z12 =>
      (T.rd (ii + 1) jjz1).bind fun z21 =>
      (T.rd (ii + 1) jjz2).bind fun z22 =>
      if w.coord = 1 then
        some (sum + bilinearintegral ⟨xim, xip, yjm, yjp⟩ x1 x2 y1 y2 T.dx T.dy z11 z12 z21 z22)
      else if w.coord = 2 then
        some (sum + bilinearintegralS w ⟨xim, xip, yjm, yjp⟩ x1 x2 y1 y2 T.dx T.dy z11 z12 z21 z22)
      else some sum) sum) 0

/-- `rectintegral` (topo_module.f90:1382-1470). The list holds the files `mtopoorder(m)`, …,
`mtopoorder(mtopofiles)`. -/
def rectintegral (w : World) : List File → Rect → Option ℝ
  | [], _ => none
  | [T], R =>
    let I := intersection R T.rect
    if I.indicator = 1 then topointegral w I.rect T else some 0
  | T :: T' :: Ts, R =>
    (rectintegral w (T' :: Ts) R).bind fun int1 =>
    let I := intersection R T.rect
    if I.area > 0 then
      (rectintegral w (T' :: Ts) I.rect).bind fun int2 =>
      (topointegral w I.rect T).bind fun int3 =>
      some (int1 - int2 + int3)
    else some int1

/-- `topoarea` (topo_module.f90:1306-1378). -/
def topoarea : List File → Rect → Option ℝ
  | [], _ => none
  | [T], R => some (intersection R T.rect).area
  | T :: T' :: Ts, R =>
    (topoarea (T' :: Ts) R).bind fun area1 =>
    let I := intersection R T.rect
    if I.area > 0 then
      (topoarea (T' :: Ts) I.rect).bind fun area2 => some (area1 - area2 + I.area)
    else some area1

/-- `cellgridintegrate` (cellgridintegrate2.f). The list holds the files in the order `mtopoorder`. -/
def cellgridintegrate (w : World) : List File → Rect → Option ℝ
  | [], _ => none
  | T :: Ts, R =>
    let cellarea := (R.xhi - R.xlo) * (R.yhi - R.ylo)
    let I := intersection R T.rect
    if I.indicator = 1 then
      if I.area = cellarea then (topointegral w I.rect T).bind fun v => some (0 + v)
      else rectintegral w (T :: Ts) R
    else cellgridintegrate w Ts R

/-! ### The order of the files -/

/-- The files, `1 … mtopofiles`. -/
structure Files where
  n : ℕ
  file : ℤ → File

/-- `area_i`. -/
def Files.area (F : Files) (i : ℤ) : ℝ := (F.file i).dx * (F.file i).dy

/-- Lines 224-237 of topo_module.f90: how many other files file `i` is finer than. -/
def Files.finerThan (F : Files) (i : ℤ) : ℤ :=
  (range 1 F.n).foldl (fun c j =>
    if j ≠ i then
      let c := if F.area i < F.area j then c + 1 else c
      if F.area i = F.area j ∧ j < i then c + 1 else c
    else c) 0

/-- Line 239: `rank`. -/
def Files.rank (F : Files) (i : ℤ) : ℤ := F.n - F.finerThan i

/-- Lines 223-241: `mtopoorder`; the array is zero before the loop. -/
def Files.mtopoorder (F : Files) : ℤ → ℤ :=
  (range 1 F.n).foldl (fun order i => fun r => if r = F.rank i then i else order r) (fun _ => 0)

/-- The files `mtopoorder(1)`, …, `mtopoorder(mtopofiles)`. -/
def Files.ordered (F : Files) : List File := (range 1 F.n).map fun r => F.file (F.mtopoorder r)

/-- The size of the domain: `xlower`, `xupper`, `ylower`, `yupper` in amr_module. -/
abbrev Domain := Rect

/-- What the check at the start does. -/
inductive Start where
  | stop
  | warn
  | go
  deriving DecidableEq

/-- Lines 281-297 of topo_module.f90: do the files cover the domain? -/
def startCheck (F : Files) (D : Domain) : Option Start :=
  (topoarea F.ordered D).bind fun area =>
  let areaDomain := (D.yhi - D.ylo) * (D.xhi - D.xlo)
  if |area - areaDomain| > 1 / 100 * areaDomain then some .stop
  else if |area - areaDomain| > 1 / 1000000000000 * areaDomain then some .warn
  else some .go

/-! ### The auxiliary array of a patch -/

/-- Arguments of `setaux` that have to do with the patch: number of cells, `xlow`, `ylow`, `dx`, `dy`, and
whether it is a ghost patch with `nghost` and `mint`; `mcapa` is a global variable. `d.meqn` is `maux`. -/
structure Patch where
  d : Dims
  xlow : ℝ
  ylow : ℝ
  dx : ℝ
  dy : ℝ
  isGhost : Bool
  nghost : ℤ
  mint : ℤ
  mcapa : ℤ

/-- `ghost_invalid` (geoclaw_setaux_fort.f90:276-288). -/
def ghostInvalid (i j mx my nghost mint : ℤ) : Bool :=
  let inner := (decide (i > mint) && decide (i < mx - mint + 1)) &&
    (decide (j > mint) && decide (j < my - mint + 1))
  let outer := decide (i < 1 - nghost) || decide (i > mx + nghost) || decide (j < 1 - nghost) ||
    decide (j > my + nghost)
  inner || outer

/-- `is_ghost .and. ghost_invalid(ii,jj,mx,my,nghost,mint)`. -/
def Patch.skip (P : Patch) (i j : ℤ) : Bool :=
  P.isGhost && ghostInvalid i j P.d.mx P.d.my P.nghost P.mint

/-- `do jj = 1-mbc,my+mbc; do ii = 1-mbc,mx+mbc`. -/
def Patch.cells (P : Patch) (f : ℤ → ℤ → Grid ℝ → Option (Grid ℝ)) (aux : Grid ℝ) : Option (Grid ℝ) :=
  doLoop (1 - (P.d.mbc : ℤ)) (P.d.my + P.d.mbc) (fun jj =>
    doLoop (1 - (P.d.mbc : ℤ)) (P.d.mx + P.d.mbc) (fun ii => f ii jj)) aux

/-- Lines 134-135. -/
def Patch.ilo (P : Patch) (D : Domain) : ℤ := ⌊(P.xlow - D.xlo + 5 / 100 * P.dx) / P.dx⌋
def Patch.jlo (P : Patch) (D : Domain) : ℤ := ⌊(P.ylow - D.ylo + 5 / 100 * P.dy) / P.dy⌋

/-- Lines 49-79: checks, and the second component for Cartesian coordinates. -/
def setauxCheck (w : World) (P : Patch) (aux : Grid ℝ) : Option (Grid ℝ) :=
  if w.coord = 2 ∧ (P.mcapa ≠ 2 ∨ P.d.meqn < 3) then none
  else if w.coord = 1 then
    if P.mcapa > 0 then none
    else if P.d.meqn > 1 then
      P.cells (fun ii jj aux => if P.skip ii jj then some aux else wr P.d aux (ii, jj, 2) 1) aux
    else some aux
  else some aux

/-- Lines 137-207: the body of the loops that set the bathymetry. -/
def setauxCell (w : World) (fs : List File) (D : Domain) (P : Patch) (ii jj : ℤ) (aux : Grid ℝ) :
    Option (Grid ℝ) :=
  let ym := D.ylo + (((P.jlo D + jj : ℤ) : ℝ) - 1) * P.dy
  let yp := D.ylo + ((P.jlo D + jj : ℤ) : ℝ) * P.dy
  let y := 1 / 2 * (ym + yp)
  let xm := D.xlo + (((P.ilo D + ii : ℤ) : ℝ) - 1) * P.dx
  let xp := D.xlo + ((P.ilo D + ii : ℤ) : ℝ) * P.dx
  let x := 1 / 2 * (xm + xp)
  if P.skip ii jj then some aux else
  (if w.coord = 2 then
    (wr P.d aux (ii, jj, 2)
      (deg2rad * w.earthRadius ^ 2 * (Real.sin (yp * deg2rad) - Real.sin (ym * deg2rad)) / P.dy)).bind
      fun aux => wr P.d aux (ii, jj, 3) (ym * deg2rad)
   else some aux).bind fun aux =>
  if y > D.yhi ∨ y < D.ylo ∨ x > D.xhi ∨ x < D.xlo then some aux else
  if fs.length > 0 then
    (cellgridintegrate w fs ⟨xm, xp, ym, yp⟩).bind fun integral =>
    if w.coord = 2 then
      (rd P.d aux (ii, jj, 2)).bind fun cap =>
      wr P.d aux (ii, jj, 1) (integral / (P.dx * P.dy * cap))
    else wr P.d aux (ii, jj, 1) (integral / (P.dx * P.dy))
  else some aux

/-- Lines 219-224 and 237-242: copy from the nearest cell inside. -/
def setauxCopy (D : Domain) (P : Patch) (ii jj : ℤ) (aux : Grid ℝ) : Option (Grid ℝ) :=
  let x := D.xlo + (((P.ilo D + ii : ℤ) : ℝ) - 1 / 2) * P.dx
  let y := D.ylo + (((P.jlo D + jj : ℤ) : ℝ) - 1 / 2) * P.dy
  let iint := ii + max 0 ⌈(D.xlo - x) / P.dx⌉ - max 0 ⌈(x - D.xhi) / P.dx⌉
  let jint := jj + max 0 ⌈(D.ylo - y) / P.dy⌉ - max 0 ⌈(y - D.yhi) / P.dy⌉
  (rd P.d aux (iint, jint, 1)).bind fun v => wr P.d aux (ii, jj, 1) v

/-- Lines 212-227: rows of cells outside of the domain. -/
def setauxRows (D : Domain) (P : Patch) (aux : Grid ℝ) : Option (Grid ℝ) :=
  doLoop (1 - (P.d.mbc : ℤ)) (P.d.my + P.d.mbc) (fun jj aux =>
    let y := D.ylo + (((P.jlo D + jj : ℤ) : ℝ) - 1 / 2) * P.dy
    if y < D.ylo ∨ y > D.yhi then
      doLoop (1 - (P.d.mbc : ℤ)) (P.d.mx + P.d.mbc) (fun ii aux =>
        if P.skip ii jj then some aux else setauxCopy D P ii jj aux) aux
    else some aux) aux

/-- Lines 230-245: columns of cells outside of the domain. -/
def setauxCols (D : Domain) (P : Patch) (aux : Grid ℝ) : Option (Grid ℝ) :=
  doLoop (1 - (P.d.mbc : ℤ)) (P.d.mx + P.d.mbc) (fun ii aux =>
    let x := D.xlo + (((P.ilo D + ii : ℤ) : ℝ) - 1 / 2) * P.dx
    if x < D.xlo ∨ x > D.xhi then
      doLoop (1 - (P.d.mbc : ℤ)) (P.d.my + P.d.mbc) (fun jj aux =>
        if P.skip ii jj then some aux else setauxCopy D P ii jj aux) aux
    else some aux) aux

/-- `fc2d_geoclaw_setaux` (geoclaw_setaux_fort.f90:2-273), with files and without test topography,
friction and storms. -/
def setaux (w : World) (F : Files) (D : Domain) (P : Patch) (aux : Grid ℝ) : Option (Grid ℝ) :=
  (setauxCheck w P aux).bind fun aux =>
  (P.cells (setauxCell w F.ordered D P) aux).bind fun aux =>
  (setauxRows D P aux).bind fun aux =>
  setauxCols D P aux

end

end Fclaw.Topo
