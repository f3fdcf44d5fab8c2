import Mathlib.Analysis.SpecialFunctions.Trigonometric.Basic
import Mathlib.Analysis.SpecialFunctions.Trigonometric.Arctan
import Mathlib.Analysis.SpecialFunctions.Pow.Real
/-
Model of the mappings that come with the library, which take a point of a block to a point in space:

* src/mappings/cart/mapc2m_cart.f, bilinear/mapc2m_bilinear.f, fivepatch/mapc2m_fivepatch.f,
  squareddisk/mapc2m_squareddisk.f, pillowdisk/mapc2m_pillowdisk.f, pillowdisk5/mapc2m_pillowdisk5.f,
  pillowsphere/mapc2m_pillowsphere.f, cubedsphere/mapc2m_cubedsphere.f, annulus/mapc2m_annulus.f,
  torus/mapc2m_torus.f, torus/mapc2m_twisted_torus.f, latlong/mapc2m_latlong.f
* src/mappings/scale_rot_map.f: `set_rotation_matrix`; src/fclaw2d_map.c:517-560: `scale_map`,
  `shift_map`, `rotate_map`

Simplifications: numbers are real numbers, without rounding. `pi` and `pi2` of the common block `compi`,
which the application has to set, are π and 2π. There is no negative zero. A `stop`, and results that
have not been set, are `none`.
-/
set_option autoImplicit false
namespace Fclaw.Mapping

noncomputable section

/-- `xp`, `yp`, `zp`. -/
@[ext] structure P3 where
  x : ℝ
  y : ℝ
  z : ℝ

/-- Fortran's `sign(1.d0,x)`. -/
def sign1 (x : ℝ) : ℝ := if 0 ≤ x then 1 else -1

/-- `mapc2m_cart` (mapc2m_cart.f). -/
def cart (xc yc : ℝ) : P3 := ⟨2 * xc - 1, 2 * yc - 1, 0⟩

/-! ### Cubed sphere -/

/-- `csphere_basic` (mapc2m_cubedsphere.f:26-43). -/
def csphereBasic (xc yc : ℝ) : P3 :=
  let R : ℝ := 1
  let tanXi := Real.tan (1 / 2 * Real.pi * (xc - 1 / 2))
  let tanEta := Real.tan (1 / 2 * Real.pi * (yc - 1 / 2))
  let zp := R / Real.sqrt (tanXi ^ 2 + tanEta ^ 2 + 1)
  ⟨zp * tanXi, zp * tanEta, zp⟩

/-- `mapc2m_cubedsphere` (mapc2m_cubedsphere.f:1-24). The order of the last three arguments of
`csphere_basic` says where its results go. -/
def cubedsphere (blockno : ℤ) (xc yc : ℝ) : Option P3 :=
  let r := csphereBasic xc yc
  if blockno = 0 then some ⟨r.y, r.x, -r.z⟩
  else if blockno = 1 then some ⟨r.y, r.z, r.x⟩
  else if blockno = 2 then some ⟨-r.z, r.y, r.x⟩
  else if blockno = 3 then some ⟨r.x, r.y, r.z⟩
  else if blockno = 4 then some ⟨r.x, -r.z, r.y⟩
  else if blockno = 5 then some ⟨r.z, r.x, r.y⟩
  else none

/-! ### Five blocks: square and disk -/

/-- `bilinear_help` (mapc2m_fivepatch.f:39-72): `xp`, `yp`. -/
def bilinearHelp (alpha xi eta : ℝ) : ℝ × ℝ :=
  let corner1 : ℝ × ℝ := (-alpha, alpha)
  let corner4 : ℝ × ℝ := (alpha, alpha)
  let corner3 : ℝ × ℝ := (1, 1)
  let corner2 : ℝ × ℝ := (-1, 1)
  let pt (a c4 c2 c3 : ℝ) : ℝ :=
    let u1 := c4 - a
    let v1 := c2 - a
    let v2 := c3 - c4
    a + u1 * xi + v1 * eta + (v2 - v1) * xi * eta
  (pt corner1.1 corner4.1 corner2.1 corner3.1, pt corner1.2 corner4.2 corner2.2 corner3.2)

/-- `mapc2m_fivepatch` (mapc2m_fivepatch.f:1-37). -/
def fivepatch (blockno : ℤ) (xc yc alpha : ℝ) : Option P3 :=
  if blockno = 2 then some ⟨(2 * xc - 1) * alpha, (2 * yc - 1) * alpha, 0⟩
  else if blockno = 0 then
    let p := bilinearHelp alpha xc (1 - yc)
    some ⟨p.1, -p.2, 0⟩
  else if blockno = 1 then
    let p := bilinearHelp alpha yc (1 - xc)
    some ⟨-p.2, p.1, 0⟩
  else if blockno = 3 then
    let p := bilinearHelp alpha yc xc
    some ⟨p.2, p.1, 0⟩
  else if blockno = 4 then
    let p := bilinearHelp alpha xc yc
    some ⟨p.1, p.2, 0⟩
  else none

/-- `squareddisk_help` (mapc2m_squareddisk.f:48-73): `x`, `y`. -/
def squareddiskHelp (alpha xi eta : ℝ) : ℝ × ℝ :=
  let R := alpha ^ (1 - eta)
  let tau := Real.tan (1 / 2 * Real.pi * (xi - 1 / 2))
  let xiPrime := 2 * (1 - eta) * (xi - 1 / 2) + eta * tau
  let y := R / Real.sqrt (2 + eta * (tau ^ 2 - 1))
  (y * xiPrime, y)

/-- `mapc2m_squareddisk` (mapc2m_squareddisk.f:6-46). -/
def squareddisk (blockno : ℤ) (xc yc alpha : ℝ) : Option P3 :=
  if blockno = 2 then
    some ⟨(2 * xc - 1) * alpha / Real.sqrt 2, (2 * yc - 1) * alpha / Real.sqrt 2, 0⟩
  else if blockno = 0 then
    let p := squareddiskHelp alpha xc (1 - yc)
    some ⟨p.1, -p.2, 0⟩
  else if blockno = 1 then
    let p := squareddiskHelp alpha yc (1 - xc)
    some ⟨-p.2, p.1, 0⟩
  else if blockno = 3 then
    let p := squareddiskHelp alpha yc xc
    some ⟨p.2, p.1, 0⟩
  else if blockno = 4 then
    let p := squareddiskHelp alpha xc yc
    some ⟨p.1, p.2, 0⟩
  else none

/-! ### Pillow disk and pillow sphere -/

/-- `map_disk_north_sector` (mapc2m_pillowdisk.f:62-70) and `map_north_sector_sp`
(mapc2m_pillowsphere.f:117-125), which are the same. -/
def northSector (xi eta : ℝ) : ℝ × ℝ :=
  (xi, Real.sqrt (2 - xi ^ 2) - Real.sqrt (2 - eta ^ 2) + eta)

/-- The last part of `mapc2p_disk_circle` (46-57) and `mapc2p_circle_sp` (101-112). -/
def sectors (xc yc x y : ℝ) : ℝ × ℝ :=
  let minxy := min |x| |y|
  let maxxy := max |x| |y|
  if |xc| ≤ |yc| then (sign1 xc * minxy, sign1 yc * maxxy)
  else (sign1 xc * maxxy, sign1 yc * minxy)

/-- `mapc2p_disk_circle` (mapc2m_pillowdisk.f:31-60). -/
def diskCircle (xc yc : ℝ) : ℝ × ℝ :=
  let xi := min |xc| |yc|
  let eta := max (max |xc| |yc|) (1 / 10000000000)
  let p := northSector xi eta
  sectors xc yc p.1 p.2

/-- `mapc2m_pillowdisk` (mapc2m_pillowdisk.f:9-28). -/
def pillowdisk (xc1 yc1 : ℝ) : P3 :=
  let c := cart xc1 yc1
  let p := diskCircle c.x c.y
  ⟨p.1 / Real.sqrt 2, p.2 / Real.sqrt 2, 0⟩

/-- `mapc2m_pillowdisk5` (mapc2m_pillowdisk5.f). -/
def pillowdisk5 (blockno : ℤ) (xc1 yc1 alpha : ℝ) : Option P3 :=
  (fivepatch blockno xc1 yc1 alpha).bind fun c =>
  let xc := (c.x + 1) / 2
  let yc := (c.y + 1) / 2
  some (pillowdisk xc yc)

/-- `mapc2p_circle_sp` (mapc2m_pillowsphere.f:72-115). -/
def circleSp (x1 y1 : ℝ) : ℝ × ℝ :=
  let xc := if x1 < -1 then -(x1 + 2) else x1
  let yc := y1
  let xi := min |xc| |yc|
  let eta := max (max |xc| |yc|) (1 / 10000000000)
  let dd := Real.sin (Real.pi * eta / 2)
  let xit := (xi / eta) * dd
  let etat := dd
  let p := northSector xit etat
  sectors xc yc p.1 p.2

/-- Lines 25-26 and 28-29 of mapc2m_pillowsphere.f: from ghost cells to the interior. -/
def fold (xc : ℝ) : ℝ :=
  let d := max (xc - 1) 0 + max (-1 - xc) 0
  ((1 - d) / (1 + d)) * xc

/-- `mapc2m_pillowsphere` (mapc2m_pillowsphere.f:10-66). `isPillowsphere` is the answer of the mapping to
the query. -/
def pillowsphere (isPillowsphere : Bool) (blockno : ℤ) (xc1 yc1 : ℝ) : P3 :=
  let c := cart xc1 yc1
  let xc := c.x
  let yc := c.y
  let x1 := fold xc
  let y1 := fold yc
  let p := circleSp x1 y1
  let rp2 := p.1 ^ 2 + p.2 ^ 2
  let zp := if |rp2 - 2| < 1 / 10000000000 then 0 else Real.sqrt (2 - rp2)
  let l1 := decide (|xc| > 1)
  let l2 := decide (|yc| > 1)
  let zp := if l1 ≠ l2 then -zp else zp
  let xp := p.1 / Real.sqrt 2
  let yp := p.2 / Real.sqrt 2
  let zp := zp / Real.sqrt 2
  let zp := if isPillowsphere then (if blockno = 1 then -zp else zp) else zp
  ⟨xp, yp, zp⟩

/-! ### Four blocks with a common corner -/

/-- `shiftx`, `shifty` (mapc2m_bilinear.f:15), `none` outside of the bounds. -/
def bilinearShift (blockno : ℤ) : Option (ℝ × ℝ) :=
  if blockno = 0 then some (-1, -1)
  else if blockno = 1 then some (0, -1)
  else if blockno = 2 then some (-1, 0)
  else if blockno = 3 then some (0, 0)
  else none

/-- `mapc2m_bilinear` (mapc2m_bilinear.f). -/
def bilinear (blockno : ℤ) (xc yc : ℝ) (center : ℝ × ℝ) : Option P3 :=
  (bilinearShift blockno).bind fun s =>
  -- lines 21-33: `quad(i,j,:)`
  let q (ll : ℝ × ℝ) : ℝ × ℝ := (ll.1 + s.1, ll.2 + s.2)
  let q00 := if blockno = 3 then center else q (0, 0)
  let q10 := if blockno = 2 then center else q (1, 0)
  let q01 := if blockno = 1 then center else q (0, 1)
  let q11 := if blockno = 0 then center else q (1, 1)
  -- lines 47-58
  let T (c00 c10 c01 c11 : ℝ) : ℝ :=
    let a00 := c00
    let a01 := c10 - c00
    let a10 := c01 - c00
    let a11 := c11 - c10 - c01 + c00
    a00 + a01 * xc + a10 * yc + a11 * xc * yc
  some ⟨T q00.1 q10.1 q01.1 q11.1, T q00.2 q10.2 q01.2 q11.2, 0⟩

/-! ### Periodic mappings -/

/-- `mapc2m_annulus` (mapc2m_annulus.f). -/
def annulus (xc yc beta t1 t2 : ℝ) : P3 :=
  let t := t1 + (t2 - t1) * xc
  let r := beta + (1 - beta) * yc
  ⟨r * Real.cos (2 * Real.pi * t), r * Real.sin (2 * Real.pi * t), 0⟩

/-- `mapc2m_torus` (mapc2m_torus.f). -/
def torus (xc yc alpha beta : ℝ) : P3 :=
  let pi2 := 2 * Real.pi
  let r1 := alpha * (1 + beta * Real.sin (pi2 * xc))
  let R := 1 + r1 * Real.cos (pi2 * yc)
  ⟨R * Real.cos (pi2 * xc), R * Real.sin (pi2 * xc), r1 * Real.sin (pi2 * yc)⟩

/-- `mapc2m_twisted_torus` (mapc2m_twisted_torus.f). -/
def twistedTorus (xc yc alpha : ℝ) : P3 :=
  let pi2 := 2 * Real.pi
  let r := 1 + alpha * Real.cos (pi2 * (yc + xc))
  ⟨r * Real.cos (pi2 * xc), r * Real.sin (pi2 * xc), alpha * Real.sin (pi2 * (yc + xc))⟩

/-- `mapc2m_latlong` (mapc2m_latlong.f). -/
def latlong (xc yc : ℝ) : P3 :=
  let deg2rad := Real.pi / 180
  let xc1 := deg2rad * xc
  let yc1 := deg2rad * yc
  ⟨Real.cos yc1 * Real.cos xc1, Real.cos yc1 * Real.sin xc1, Real.sin yc1⟩

/-! ### Scaling, shifting and rotating -/

/-- `r1` of `set_rotation_matrix` (scale_rot_map.f:114-125), indices from 0. -/
def rot1 (th : ℝ) (i j : Fin 3) : ℝ :=
  if i = 0 ∧ j = 0 then Real.cos th
  else if i = 0 ∧ j = 1 then -Real.sin th
  else if i = 1 ∧ j = 0 then -(-Real.sin th)
  else if i = 1 ∧ j = 1 then Real.cos th
  else if i = j then 1 else 0

/-- `r2` of `set_rotation_matrix` (scale_rot_map.f:127-138). -/
def rot2 (phi : ℝ) (i j : Fin 3) : ℝ :=
  if i = 0 ∧ j = 0 then Real.cos phi
  else if i = 0 ∧ j = 2 then -Real.sin phi
  else if i = 2 ∧ j = 0 then -(-Real.sin phi)
  else if i = 2 ∧ j = 2 then Real.cos phi
  else if i = j then 1 else 0

/-- `set_rotation_matrix` (scale_rot_map.f:99-154): `rrot(i,j)`. -/
def rotationMatrix (th phi : ℝ) (i j : Fin 3) : ℝ :=
  0 + rot2 phi i 0 * rot1 th 0 j + rot2 phi i 1 * rot1 th 1 j + rot2 phi i 2 * rot1 th 2 j

/-- `set_rotate` (fclaw2d_map.c:510-515): the nine numbers that are stored, in the order of a Fortran
array. -/
def setRotate (th phi : ℝ) (k : ℕ) : ℝ :=
  rotationMatrix th phi (Fin.ofNat 3 (k % 3)) (Fin.ofNat 3 (k / 3))

/-- `rotate_map` (fclaw2d_map.c:531-554). -/
def rotateMap (rotate : ℕ → ℝ) (p : P3) : P3 :=
  let vrot (i : ℕ) : ℝ :=
    0 + rotate (3 * 0 + i) * p.x + rotate (3 * 1 + i) * p.y + rotate (3 * 2 + i) * p.z
  ⟨vrot 0, vrot 1, vrot 2⟩

/-- `scale_map` (fclaw2d_map.c:517-522). -/
def scaleMap (s : P3) (p : P3) : P3 := ⟨p.x * s.x, p.y * s.y, p.z * s.z⟩

/-- `shift_map` (fclaw2d_map.c:524-529). -/
def shiftMap (s : P3) (p : P3) : P3 := ⟨p.x + s.x, p.y + s.y, p.z + s.z⟩

end

end Fclaw.Mapping
