/-
Model of the conservative corrections (2D, clawpack 4.6): src/solvers/fc2d_clawpack4.6/fortran_source/
clawpack46_time_sync.f, the update of the solution at the end of clawpack46_step2_wrap.f, and the calls in
src/patches/clawpatch/fclaw2d_clawpatch_conservation.c:356-502.

`double` is `ℚ`: rounding is not modelled.
-/
import Verif.CopyGhost.Model
import Mathlib.Data.Rat.Defs
import Mathlib.Algebra.Order.Ring.Rat

set_option autoImplicit false
namespace Fclaw.Correction

open Fort Transform CopyGhost

/-- `fclaw2d_clawpatch_registers_t`: accumulated fluctuations and fluxes along the faces, and cell areas and
edge lengths there. `fp side t mq` is `fp[side](t,mq)`; `ef face t mq k` is `edge_fluxes[face](t,mq,k)`. -/
structure Regs where
  fp : Nat → ℤ → ℤ → ℚ
  fm : Nat → ℤ → ℤ → ℚ
  gp : Nat → ℤ → ℤ → ℚ
  gm : Nat → ℤ → ℤ → ℚ
  ef : Nat → ℤ → ℤ → ℤ → ℚ
  area : Nat → ℤ → ℚ
  el : Nat → ℤ → ℚ

/-- All registers zero, as after `fclaw2d_clawpatch_time_sync_new`. -/
def Regs.empty (area el : Nat → ℤ → ℚ) : Regs :=
  ⟨fun _ _ _ => 0, fun _ _ _ => 0, fun _ _ _ => 0, fun _ _ _ => 0, fun _ _ _ _ => 0, area, el⟩

/-- Element `(t, mq)` of an array declared `(n, meqn)`. -/
def get (n meqn : Nat) (a : ℤ → ℤ → ℚ) (t mq : ℤ) : Option ℚ :=
  if 1 ≤ t ∧ t ≤ n ∧ 1 ≤ mq ∧ mq ≤ meqn then some (a t mq) else none

/-! ### Steps -/

/-- `rpn2_cons`: the flux function of the user; arguments: direction, face of the cell, values in the cell,
auxiliary values in the cell and at the edge. -/
abbrev Rpn := Nat → Nat → (ℤ → ℚ) → (ℤ → ℚ) → (ℤ → ℚ) → ℤ → ℚ

/-- The values in cell `(i, j)`. -/
def vec (q : Grid ℚ) (i j : ℤ) : ℤ → ℚ := fun m => q (i, j, m)

/-- `clawpack46_time_sync_store_flux`, clawpack46_time_sync.f:36-148. Every element is added to once, from
other arrays, so it is written as a function. Reads of `q` and `aux` in the first layer of ghost cells are
not checked here (they exist if `mbc ≥ 1`). -/
def storeFlux (d : Dims) (rpn : Rpn) (dt : ℚ) (q aux : Grid ℚ) (r : Regs) : Regs :=
  { r with
    ef := fun face t m k =>
      if face = 0 then
        r.ef 0 t m k + dt * r.el 0 t *
          rpn 0 (if k = 0 then 0 else 1) (vec q (1 - k) t) (vec aux (1 - k) t) (vec aux 1 t) m
      else if face = 1 then
        r.ef 1 t m k + dt * r.el 1 t *
          rpn 0 (if k = 0 then 1 else 0) (vec q (d.mx + k) t) (vec aux (d.mx + k) t) (vec aux (d.mx + 1) t) m
      else if face = 2 then
        r.ef 2 t m k + dt * r.el 2 t *
          rpn 1 (if k = 0 then 2 else 3) (vec q t (1 - k)) (vec aux t (1 - k)) (vec aux t 1) m
      else
        r.ef 3 t m k + dt * r.el 3 t *
          rpn 1 (if k = 0 then 3 else 2) (vec q t (d.my + k)) (vec aux t (d.my + k)) (vec aux t (d.my + 1)) m }

/-- The fluctuations computed by `clawpack46_step2` from the solution. -/
structure Waves where
  fp : Grid ℚ
  fm : Grid ℚ
  gp : Grid ℚ
  gm : Grid ℚ

/-- `clawpack46_time_sync_accumulate_waves`, clawpack46_time_sync.f:155-217, called with `fp_left = fp[0]`,
`fp_right = fp[1]` and so on. Again every element is added to once. -/
def accumulateWaves (d : Dims) (dx dy dt : ℚ) (w : Waves) (r : Regs) : Regs :=
  { r with
    fp := fun side j m => r.fp side j m - dt * dy * w.fp (if side = 0 then 1 else d.mx + 1, j, m)
    fm := fun side j m => r.fm side j m + dt * dy * w.fm (if side = 0 then 1 else d.mx + 1, j, m)
    gp := fun side i m => r.gp side i m - dt * dx * w.gp (i, if side = 0 then 1 else d.my + 1, m)
    gm := fun side i m => r.gm side i m + dt * dx * w.gm (i, if side = 0 then 1 else d.my + 1, m) }

/-- The update at the end of `clawpack46_step2_wrap` (last 25 lines), in interior cells; `capa` is
`aux(i,j,mcapa)`, or 1 if `mcapa = 0`. (Ghost cells are updated too, and filled again before their next
use; here they keep their values.) -/
def updateQ (d : Dims) (dx dy dt : ℚ) (capa : ℤ → ℤ → ℚ) (w : Waves) (q : Grid ℚ) : Grid ℚ := fun c =>
  let (i, j, m) := c
  if 1 ≤ i ∧ i ≤ d.mx ∧ 1 ≤ j ∧ j ≤ d.my then
    q c - (dt / dx * (w.fm (i + 1, j, m) - w.fp (i, j, m)) + dt / dy * (w.gm (i, j + 1, m) - w.gp (i, j, m))) / capa i j
  else q c

/-- `clawpack46_step2` in fc2d_clawpack46.cpp:259-399 with `flux_correction` and `fluctuation_correction`:
fluxes are stored before the update, fluctuations after it. -/
def step (d : Dims) (rpn : Rpn) (dx dy dt : ℚ) (capa : ℤ → ℤ → ℚ) (aux : Grid ℚ) (w : Waves) (q : Grid ℚ)
    (r : Regs) : Grid ℚ × Regs :=
  (updateQ d dx dy dt capa w q, accumulateWaves d dx dy dt w (storeFlux d rpn dt q aux r))

/-! ### Corrections -/

/-- `FCLAW2D_CLAWPATCH_TRANSFORM_FACE_HALF`, fclaw2d_clawpatch_transform.c:101-118: `i2(0:3), j2(0:3)`. -/
def clawHalf (d : Dims) (td : TData) (i1 j1 : ℤ) : Option (Nat → ℤ × ℤ) :=
  (transformFace2 false td.this td.neighbor td.transform (sizes d) 1 (index i1 j1) (td.junk i1 j1)).bind fun o =>
  (o 0).bind fun o0 => (o 1).bind fun o1 => (o 2).bind fun o2 => (o 3).bind fun o3 =>
  some fun k => if k = 0 then (o0 0, o0 1) else if k = 1 then (o1 0, o1 1)
    else if k = 2 then (o2 0, o2 1) else (o3 0, o3 1)

/-- `fclaw2d_clawpatch_build_transform`, fclaw2d_clawpatch_utils.f:76-117 (`mi(1)` is the first element). -/
def buildTransform (d : Dims) (td : TData) : Option Affine :=
  (clawHalf d td 0 0).bind fun o =>
  (clawHalf d td 1 0).bind fun e1 =>
  (clawHalf d td 0 1).bind fun e2 =>
  some ⟨(e1 0).1 - (o 0).1, (e2 0).1 - (o 0).1, (e1 0).2 - (o 0).2, (e2 0).2 - (o 0).2, (o 0).1, (o 0).2⟩

/-- `fc46_is_valid_correct`, clawpack46_time_sync.f:720-734. -/
def isValidCorrect (d : Dims) (c : ℤ × ℤ) : Bool :=
  Bool.xor (decide (1 ≤ c.1) && decide (c.1 ≤ d.mx)) (decide (1 ≤ c.2) && decide (c.2 ≤ d.my))

/-- `fc46_skip_this_grid`, lines 700-717. -/
def skipThisGrid (d : Dims) (o : Nat → ℤ × ℤ) : Bool := (List.range 4).any fun m => !isValidCorrect d (o m)

/-- `fclaw2d_patch_normal_match`, src/forestclaw2d.c:358-401: `qtfi` is the neighbour face with its
orientation. -/
def normalMatch (faceno qtfi : ℤ) : ℤ := (faceno + qtfi) % 2

/-- The bounds of `qfine_dummy`. -/
def wide (d : Dims) : Dims := { d with mbc := 2 * d.mbc }

/-- Two values, each at two places, lines 343-348 and similar. -/
def put (d : Dims) (at1 at2 : Cell) (v e : ℚ) (s : Grid ℚ) : Option (Grid ℚ) :=
  (wr (wide d) s at1 v).bind fun s => wr (wide d) s at2 e

/-- The loops that fill `qfine_dummy` along all edges, lines 333-387. -/
def fillDummy (d : Dims) (fine : Regs) (z : Grid ℚ) : Option (Grid ℚ) :=
  let (mx, my) := ((d.mx : ℤ), (d.my : ℤ))
  let gy := get d.my d.meqn
  let gx := get d.mx d.meqn
  doLoop 1 d.meqn (fun mq s =>
    (doLoop 1 (my / 2) (fun j s =>
      let jj1 := 2 * (j - 1) + 1
      let jj2 := 2 * (j - 1) + 2
      (gy (fine.fm 0) jj1 mq).bind fun fm1 => (gy (fine.fm 0) jj2 mq).bind fun fm2 =>
      (gy (fun t m => fine.ef 0 t m 1) jj1 mq).bind fun ef1 => (gy (fun t m => fine.ef 0 t m 1) jj2 mq).bind fun ef2 =>
      (doLoop jj1 jj2 (fun jj => doLoop (-1) 0 fun ii =>
        put d (ii, jj, mq) (ii - 2, jj, mq) (fm1 + fm2) (ef1 + ef2)) s).bind fun s =>
      (gy (fine.fp 1) jj1 mq).bind fun fp1 => (gy (fine.fp 1) jj2 mq).bind fun fp2 =>
      (gy (fun t m => fine.ef 1 t m 1) jj1 mq).bind fun ef1 => (gy (fun t m => fine.ef 1 t m 1) jj2 mq).bind fun ef2 =>
      doLoop jj1 jj2 (fun jj => doLoop 1 2 fun ii =>
        put d (mx + ii, jj, mq) (mx + ii + 2, jj, mq) (fp1 + fp2) (ef1 + ef2)) s) s).bind fun s =>
    doLoop 1 (mx / 2) (fun i s =>
      let ii1 := 2 * (i - 1) + 1
      let ii2 := 2 * (i - 1) + 2
      (gx (fine.gm 0) ii1 mq).bind fun gm1 => (gx (fine.gm 0) ii2 mq).bind fun gm2 =>
      (gx (fun t m => fine.ef 2 t m 1) ii1 mq).bind fun ef1 => (gx (fun t m => fine.ef 2 t m 1) ii2 mq).bind fun ef2 =>
      (doLoop ii1 ii2 (fun ii => doLoop (-1) 0 fun jj =>
        put d (ii, jj, mq) (ii, jj - 2, mq) (gm1 + gm2) (ef1 + ef2)) s).bind fun s =>
      (gx (fine.gp 1) ii1 mq).bind fun gp1 => (gx (fine.gp 1) ii2 mq).bind fun gp2 =>
      (gx (fun t m => fine.ef 3 t m 1) ii1 mq).bind fun ef1 => (gx (fun t m => fine.ef 3 t m 1) ii2 mq).bind fun ef2 =>
      doLoop ii1 ii2 (fun ii => doLoop 1 2 fun jj =>
        put d (ii, my + jj, mq) (ii, my + jj + 2, mq) (gp1 + gp2) (ef1 + ef2)) s) s) z

/-- `q(c) = q(c) + v`. -/
def add (d : Dims) (q : Grid ℚ) (c : Cell) (v : ℚ) : Option (Grid ℚ) := (rd d q c).bind fun x => wr d q c (x + v)

/-- What the neighbour has for coarse cell `(i, j)` (fluctuation) and the one behind it (flux, with its
sign), or nothing if the cell is to be skipped. -/
def peek (d : Dims) (td : TData) (dummy : Grid ℚ) (sc : ℤ) (i j i' j' mq : ℤ) : Option (Option (ℚ × ℚ)) :=
  (clawHalf d td i j).bind fun o =>
  if skipThisGrid d o then some none
  else
    (rd (wide d) dummy ((o 0).1, (o 0).2, mq)).bind fun f =>
    (clawHalf d td i' j').bind fun o' =>
    (rd (wide d) dummy ((o' 0).1, (o' 0).2, mq)).bind fun e => some (some (f, sc * e))

/-- `deltac` at a low face (0 or 2) and at a high one. -/
def delta (low : Bool) (w : Option (ℚ × ℚ)) (efthis fthis : Option ℚ) : Option ℚ :=
  match w with
  | none => some 0
  | some (f, e) => efthis.bind fun ef => fthis.bind fun g =>
    some (if low then (e - ef) - (f - g) else (ef - e) - (f - g))

/-- `clawpack46_fort_time_sync_f2c`, clawpack46_time_sync.f:247-487, with the arguments of
fclaw2d_clawpatch_time_sync_f2c (the dummy array is allocated with zeros). `stop` is `none`. -/
def f2c (d : Dims) (td : TData) (iface : Nat) (match' : ℤ) (coarse fine : Regs) (q : Grid ℚ) : Option (Grid ℚ) :=
  let idir := iface / 2
  let (mx, my) := ((d.mx : ℤ), (d.my : ℤ))
  (buildTransform d td).bind fun A =>
  let sc := if idir = 0 then (A.a11 + A.a21).tdiv 2 else (A.a12 + A.a22).tdiv 2
  if sc ≠ (if match' = 0 then -1 else 1) then none
  else
  (fillDummy d fine fun _ => 0).bind fun dummy =>
  if idir = 0 then
    doLoop 1 d.meqn (fun mq => doLoop 1 my fun jc q =>
      if iface = 0 then
        (peek d td dummy sc 1 jc (1 + 1) jc mq).bind fun w =>
        (delta true w (get d.my d.meqn (fun t m => coarse.ef 0 t m 0) jc mq) (get d.my d.meqn (coarse.fp 0) jc mq)).bind fun v =>
        add d q (1, jc, mq) (v / coarse.area 0 jc)
      else
        (peek d td dummy sc mx jc (mx - 1) jc mq).bind fun w =>
        (delta false w (get d.my d.meqn (fun t m => coarse.ef 1 t m 0) jc mq) (get d.my d.meqn (coarse.fm 1) jc mq)).bind fun v =>
        add d q (mx, jc, mq) (v / coarse.area 1 jc)) q
  else
    doLoop 1 d.meqn (fun mq => doLoop 1 mx fun ic q =>
      if iface = 2 then
        (peek d td dummy sc ic 1 ic (1 + 1) mq).bind fun w =>
        (delta true w (get d.mx d.meqn (fun t m => coarse.ef 2 t m 0) ic mq) (get d.mx d.meqn (coarse.gp 0) ic mq)).bind fun v =>
        add d q (ic, 1, mq) (v / coarse.area 2 ic)
      else
        (peek d td dummy sc ic my ic (my - 1) mq).bind fun w =>
        (delta false w (get d.mx d.meqn (fun t m => coarse.ef 3 t m 0) ic mq) (get d.mx d.meqn (coarse.gm 1) ic mq)).bind fun v =>
        add d q (ic, my, mq) (v / coarse.area 3 ic)) q

/-! ### Patches of the same size -/

/-- The loops that fill `qthis_dummy`, lines 584-601. -/
def fillSame (d : Dims) (nbr : Regs) (z : Grid ℚ) : Option (Grid ℚ) :=
  let (mx, my) := ((d.mx : ℤ), (d.my : ℤ))
  let gy := get d.my d.meqn
  let gx := get d.mx d.meqn
  doLoop 1 d.meqn (fun mq s =>
    (doLoop 1 my (fun j s =>
      (gy (nbr.fm 0) j mq).bind fun v => (wr d s (0, j, mq) v).bind fun s =>
      (gy (fun t m => nbr.ef 0 t m 1) j mq).bind fun v => (wr d s (-1, j, mq) v).bind fun s =>
      (gy (nbr.fp 1) j mq).bind fun v => (wr d s (mx + 1, j, mq) v).bind fun s =>
      (gy (fun t m => nbr.ef 1 t m 1) j mq).bind fun v => wr d s (mx + 2, j, mq) v) s).bind fun s =>
    doLoop 1 mx (fun i s =>
      (gx (nbr.gm 0) i mq).bind fun v => (wr d s (i, 0, mq) v).bind fun s =>
      (gx (fun t m => nbr.ef 2 t m 1) i mq).bind fun v => (wr d s (i, -1, mq) v).bind fun s =>
      (gx (nbr.gp 1) i mq).bind fun v => (wr d s (i, my + 1, mq) v).bind fun s =>
      (gx (fun t m => nbr.ef 3 t m 1) i mq).bind fun v => wr d s (i, my + 2, mq) v) s) z

/-- What the neighbour has for cell `(i, j)` and the one behind it. -/
def peekSame (d : Dims) (td : TData) (dummy : Grid ℚ) (sc : ℤ) (i j i' j' mq : ℤ) : Option (Option (ℚ × ℚ)) :=
  (clawFace d td i j).bind fun o =>
  (rd d dummy (o.1, o.2, mq)).bind fun f =>
  (clawFace d td i' j').bind fun o' =>
  (rd d dummy (o'.1, o'.2, mq)).bind fun e => some (some (f, sc * e))

/-- `clawpack46_fort_time_sync_samesize`, lines 519-697; `fc46_build_transform_samesize` is the same as
`fclaw2d_clawpatch_build_transform_same`. -/
def samesize (d : Dims) (td : TData) (iface : Nat) (this nbr : Regs) (q : Grid ℚ) : Option (Grid ℚ) :=
  let idir := iface / 2
  let (mx, my) := ((d.mx : ℤ), (d.my : ℤ))
  (buildTransformSame d td).bind fun A =>
  (fillSame d nbr fun _ => 0).bind fun dummy =>
  if idir = 0 then
    let sc := A.a11 + A.a21
    doLoop 1 d.meqn (fun mq => doLoop 1 my fun j q =>
      if iface = 0 then
        (peekSame d td dummy sc 1 j (1 + 1) j mq).bind fun w =>
        (delta true w (get d.my d.meqn (fun t m => this.ef 0 t m 0) j mq) (get d.my d.meqn (this.fp 0) j mq)).bind fun v =>
        add d q (1, j, mq) (1 / 2 * v / this.area 0 j)
      else
        (peekSame d td dummy sc mx j (mx - 1) j mq).bind fun w =>
        (delta false w (get d.my d.meqn (fun t m => this.ef 1 t m 0) j mq) (get d.my d.meqn (this.fm 1) j mq)).bind fun v =>
        add d q (mx, j, mq) (1 / 2 * v / this.area 1 j)) q
  else
    let sc := A.a12 + A.a22
    doLoop 1 d.meqn (fun mq => doLoop 1 mx fun i q =>
      if iface = 2 then
        (peekSame d td dummy sc i 1 i (1 + 1) mq).bind fun w =>
        (delta true w (get d.mx d.meqn (fun t m => this.ef 2 t m 0) i mq) (get d.mx d.meqn (this.gp 0) i mq)).bind fun v =>
        add d q (i, 1, mq) (1 / 2 * v / this.area 2 i)
      else
        (peekSame d td dummy sc i my i (my - 1) mq).bind fun w =>
        (delta false w (get d.mx d.meqn (fun t m => this.ef 3 t m 0) i mq) (get d.mx d.meqn (this.gm 1) i mq)).bind fun v =>
        add d q (i, my, mq) (1 / 2 * v / this.area 3 i)) q

end Fclaw.Correction
