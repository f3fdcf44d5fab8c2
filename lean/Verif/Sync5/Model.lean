import Verif.Conserve.Model
import Verif.Layout.Model
/-
Model of the conservative corrections with the solver of Clawpack 5 (2D):

* src/solvers/fc2d_clawpack5/fortran_source/clawpack5_time_sync.f,
* the update of the solution in src/solvers/fc2d_clawpack5/fortran_source/clawpack5_step2_wrap.f:94-113,
* the calls in src/solvers/fc2d_clawpack5/fc2d_clawpack5.cpp:243-364 and lines 475-476.

The solution, the auxiliary variables and the fluctuations are memory in the Clawpack 5 layout
(Verif/Layout/Model.lean). The registers are those of Verif/Correction/Model.lean. Each access to a register and to
an array goes through the declared bounds; outside of them the result is `none`.

The loops that store fluxes and fluctuations are the same for Clawpack 4.6 (clawpack46_time_sync.f:37-226), except for
the order of the indices of `q`, `aux`, `fp`, `fm`, `gp`, `gm`. They are written here for arrays of either layout.

Simplifications: real numbers are rationals, without rounding. A division by zero is `none`, except by an area in a
register (as in Verif/Correction). `blockno` and `patchno` are not used by the routines.
-/
set_option autoImplicit false
namespace Fclaw.Sync5

open Fort Transform CopyGhost Correction GhostFill TimeSync Conserve Layout
open Transfer (divide)

/-! ### Storing fluxes and fluctuations -/

/-- An array over cells and components, as a routine reads it: cell `(i, j)`, component `m`. -/
abbrev Read := ℤ → ℤ → ℤ → Option ℚ

/-- `a(m,i,j)`, Clawpack 5. -/
def read5 (d : Dims) (a : Mem ℚ) : Read := fun i j m => rd5 d a m i j

/-- `a(i,j,m)`, Clawpack 4.6. -/
def read46 (d : Dims) (a : Grid ℚ) : Read := fun i j m => rd d a (i, j, m)

/-- The bounds of `aux`. -/
def auxDims (d : Dims) (maux : Nat) : Dims := { d with meqn := maux }

/-- `v(m) = x`. -/
def upd (v : ℤ → ℚ) (m : ℤ) (x : ℚ) : ℤ → ℚ := fun m' => if m' = m then x else v m'

/-- `flux_face(t,m,k) = flux_face(t,m,k) + v`; the arrays are declared `(n,meqn,0:1)`,
clawpack5_time_sync.f:35-38. -/
def addEf (n meqn face : Nat) (t m k : ℤ) (v : ℚ) (r : Regs) : Option Regs :=
  if 1 ≤ t ∧ t ≤ n ∧ 1 ≤ m ∧ m ≤ meqn ∧ 0 ≤ k ∧ k ≤ 1 then
    some { r with ef := fun f t' m' k' =>
      if f = face ∧ t' = t ∧ m' = m ∧ k' = k then r.ef f t' m' k' + v else r.ef f t' m' k' }
  else none

/-- `el(t)`, declared `el(n)`, line 33. -/
def rdEl (n face : Nat) (t : ℤ) (r : Regs) : Option ℚ := if 1 ≤ t ∧ t ≤ n then some (r.el face t) else none

/-- The body of the loops over `k`, lines 51-73, 76-93, 100-117 and 120-137: `c` is the cell, `e` the one that has the
values of the edge. `junk` is what the work arrays hold before they are filled. -/
def storeSide (meqn maux n : Nat) (q aux : Read) (junk : ℤ → ℚ) (rpn : Rpn) (dt : ℚ) (face idir : Nat) (iface k t : ℤ)
    (c e : ℤ × ℤ) (r : Regs) : Option Regs :=
  (doLoop 1 maux (fun m (v : (ℤ → ℚ) × (ℤ → ℚ)) =>
    (aux c.1 c.2 m).bind fun x => (aux e.1 e.2 m).bind fun y => some (upd v.1 m x, upd v.2 m y)) (junk, junk)).bind fun a =>
  (doLoop 1 meqn (fun m v => (q c.1 c.2 m).bind fun x => some (upd v m x)) junk).bind fun qvec =>
  let flux := rpn idir iface.toNat qvec a.1 a.2
  doLoop 1 meqn (fun m r => (rdEl n face t r).bind fun el => addEf n meqn face t m k (dt * el * flux m) r) r

/-- `clawpack5_time_sync_store_flux`, lines 23-140 (clawpack46_time_sync.f:37-156). -/
def storeFluxLoops (d : Dims) (maux : Nat) (q aux : Read) (junk : ℤ → ℚ) (rpn : Rpn) (dt : ℚ) (r : Regs) : Option Regs :=
  let (mx, my) := ((d.mx : ℤ), (d.my : ℤ))
  (doLoop 1 my (fun j r =>
    (doLoop 0 1 (fun k => storeSide d.meqn maux d.my q aux junk rpn dt 0 0 k k j (1 - k, j) (1, j)) r).bind fun r =>
    doLoop 0 1 (fun k => storeSide d.meqn maux d.my q aux junk rpn dt 1 0 (1 - k) k j (mx + k, j) (mx + 1, j)) r) r).bind fun r =>
  doLoop 1 mx (fun i r =>
    (doLoop 0 1 (fun k => storeSide d.meqn maux d.mx q aux junk rpn dt 2 1 (k + 2) k i (i, 1 - k) (i, 1)) r).bind fun r =>
    doLoop 0 1 (fun k => storeSide d.meqn maux d.mx q aux junk rpn dt 3 1 (3 - k) k i (i, my + k) (i, my + 1)) r) r

/-- Element `(t,m)` of array number `side`, plus `v`; the arrays are declared `(n,meqn)`, lines 167-171. -/
def addReg (n meqn side : Nat) (t m : ℤ) (v : ℚ) (a : Nat → ℤ → ℤ → ℚ) : Option (Nat → ℤ → ℤ → ℚ) :=
  if 1 ≤ t ∧ t ≤ n ∧ 1 ≤ m ∧ m ≤ meqn then
    some fun s t' m' => if s = side ∧ t' = t ∧ m' = m then a s t' m' + v else a s t' m'
  else none

/-- One assignment in lines 188-206 to an element of `fp_left` or `fp_right` (`side` 0 or 1); … -/
def addFp (d : Dims) (side : Nat) (j m : ℤ) (v : ℚ) (r : Regs) : Option Regs :=
  (addReg d.my d.meqn side j m v r.fp).bind fun a => some { r with fp := a }
/-- … `fm_left`, `fm_right`; … -/
def addFm (d : Dims) (side : Nat) (j m : ℤ) (v : ℚ) (r : Regs) : Option Regs :=
  (addReg d.my d.meqn side j m v r.fm).bind fun a => some { r with fm := a }
/-- … `gp_bottom`, `gp_top`; … -/
def addGp (d : Dims) (side : Nat) (i m : ℤ) (v : ℚ) (r : Regs) : Option Regs :=
  (addReg d.mx d.meqn side i m v r.gp).bind fun a => some { r with gp := a }
/-- … `gm_bottom`, `gm_top`. -/
def addGm (d : Dims) (side : Nat) (i m : ℤ) (v : ℚ) (r : Regs) : Option Regs :=
  (addReg d.mx d.meqn side i m v r.gm).bind fun a => some { r with gm := a }

/-- `clawpack5_time_sync_accumulate_waves`, lines 147-210 (clawpack46_time_sync.f:163-226), with the registers that
fc2d_clawpack5.cpp:343-353 passes. -/
def accumulateLoops (d : Dims) (dx dy dt : ℚ) (fp fm gp gm : Read) (r : Regs) : Option Regs :=
  let (mx, my) := ((d.mx : ℤ), (d.my : ℤ))
  (doLoop 1 my (fun j => doLoop 1 d.meqn fun m r =>
    ((fp 1 j m).bind fun x => addFp d 0 j m (-(dt * dy * x)) r).bind fun r =>
    ((fm 1 j m).bind fun x => addFm d 0 j m (dt * dy * x) r).bind fun r =>
    ((fp (mx + 1) j m).bind fun x => addFp d 1 j m (-(dt * dy * x)) r).bind fun r =>
    (fm (mx + 1) j m).bind fun x => addFm d 1 j m (dt * dy * x) r) r).bind fun r =>
  doLoop 1 mx (fun i => doLoop 1 d.meqn fun m r =>
    ((gp i 1 m).bind fun x => addGp d 0 i m (-(dt * dx * x)) r).bind fun r =>
    ((gm i 1 m).bind fun x => addGm d 0 i m (dt * dx * x) r).bind fun r =>
    ((gp i (my + 1) m).bind fun x => addGp d 1 i m (-(dt * dx * x)) r).bind fun r =>
    (gm i (my + 1) m).bind fun x => addGm d 1 i m (dt * dx * x) r) r

/-! ### A step -/

/-- `fp`, `fm`, `gp`, `gm` of `clawpack5_step2_wrap`. -/
structure Waves5 where
  fp : Mem ℚ
  fm : Mem ℚ
  gp : Mem ℚ
  gm : Mem ℚ

/-- `qold(m,i,j) = qold(m,i,j) + v`. -/
def add5 (d : Dims) (q : Mem ℚ) (c : Cell) (v : ℚ) : Option (Mem ℚ) :=
  (rd5 d q c.2.2 c.1 c.2.1).bind fun x => wr5 d q c.2.2 c.1 c.2.1 (x + v)

/-- The update at the end of `clawpack5_step2_wrap`, lines 94-113. -/
def updateQ5 (d : Dims) (maux mcapa : Nat) (dx dy dt : ℚ) (aux : Mem ℚ) (w : Waves5) (q : Mem ℚ) : Option (Mem ℚ) :=
  (divide dt dx).bind fun dtdx => (divide dt dy).bind fun dtdy =>
  doLoop 1 d.meqn (fun m => doLoop 1 d.mx fun i => doLoop 1 d.my fun j q =>
    (rd5 d w.fm m (i + 1) j).bind fun fm => (rd5 d w.fp m i j).bind fun fp =>
    (rd5 d w.gm m i (j + 1)).bind fun gm => (rd5 d w.gp m i j).bind fun gp =>
    if mcapa = 0 then add5 d q (i, j, m) (-(dtdx * (fm - fp)) - dtdy * (gm - gp))
    else
      (rd5 (auxDims d maux) aux mcapa i j).bind fun capa =>
      (divide (dtdx * (fm - fp) + dtdy * (gm - gp)) capa).bind fun v => add5 d q (i, j, m) (-v)) q

/-- `clawpack5_step2`, fc2d_clawpack5.cpp:243-364, with `flux_correction` and `fluctuation_correction`: fluxes are
stored before the update and fluctuations after it. The fluctuations `w` are those that the solver computes from the
solution (Verif/Wave5). -/
def step5 (d : Dims) (maux mcapa : Nat) (junk : ℤ → ℚ) (rpn : Rpn) (dx dy dt : ℚ) (aux : Mem ℚ) (w : Waves5) (q : Mem ℚ)
    (r : Regs) : Option (Mem ℚ × Regs) :=
  (storeFluxLoops d maux (read5 d q) (read5 (auxDims d maux) aux) junk rpn dt r).bind fun r =>
  (updateQ5 d maux mcapa dx dy dt aux w q).bind fun q =>
  (accumulateLoops d dx dy dt (read5 d w.fp) (read5 d w.fm) (read5 d w.gp) (read5 d w.gm) r).bind fun r => some (q, r)

/-! ### Corrections -/

/-- `fc5_is_valid_correct`, lines 663-676. -/
def isValidCorrect5 (d : Dims) (c : ℤ × ℤ) : Bool :=
  Bool.xor (decide (1 ≤ c.1) && decide (c.1 ≤ d.mx)) (decide (1 ≤ c.2) && decide (c.2 ≤ d.my))

/-- `fc5_skip_this_grid`, lines 644-660. -/
def skipThisGrid5 (d : Dims) (o : Nat → ℤ × ℤ) : Bool := (List.range 4).any fun m => !isValidCorrect5 d (o m)

/-- What the neighbour has for coarse cell `(i, j)` (fluctuation) and the one behind it (flux, with its sign), or
nothing if the cell is to be skipped, lines 370-384 and similar. -/
def peek5 (d : Dims) (td : TData) (dummy : Grid ℚ) (sc : ℤ) (i j i' j' mq : ℤ) : Option (Option (ℚ × ℚ)) :=
  (clawHalf d td i j).bind fun o =>
  if skipThisGrid5 d o then some none
  else
    (rd (wide d) dummy ((o 0).1, (o 0).2, mq)).bind fun f =>
    (clawHalf d td i' j').bind fun o' =>
    (rd (wide d) dummy ((o' 0).1, (o' 0).2, mq)).bind fun e => some (some (f, sc * e))

/-- `clawpack5_fort_time_sync_f2c`, lines 216-459. The loops that fill `qfine_dummy` (lines 312-356) are those of
Clawpack 4.6, in the same layout: `fillDummy`. The caller allocates the dummy array with zeros. `stop` is `none`. -/
def f2c5 (d : Dims) (td : TData) (iface : Nat) (match' : ℤ) (coarse fine : Regs) (q : Mem ℚ) : Option (Mem ℚ) :=
  let idir := iface / 2
  let (mx, my) := ((d.mx : ℤ), (d.my : ℤ))
  (buildTransform d td).bind fun A =>
  let sc := if idir = 0 then (A.a11 + A.a21).tdiv 2 else (A.a12 + A.a22).tdiv 2
  if sc ≠ (if match' = 0 then -1 else 1) then none
  else
  (fillDummy d fine fun _ => 0).bind fun dummy =>
  if idir = 0 then
    doLoop 1 d.meqn (fun mq => doLoop 1 my fun jc q =>
      if iface = 0 then
        (peek5 d td dummy sc 1 jc (1 + 1) jc mq).bind fun w =>
        (delta true w (get d.my d.meqn (fun t m => coarse.ef 0 t m 0) jc mq) (get d.my d.meqn (coarse.fp 0) jc mq)).bind fun v =>
        add5 d q (1, jc, mq) (v / coarse.area 0 jc)
      else
        (peek5 d td dummy sc mx jc (mx - 1) jc mq).bind fun w =>
        (delta false w (get d.my d.meqn (fun t m => coarse.ef 1 t m 0) jc mq) (get d.my d.meqn (coarse.fm 1) jc mq)).bind fun v =>
        add5 d q (mx, jc, mq) (v / coarse.area 1 jc)) q
  else
    doLoop 1 d.meqn (fun mq => doLoop 1 mx fun ic q =>
      if iface = 2 then
        (peek5 d td dummy sc ic 1 ic (1 + 1) mq).bind fun w =>
        (delta true w (get d.mx d.meqn (fun t m => coarse.ef 2 t m 0) ic mq) (get d.mx d.meqn (coarse.gp 0) ic mq)).bind fun v =>
        add5 d q (ic, 1, mq) (v / coarse.area 2 ic)
      else
        (peek5 d td dummy sc ic my ic (my - 1) mq).bind fun w =>
        (delta false w (get d.mx d.meqn (fun t m => coarse.ef 3 t m 0) ic mq) (get d.mx d.meqn (coarse.gm 1) ic mq)).bind fun v =>
        add5 d q (ic, my, mq) (v / coarse.area 3 ic)) q

/-- `clawpack5_fort_time_sync_samesize`, lines 466-642. The loops that fill `qthis_dummy` (lines 542-559) are those of
Clawpack 4.6: `fillSame`. `fc5_build_transform_samesize` (lines 679-720) is the same as
`fclaw2d_clawpatch_build_transform_same`. -/
def samesize5 (d : Dims) (td : TData) (iface : Nat) (this nbr : Regs) (q : Mem ℚ) : Option (Mem ℚ) :=
  let idir := iface / 2
  let (mx, my) := ((d.mx : ℤ), (d.my : ℤ))
  (buildTransformSame d td).bind fun A =>
  (fillSame d nbr fun _ => 0).bind fun dummy =>
  if idir = 0 then
    let sc := A.a11 + A.a21
    doLoop 1 d.meqn (fun mq => doLoop 1 my fun j q =>
      if iface = 0 then
        (peekSame d td dummy sc 1 j (1 + 1) j mq).bind fun w =>
        (delta true w (get d.my d.meqn (fun t m => this.ef 0 t m 0) j mq) (get d.my d.meqn (this.fp 0) j mq)).bind fun v =>
        add5 d q (1, j, mq) (1 / 2 * v / this.area 0 j)
      else
        (peekSame d td dummy sc mx j (mx - 1) j mq).bind fun w =>
        (delta false w (get d.my d.meqn (fun t m => this.ef 1 t m 0) j mq) (get d.my d.meqn (this.fm 1) j mq)).bind fun v =>
        add5 d q (mx, j, mq) (1 / 2 * v / this.area 1 j)) q
  else
    let sc := A.a12 + A.a22
    doLoop 1 d.meqn (fun mq => doLoop 1 mx fun i q =>
      if iface = 2 then
        (peekSame d td dummy sc i 1 i (1 + 1) mq).bind fun w =>
        (delta true w (get d.mx d.meqn (fun t m => this.ef 2 t m 0) i mq) (get d.mx d.meqn (this.gp 0) i mq)).bind fun v =>
        add5 d q (i, 1, mq) (1 / 2 * v / this.area 2 i)
      else
        (peekSame d td dummy sc i my i (my - 1) mq).bind fun w =>
        (delta false w (get d.mx d.meqn (fun t m => this.ef 3 t m 0) i mq) (get d.mx d.meqn (this.gm 1) i mq)).bind fun v =>
        add5 d q (i, my, mq) (1 / 2 * v / this.area 3 i)) q

/-! ### Synchronisation -/

/-- What a process has in memory: registers and solutions of its patches and of its ghost patches. -/
structure PState5 where
  reg : Nat → Regs
  q : Nat → Mem ℚ

/-- One step of a synchronisation (src/fclaw2d_face_neighbors.c:334-346, 367-412, and
src/patches/clawpatch/fclaw2d_clawpatch_conservation.c:206-277, as in Verif/Conserve/Model.lean), with the routines of
Clawpack 5. -/
def act5 (d : Dims) (M : Mesh) (L : Links) (s : PState5) : Step → Option PState5
  | .use x f y _ =>
    (match M.face x f with
      | .half _ _ _ => f2c5 d (L.td x f y) f (normalMatch f (L.qtfi x f)) (s.reg x) (s.reg y) (s.q x)
      | .same _ _ => samesize5 d (L.td x f y) f (s.reg x) (s.reg y) (s.q x)
      | _ => none).bind fun g => some { s with q := fun z => if z = x then g else s.q z }
  | .clear x f => some { s with reg := fun z => if z = x then clearFace (s.reg x) f else s.reg z }

/-- All steps of a synchronisation by one process. -/
def actAll5 (d : Dims) (M : Mesh) (L : Links) (s : PState5) : List Step → Option PState5
  | [] => some s
  | a :: ss => (act5 d M L s a).bind fun s' => actAll5 d M L s' ss

/-- `fclaw2d_time_sync` on process `p`. -/
def syncProcess5 (d : Dims) (M : Mesh) (L : Links) (p : Nat) (minl top : Int) (s : PState5) : Option PState5 :=
  actAll5 d M L s (timeSync M p minl top)

end Fclaw.Sync5
