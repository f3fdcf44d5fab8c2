import Verif.Fort.Basic
import Verif.Transfer.Model
/-
The elliptic solver of src/solvers/fc2d_thunderegg: the operators that ForestClaw hands to the multigrid library
ThunderEgg, and the routine that puts inhomogeneous boundary conditions into the right-hand side.

The library itself (the iteration, the ghost filler, the levels) is not part of ForestClaw and not modelled. What
ForestClaw provides for it are three functions per operator, each for a single patch; ThunderEgg documents what it
expects of them (`PatchOperator`).

A `PatchView` is an array with indices `(i, j, m)` from 0, ghost cells at negative indices: the element `u(i,j,m)` is
here the element `(i+1, j+1, m+1)` of a `Grid`. Numbers are rational.
-/
set_option autoImplicit false
namespace Fclaw.Elliptic

open Fort
open Transfer (divide)

/-- What the functions use of `PatchInfo`: the number of cells and of layers of ghost cells, the number of fields
(`u.getEnd()[2]+1`), the sizes of the cells (`spacings`) and on which sides (0 west, 1 east, 2 south, 3 north) there is a
neighbour (`hasNbr`). -/
structure Info where
  d : Dims
  dx : ℚ
  dy : ℚ
  nbr : Nat → Bool

/-- The operators: operators/fc2d_thunderegg_fivepoint.cpp:54-84, operators/fc2d_thunderegg_varpoisson.cpp:63-101 with
the coefficient `beta` on this patch (component 0 of a vector, whose ghost cells have been filled), and
operators/fc2d_thunderegg_heat.cpp:54-115 with the number `lambda` and the option `boundary_conditions`. -/
inductive Op where
  | fivePoint
  | varPoisson (beta : Grid ℚ)
  | heat (lambda : ℚ) (bc : Nat → ℤ)

/-- The factor for ghost cells at a physical boundary: `-1` (fivepoint.cpp:158, varpoisson.cpp:181), or `s[m]`
(heat.cpp:108-113). -/
def Op.sign : Op → Nat → ℚ
  | .heat _ bc, k => 2 * (bc k : ℚ) - 3
  | _, _ => -1

/-- `u(i,j,m)`. -/
def at' (I : Info) (u : Grid ℚ) (i j m : ℤ) : Option ℚ := rd I.d u (i + 1, j + 1, m + 1)

/-- `f(i,j,m) = v`. -/
def set' (I : Info) (f : Grid ℚ) (i j m : ℤ) (v : ℚ) : Option (Grid ℚ) := wr I.d f (i + 1, j + 1, m + 1) v

/-- Along a side: `ghosts(j,m) = s*u(0,j,m)` and so on, where `ghosts` is the layer of ghost cells next to the patch
(`getGhostSliceOn(side,{0})`). fivepoint.cpp:96-127 and 154-186; the same in varpoisson.cpp:112-151, 175-214 and
heat.cpp:126-163, 187-224. -/
def fillSide (I : Info) (s : ℚ) : Nat → Grid ℚ → Option (Grid ℚ)
  | 0 => doLoop 0 (I.d.meqn - 1) fun m => doLoop 0 (I.d.my - 1) fun j u =>
      (at' I u 0 j m).bind fun v => set' I u (-1) j m (s * v)
  | 1 => doLoop 0 (I.d.meqn - 1) fun m => doLoop 0 (I.d.my - 1) fun j u =>
      (at' I u (I.d.mx - 1) j m).bind fun v => set' I u I.d.mx j m (s * v)
  | 2 => doLoop 0 (I.d.meqn - 1) fun m => doLoop 0 (I.d.mx - 1) fun i u =>
      (at' I u i 0 m).bind fun v => set' I u i (-1) m (s * v)
  | _ => doLoop 0 (I.d.meqn - 1) fun m => doLoop 0 (I.d.mx - 1) fun i u =>
      (at' I u i (I.d.my - 1) m).bind fun v => set' I u i I.d.my m (s * v)

/-- All sides for which `on` holds, in the order of the code. -/
def fillSides (I : Info) (on : Nat → Bool) (s : Nat → ℚ) (u : Grid ℚ) : Option (Grid ℚ) :=
  loop [0, 1, 2, 3] (fun k u => if on k then fillSide I (s k) k u else some u) u

/-- The value for `f(i,j,m)`: fivepoint.cpp:188-200, heat.cpp:226-242, varpoisson.cpp:217-231. -/
def stencil (I : Info) (op : Op) (u : Grid ℚ) (i j m : ℤ) : Option ℚ :=
  (at' I u i j m).bind fun uij =>
  (at' I u (i - 1) j m).bind fun uw =>
  (at' I u (i + 1) j m).bind fun ue =>
  (at' I u i (j - 1) m).bind fun us =>
  (at' I u i (j + 1) m).bind fun un =>
  match op with
  | .fivePoint =>
    (divide (ue - 2 * uij + uw) (I.dx * I.dx)).bind fun a =>
    (divide (un - 2 * uij + us) (I.dy * I.dy)).bind fun b => some (a + b)
  | .heat lambda _ =>
    (divide (ue - 2 * uij + uw) (I.dx * I.dx)).bind fun a =>
    (divide (un - 2 * uij + us) (I.dy * I.dy)).bind fun b => some (a + b + lambda * uij)
  | .varPoisson beta =>
    (at' I beta i j 0).bind fun b =>
    (at' I beta (i - 1) j 0).bind fun bw =>
    (at' I beta (i + 1) j 0).bind fun be =>
    (at' I beta i (j - 1) 0).bind fun bs =>
    (at' I beta i (j + 1) 0).bind fun bn =>
    (divide ((be + b) * (ue - uij) - (b + bw) * (uij - uw)) (2 * I.dx * I.dx)).bind fun x =>
    (divide ((bn + b) * (un - uij) - (b + bs) * (uij - us)) (2 * I.dy * I.dy)).bind fun y => some (x + y)

/-- The assertion `lambda <= 0` (heat.cpp:104, 229). -/
def Op.check : Op → Bool
  | .heat lambda _ => decide (lambda ≤ 0)
  | _ => true

/-- `applySinglePatch`: fivepoint.cpp:131-218, varpoisson.cpp:153-265, heat.cpp:165-259. The ghost cells of `u` change.
The result is `none` if an access is out of bounds, if a division is by zero or if the assertion fails. -/
def applySinglePatch (I : Info) (op : Op) (u f : Grid ℚ) : Option (Grid ℚ × Grid ℚ) :=
  (fillSides I (fun k => !I.nbr k) op.sign u).bind fun u =>
  if !op.check then none else
  (doLoop 0 (I.d.meqn - 1) (fun m => doLoop 0 (I.d.my - 1) fun j => doLoop 0 (I.d.mx - 1) fun i f =>
    (stencil I op u i j m).bind fun v => set' I f i j m v) f).bind fun f => some (u, f)

/-- `applySinglePatchWithInternalBoundaryConditions`: fivepoint.cpp:88-130, varpoisson.cpp:103-152, heat.cpp:117-164. -/
def applyInternal (I : Info) (op : Op) (u f : Grid ℚ) : Option (Grid ℚ × Grid ℚ) :=
  (fillSides I I.nbr (fun _ => -1) u).bind fun u => applySinglePatch I op u f

/-- The coefficient in front of `-(u(-1,j,m)+u(0,j,m))`: 1 (fivepoint.cpp:247, heat.cpp:289), or the mean of `beta` on both
sides (varpoisson.cpp:294-295, 306-307). -/
def faceCoeff (I : Info) (op : Op) (i j i' j' : ℤ) : Option ℚ :=
  match op with
  | .varPoisson beta => (at' I beta i j 0).bind fun b => (at' I beta i' j' 0).bind fun b' => some ((b + b') / 2)
  | _ => some 1

/-- `f(i,j,m) += -b*(u(i,j,m)+u(i',j',m))/h2`. -/
def addFace (I : Info) (op : Op) (u : Grid ℚ) (i j i' j' m : ℤ) (h2 : ℚ) (f : Grid ℚ) : Option (Grid ℚ) :=
  (faceCoeff I op i j i' j').bind fun b =>
  (at' I u i j m).bind fun v =>
  (at' I u i' j' m).bind fun v' =>
  (divide (-b * (v + v')) h2).bind fun x =>
  (at' I f i j m).bind fun y => set' I f i j m (y + x)

/-- `modifyRHSForInternalBoundaryConditions`: fivepoint.cpp:221-262, varpoisson.cpp:268-315, heat.cpp:262-327. In
varpoisson.cpp the coefficients are read even on sides without a neighbour; that changes nothing. -/
def modifyRhs (I : Info) (op : Op) (u f : Grid ℚ) : Option (Grid ℚ) :=
  doLoop 0 (I.d.meqn - 1) (fun m f =>
    (doLoop 0 (I.d.my - 1) (fun j f =>
      (if I.nbr 0 then addFace I op u 0 j (-1) j m (I.dx * I.dx) f else some f).bind fun f =>
      if I.nbr 1 then addFace I op u (I.d.mx - 1) j I.d.mx j m (I.dx * I.dx) f else some f) f).bind fun f =>
    doLoop 0 (I.d.mx - 1) (fun i f =>
      (if I.nbr 2 then addFace I op u i 0 i (-1) m (I.dy * I.dy) f else some f).bind fun f =>
      if I.nbr 3 then addFace I op u i (I.d.my - 1) i I.d.my m (I.dy * I.dy) f else some f) f) f

/-! ### Inhomogeneous boundary conditions -/

/-- The state of fort_4.6/thunderegg_apply_bc_default.f90: the array `q`, the right-hand side, and the variables `a` and
`b`, which have no value at first. -/
structure BcState where
  q : Grid ℚ
  rhs : Grid ℚ
  ab : Option (ℚ × ℚ)

/-- thunderegg_apply_bc_default.f90:26-87: the ghost cells of `q` along face `iface` get `g/d`. `g iface i` is the value of
the boundary function at cell `i` of the face (the coordinates of the face's points are left out). -/
def bcFill (I : Info) (bctype : Nat → ℤ) (g : Nat → ℤ → ℚ) (iface : Nat) (s : BcState) : Option BcState :=
  let ab := if bctype iface = 1 then some (1, 0) else if bctype iface = 2 then some (0, 1) else s.ab
  ab.bind fun ab =>
  let h := if iface / 2 = 0 then I.dx else I.dy
  (divide ab.2 h).bind fun bh =>
  let d := ab.1 / 2 + bh
  if d = 0 then none else
  (if iface = 0 then doLoop 1 I.d.my (fun j q => (divide (g iface j) d).bind fun v => wr I.d q (0, j, 1) v) s.q
   else if iface = 1 then
    doLoop 1 I.d.my (fun j q => (divide (g iface j) d).bind fun v => wr I.d q (I.d.mx + 1, j, 1) v) s.q
   else if iface = 2 then
    doLoop 1 I.d.mx (fun i q => (divide (g iface i) d).bind fun v => wr I.d q (i, 0, 1) v) s.q
   else
    doLoop 1 I.d.mx (fun i q => (divide (g iface i) d).bind fun v => wr I.d q (i, I.d.my + 1, 1) v) s.q).bind fun q =>
  some { s with q := q, ab := some ab }

/-- thunderegg_apply_bc_default.f90:94-102: `rhs = rhs - qlap`. -/
def bcSubtract (I : Info) (q rhs : Grid ℚ) : Option (Grid ℚ) :=
  doLoop 1 I.d.mx (fun i => doLoop 1 I.d.my fun j rhs =>
    (rd I.d q (i, j, 1)).bind fun qc =>
    (rd I.d q (i - 1, j, 1)).bind fun qw =>
    (rd I.d q (i + 1, j, 1)).bind fun qe =>
    (rd I.d q (i, j - 1, 1)).bind fun qs =>
    (rd I.d q (i, j + 1, 1)).bind fun qn =>
    (divide (qw - 2 * qc + qe) (I.dx * I.dx)).bind fun a =>
    (divide (qs - 2 * qc + qn) (I.dy * I.dy)).bind fun b =>
    (rd I.d rhs (i, j, 1)).bind fun r => wr I.d rhs (i, j, 1) (r - (a + b))) rhs

/-- `thunderegg_fort_apply_bc_default`: fort_4.6/thunderegg_apply_bc_default.f90:1-107. `bdry` is `intersects_bc`; the
right-hand side has one field. -/
def applyBc (I : Info) (bdry : Nat → Bool) (bctype : Nat → ℤ) (g : Nat → ℤ → ℚ) (rhs : Grid ℚ) : Option (Grid ℚ) :=
  (loop [0, 1, 2, 3] (fun iface (s : BcState) =>
    if bdry iface then
      (bcFill I bctype g iface s).bind fun s => (bcSubtract I s.q s.rhs).bind fun rhs => some { s with rhs := rhs }
    else some s) ⟨fun _ => 0, rhs, none⟩).bind fun s => some s.rhs

end Fclaw.Elliptic
