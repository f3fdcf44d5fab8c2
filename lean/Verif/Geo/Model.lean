import Verif.CoarseFine.Model
/-
Model of the transfer of solutions between patches of different size in GeoClaw (shallow water over a
given ground):

* src/solvers/fc2d_geoclaw/fclaw2d_source/fc2d_geoclaw_average_fort.f: average_face, average_corner,
  average2coarse
* src/solvers/fc2d_geoclaw/fclaw2d_source/fc2d_geoclaw_interpolate_fort.f: interpolate_face,
  interpolate_corner, interpolate2fine
* src/solvers/fc2d_geoclaw/fc2d_geoclaw.cpp:501-582: the loops over the four children
* src/solvers/fc2d_geoclaw/fortran_source/geoclaw_b4step2_fort.f90:50-56: what is done to a patch
  before each step
* src/solvers/fc2d_geoclaw/fortran_source/geoclaw_qinit_fort.f90:18-22: the initial state

The components of a solution are the depth of the water and its momentum in both directions; the first
component of the auxiliary array is the height of the ground.

Simplifications: real numbers are rationals, without rounding; a division by zero is `none`. An array is
a function of its indices, an access outside of the bounds is `none` (C80 is about the memory layout; the
index order of GeoClaw is that of Clawpack 5). Patches that take part in an operation do not share memory.
Not modelled: branches for manifolds, which are never taken (`is_manifold = .false.`); with the option
`manifold` the callers stop the program. Moving ground (b4step2, lines 58-71) and added perturbations of
the initial state are not modelled.
-/
set_option autoImplicit false
namespace Fclaw.Geo

open Fort Transform CopyGhost Transfer CoarseFine

/-- `dry_tolerance`, `sea_level`, `mcapa` (the component of the auxiliary array that holds the capacity; 0
if there is none) and `maux`. -/
structure Params where
  dryTolerance : ℚ
  seaLevel : ℚ
  mcapa : ℤ
  maux : Nat

/-- Bounds of `aux(maux,1-mbc:mx+mbc,1-mbc:my+mbc)`. -/
def auxDims (d : Dims) (P : Params) : Dims := { d with meqn := P.maux }

/-- Reading `aux(m,i,j)`. -/
def rdAux (d : Dims) (P : Params) (aux : Grid ℚ) (m i j : ℤ) : Option ℚ := rd (auxDims d P) aux (i, j, m)

/-- `capa` and `capac`, average_fort.f:153-157 and 168-172. -/
def capacity (d : Dims) (P : Params) (aux : Grid ℚ) (i j : ℤ) : Option ℚ :=
  if P.mcapa = 0 then some 1 else rdAux d P aux P.mcapa i j

/-! ### Averaging -/

/-- `etasum`, `hsum`, `husum`, `hvsum`, `nwet`. -/
structure Sums where
  eta : ℚ
  h : ℚ
  hu : ℚ
  hv : ℚ
  nwet : ℤ

/-- The contribution of one fine cell, average_fort.f:168-188 (the same at lines 263-283, 429-449 and
559-579). -/
def addFine (d : Dims) (P : Params) (qfine auxFine : Grid ℚ) (i2 j2 : ℤ) (s : Sums) : Option Sums :=
  (capacity d P auxFine i2 j2).bind fun capa =>
  (rd d qfine (i2, j2, 1)).bind fun h =>
  (rdAux d P auxFine 1 i2 j2).bind fun b =>
  (rd d qfine (i2, j2, 2)).bind fun hu =>
  (rd d qfine (i2, j2, 3)).bind fun hv =>
  let hf := h * capa
  let bf := b * capa
  let huf := hu * capa
  let hvf := hv * capa
  if P.dryTolerance < hf then
    some ⟨s.eta + (hf + bf), s.h + hf, s.hu + huf, s.hv + hvf, s.nwet + 1⟩
  else some ⟨s.eta + 0, s.h + hf, s.hu + 0, s.hv + 0, s.nwet⟩

/-- Depth and momentum for a coarse cell from the four fine cells `c2 0, …, c2 3`, average_fort.f:153-207
(the same at lines 249-303, 415-468 and 545-598). -/
def averageCell (d : Dims) (P : Params) (auxCoarse auxFine qfine : Grid ℚ) (c2 : ℤ → ℤ × ℤ) (ic jc : ℤ) :
    Option (ℚ × ℚ × ℚ) :=
  (capacity d P auxCoarse ic jc).bind fun capac =>
  (doLoop 0 3 (fun m => addFine d P qfine auxFine (c2 m).1 (c2 m).2) ⟨0, 0, 0, 0, 0⟩).bind fun s =>
  (if 0 < s.nwet then
    (rdAux d P auxCoarse 1 ic jc).bind fun b =>
    let etaav := s.eta / s.nwet
    let hav := s.h / s.nwet
    let hc := min hav (max (etaav - b * capac) 0)
    (divide hc s.h).bind fun r => some (hc, r * s.hu, r * s.hv)
  else some (0, 0, 0)).bind fun w =>
  (divide w.1 capac).bind fun h =>
  (divide w.2.1 capac).bind fun hu =>
  (divide w.2.2 capac).bind fun hv => some (h, hu, hv)

/-- `qcoarse(1,ic,jc) = hc / capac`, …, average_fort.f:205-207. -/
def store (d : Dims) (ic jc : ℤ) (w : ℚ × ℚ × ℚ) (q : Grid ℚ) : Option (Grid ℚ) :=
  (wr d q (ic, jc, 1) w.1).bind fun q => (wr d q (ic, jc, 2) w.2.1).bind fun q => wr d q (ic, jc, 3) w.2.2

/-- The body of the loops of `average_face`, average_fort.f:105-209 and 223-312. -/
def averageFaceBody (d : Dims) (td : TData) (P : Params) (auxCoarse auxFine qfine : Grid ℚ) (ic jc : ℤ)
    (qcoarse : Grid ℚ) : Option (Grid ℚ) :=
  (clawFaceHalf d td ic jc).bind fun c2 =>
  if validAverage d (c2 0).1 (c2 0).2 && validAverage d (c2 1).1 (c2 1).2 &&
     validAverage d (c2 2).1 (c2 2).2 && validAverage d (c2 3).1 (c2 3).2 then
    (averageCell d P auxCoarse auxFine qfine c2 ic jc).bind fun w => store d ic jc w qcoarse
  else some qcoarse

/-- `fc2d_geoclaw_fort_average_face`, average_fort.f:33-317, with `idir = iface_coarse/2`. -/
def averageFace (d : Dims) (td : TData) (P : Params) (iface : Nat) (auxCoarse auxFine qfine qcoarse : Grid ℚ) :
    Option (Grid ℚ) :=
  if iface / 2 = 0 then
    doLoop 1 d.my (fun jc => doLoop 1 d.mbc fun ibc =>
      averageFaceBody d td P auxCoarse auxFine qfine (if iface = 0 then 1 - ibc else d.mx + ibc) jc) qcoarse
  else
    doLoop 1 d.mbc (fun jbc => doLoop 1 d.mx fun ic =>
      averageFaceBody d td P auxCoarse auxFine qfine ic (if iface = 2 then 1 - jbc else d.my + jbc)) qcoarse

/-- `fc2d_geoclaw_fort_average_corner`, average_fort.f:323-480. -/
def averageCorner (d : Dims) (td : TData) (P : Params) (icorner : Nat) (auxCoarse auxFine qfine qcoarse : Grid ℚ) :
    Option (Grid ℚ) :=
  doLoop 1 d.mbc (fun ibc => doLoop 1 d.mbc fun jbc => fun q =>
    let c1 := cornerCell d icorner ibc jbc
    (clawCornerHalf d td c1.1 c1.2).bind fun c2 =>
    (averageCell d P auxCoarse auxFine qfine c2 c1.1 c1.2).bind fun w => store d c1.1 c1.2 w q) qcoarse

/-- `fc2d_geoclaw_fort_average2coarse`, average_fort.f:482-602. -/
def average2coarse (d : Dims) (P : Params) (auxCoarse auxFine : Grid ℚ) (igrid : ℤ) (qfine qcoarse : Grid ℚ) :
    Option (Grid ℚ) :=
  let ig := igrid % 2
  let jg := (igrid - ig) / 2
  let ic_add := ig * d.mx / 2
  let jc_add := jg * d.my / 2
  doLoop 1 ((d.my : ℤ) / 2) (fun j => doLoop 1 ((d.mx : ℤ) / 2) fun i => fun q =>
    (averageCell d P auxCoarse auxFine qfine (fun m => (fineI i m, fineJ j m)) (i + ic_add) (j + jc_add)).bind
      fun w => store d (i + ic_add) (j + jc_add) w q) qcoarse

/-- `geoclaw_average2coarse`, fc2d_geoclaw.cpp:539-580. -/
def coarsen (d : Dims) (P : Params) (auxCoarse : Grid ℚ) (auxFine qfine : ℤ → Grid ℚ) (qcoarse : Grid ℚ) :
    Option (Grid ℚ) :=
  doLoop 0 3 (fun igrid => average2coarse d P auxCoarse (auxFine igrid) igrid (qfine igrid)) qcoarse

/-! ### Interpolation -/

/-- `etabarc`, interpolate_fort.f:126-136 (the same at lines 208-218, 352-362 and 457-467): the height of
the water around the coarse cell, or the sea level where there is none. -/
def surfaces (d : Dims) (P : Params) (qcoarse auxCoarse : Grid ℚ) (ic jc : ℤ) : Option (ℤ → ℤ → ℚ) :=
  doLoop (-1) 1 (fun ii => doLoop (-1) 1 fun jj => fun E =>
    (rd d qcoarse (ic + ii, jc + jj, 1)).bind fun h =>
    (rdAux d P auxCoarse 1 (ic + ii) (jc + jj)).bind fun b =>
    some fun x y => if x = ii ∧ y = jj then (if h < P.dryTolerance then P.seaLevel else h + b) else E x y)
    (fun _ _ => 0)

/-- Height of the water in the coarse cell, and limited differences, interpolate_fort.f:138-146 (the same at
lines 220-228, 364-372 and 472-480). -/
def surfaceSlopes (E : ℤ → ℤ → ℚ) : ℚ × ℚ × ℚ :=
  let qc := E 0 0
  (qc, computeSlopes (qc - E (-1) 0) (E 1 0 - qc), computeSlopes (qc - E 0 (-1)) (E 0 1 - qc))

/-- Depths in the four children of a coarse cell, interpolate_fort.f:147-153 (the same at lines 230-236
and 376-382). -/
def spreadDepth (d : Dims) (P : Params) (A : Matrix) (auxFine : Grid ℚ) (c2 : ℤ → ℤ × ℤ) (s : ℚ × ℚ × ℚ)
    (qfine : Grid ℚ) : Option (Grid ℚ) :=
  doLoop 0 3 (fun m => fun q =>
    let iff := (c2 0).1 + (df A m).1
    let jff := (c2 0).2 + (df A m).2
    (rdAux d P auxFine 1 iff jff).bind fun b =>
    wr d q (iff, jff, 1) (max (s.1 + s.2.1 * shiftHalf (m % 2) + s.2.2 * shiftHalf (m / 2) - b) 0)) qfine

/-- Component `mq` in the four children of a coarse cell, interpolate_fort.f:124-171 (the same at lines
207-253 and 351-399). -/
def spreadCell (d : Dims) (P : Params) (A : Matrix) (qcoarse auxCoarse auxFine : Grid ℚ) (c2 : ℤ → ℤ × ℤ)
    (mq ic jc : ℤ) (qfine : Grid ℚ) : Option (Grid ℚ) :=
  if mq = 1 then
    (surfaces d P qcoarse auxCoarse ic jc).bind fun E => spreadDepth d P A auxFine c2 (surfaceSlopes E) qfine
  else (slopes d qcoarse ic jc mq).bind fun s => CoarseFine.spreadCell d A c2 mq s qfine

/-- The body of the loops of `interpolate_face`, interpolate_fort.f:110-173 and 183-254. -/
def interpFaceBody (d : Dims) (td : TData) (P : Params) (A : Matrix) (qcoarse auxCoarse auxFine : Grid ℚ)
    (mq ic jc : ℤ) (qfine : Grid ℚ) : Option (Grid ℚ) :=
  (clawFaceHalf d td ic jc).bind fun c2 =>
  if validInterp d (c2 0).1 (c2 0).2 && validInterp d (c2 1).1 (c2 1).2 &&
     validInterp d (c2 2).1 (c2 2).2 && validInterp d (c2 3).1 (c2 3).2 then
    spreadCell d P A qcoarse auxCoarse auxFine c2 mq ic jc qfine
  else some qfine

/-- `fc2d_geoclaw_fort_interpolate_face`, interpolate_fort.f:24-259, with `idir = iface_coarse/2`. Note `mx`
as the bound of `jc` (line 109). -/
def interpolateFace (d : Dims) (td : TData) (P : Params) (iface : Nat) (qcoarse auxCoarse auxFine qfine : Grid ℚ) :
    Option (Grid ℚ) :=
  (buildTransform d td).bind fun A =>
  doLoop 1 d.meqn (fun mq =>
    if iface / 2 = 0 then
      doLoop 1 d.mx fun jc =>
        interpFaceBody d td P A qcoarse auxCoarse auxFine mq (if iface = 0 then 1 else d.mx) jc
    else
      doLoop 1 d.mx fun ic =>
        interpFaceBody d td P A qcoarse auxCoarse auxFine mq ic (if iface = 2 then 1 else d.my)) qfine

/-- `(ic, jc)` in `interpolate_corner`, interpolate_fort.f:330-342. -/
def innerCell (d : Dims) (icorner : Nat) : ℤ × ℤ :=
  if icorner = 0 then (1, 1)
  else if icorner = 1 then (d.mx, 1)
  else if icorner = 2 then (1, d.my)
  else (d.mx, d.my)

/-- `fc2d_geoclaw_fort_interpolate_corner`, interpolate_fort.f:261-403. -/
def interpolateCorner (d : Dims) (td : TData) (P : Params) (icorner : Nat)
    (qcoarse auxCoarse auxFine qfine : Grid ℚ) : Option (Grid ℚ) :=
  (buildTransform d td).bind fun A =>
  let c1 := innerCell d icorner
  (clawCornerHalf d td c1.1 c1.2).bind fun c2 =>
  doLoop 1 d.meqn (fun mq => spreadCell d P A qcoarse auxCoarse auxFine c2 mq c1.1 c1.2) qfine

/-- The body of the loops of `interpolate2fine`, interpolate_fort.f:454-575. Unlike for ghost cells, the
depth is not limited from below (lines 489-491). The sum `hfsum` is not used and not modelled. -/
def interpCell (d : Dims) (P : Params) (qcoarse auxCoarse auxFine : Grid ℚ) (mq ic jc i j : ℤ) (qfine : Grid ℚ) :
    Option (Grid ℚ) :=
  (surfaces d P qcoarse auxCoarse ic jc).bind fun E =>
  if mq = 1 then
    let s := surfaceSlopes E
    doLoop 1 2 (fun ii => doLoop 1 2 fun jj => fun q =>
      (rdAux d P auxFine 1 ((i - 1) * 2 + ii) ((j - 1) * 2 + jj)).bind fun b =>
      wr d q ((i - 1) * 2 + ii, (j - 1) * 2 + jj, 1) (s.1 + shift ii * s.2.1 + shift jj * s.2.2 - b)) qfine
  else
    (slopes d qcoarse ic jc mq).bind fun s =>
    doLoop 1 2 (fun ii => doLoop 1 2 fun jj => fun q =>
      wr d q ((i - 1) * 2 + ii, (j - 1) * 2 + jj, mq) (s.1 + shift ii * s.2.1 + shift jj * s.2.2)) qfine

/-- `fc2d_geoclaw_fort_interpolate2fine`, interpolate_fort.f:405-580. -/
def interpolate2fine (d : Dims) (P : Params) (auxCoarse auxFine : Grid ℚ) (igrid : ℤ) (qcoarse qfine : Grid ℚ) :
    Option (Grid ℚ) :=
  let ig := igrid % 2
  let jg := (igrid - ig) / 2
  let i1 := 1 - ig
  let i2 := (d.mx : ℤ) / 2 + (1 - ig)
  let ic_add := ig * d.mx / 2
  let j1 := 1 - jg
  let j2 := (d.my : ℤ) / 2 + (1 - jg)
  let jc_add := jg * d.my / 2
  doLoop 1 d.meqn (fun mq => doLoop i1 i2 fun i => doLoop j1 j2 fun j =>
    interpCell d P qcoarse auxCoarse auxFine mq (i + ic_add) (j + jc_add) i j) qfine

/-- `geoclaw_interpolate2fine`, fc2d_geoclaw.cpp:502-537. -/
def refine (d : Dims) (P : Params) (auxCoarse : Grid ℚ) (auxFine : ℤ → Grid ℚ) (qcoarse : Grid ℚ)
    (qfine : ℤ → Grid ℚ) : Option (ℤ → Grid ℚ) :=
  doLoop 0 3 (fun igrid fs =>
    (interpolate2fine d P auxCoarse (auxFine igrid) igrid qcoarse (fs igrid)).map fun q =>
      fun g => if g = igrid then q else fs g) qfine

/-! ### Before a step, and at the start -/

/-- Is this a cell of the patch, with its ghost cells? -/
def inPatch (d : Dims) (i j : ℤ) : Prop :=
  1 - (d.mbc : ℤ) ≤ i ∧ i ≤ d.mx + d.mbc ∧ 1 - (d.mbc : ℤ) ≤ j ∧ j ≤ d.my + d.mbc

instance (d : Dims) (i j : ℤ) : Decidable (inPatch d i j) := by unfold inPatch; infer_instance

/-- `fc2d_geoclaw_b4step2`, geoclaw_b4step2_fort.f90:53-56. A `FORALL` construct evaluates its mask first. -/
def beforeStep (d : Dims) (P : Params) (q : Grid ℚ) : Grid ℚ := fun c =>
  if inPatch d c.1 c.2.1 ∧ q (c.1, c.2.1, 1) < P.dryTolerance then
    if c.2.2 = 1 then max (q c) 0 else if c.2.2 = 2 ∨ c.2.2 = 3 then 0 else q c
  else q c

/-- `fc2d_geoclaw_qinit`, geoclaw_qinit_fort.f90:18-22. -/
def qinit (d : Dims) (P : Params) (aux q : Grid ℚ) : Grid ℚ := fun c =>
  if inPatch d c.1 c.2.1 ∧ 1 ≤ c.2.2 ∧ c.2.2 ≤ d.meqn then
    if c.2.2 = 1 then max 0 (P.seaLevel - aux (c.1, c.2.1, 1)) else 0
  else q c

end Fclaw.Geo
