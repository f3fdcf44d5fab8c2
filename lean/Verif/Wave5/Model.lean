import Verif.Wave.Model
/-
A time step of a patch with the solver of Clawpack 5 (C81): clawpack5_step2_wrap.f, clawpack5_step2.f90,
clawpack5_flux2.f and clawpack5_inlinelimiter.f in /repo/src/solvers/fc2d_clawpack5/fortran_source.

The memory, the options and the Riemann solvers are those of `Verif.Wave`; that the arrays have the components
first is a matter of `Verif.Layout` and does not show here, since elements are named by their indices. The bounds of
the arrays (clawpack5_step2.f90:24-54, clawpack5_flux2.f:63-79) are the same. Some loops are the same as in the
routines for Clawpack 4.6; the programs of `Verif.Wave` are used for these, with the lines they stand for here.

Simplifications: numbers are rational, as in `Verif.Wave`. The options in clawpack5_amr_module are those that are
passed as arguments (fc2d_clawpack5_options.c:90-103 copies them). The argument `flux2` is not used by the routines.
The call in clawpack5_step2_wrap.f:90-92 passes one argument more (`ierror`) than clawpack5_step2 has; this is not
modelled. The common block is left out.
-/
set_option autoImplicit false
namespace Fclaw.Wave5

open Wave
open Fort (doLoop loop range mem_range)

/-! ### Limiter -/

/-- `go to (10,20,30,40,50) mthlim(mw)`, clawpack5_inlinelimiter.f:59-95. A number that is not in the list goes on
with the next statement, label 10. -/
def wlimitr5 (mth : ℤ) (r : ℚ) : ℚ :=
  if mth = 2 then max (max 0 (min 1 (2 * r))) (min 2 r)
  else if mth = 3 then (r + |r|) / (1 + |r|)
  else if mth = 4 then max 0 (min (min ((1 + r) / 2) 2) (2 * r))
  else if mth = 5 then r
  else max 0 (min 1 r)

/-- One edge, clawpack5_inlinelimiter.f:43-103; `dots` are the lines 43-49. -/
def limitEdge5 (z : Shape) (o : Method) (mw i : ℤ) (st : ℚ × Mem) : Option (ℚ × Mem) :=
  (dots z mw i st.2).bind fun d =>
  if i = 0 then some (d.2, st.2)
  else if d.1 = 0 then some (d.2, st.2)
  else (rd z (.s i mw) st.2).bind fun s =>
    let r := if 0 < s then st.1 / d.1 else d.2 / d.1
    (doLoop 1 z.meqn (fun m => asg z (.wave i m mw) (.lit (wlimitr5 (o.lim mw) r) * rd z (.wave i m mw))) st.2).bind
      fun M => some (d.2, M)

/-- `clawpack5_inlinelimiter`, lines 39-106. -/
def inlinelimiter5 (z : Shape) (o : Method) (n : ℤ) : Prog :=
  doLoop 1 z.mwaves fun mw M =>
    if o.lim mw = 0 then some M
    else (doLoop 0 (n + 1) (limitEdge5 z o mw) (0, M)).bind fun st => some st.2

/-! ### Fluxes of a slice -/

/-- clawpack5_flux2.f:101-110. -/
def clear5 (z : Shape) (n : ℤ) : Prog :=
  doLoop (1 - z.mbc) (n + z.mbc) fun i => doLoop 1 z.meqn fun m =>
    seq [asg z (.faddm i m) (.lit 0), asg z (.faddp i m) (.lit 0),
      asg z (.gaddm i m 1) (.lit 0), asg z (.gaddp i m 1) (.lit 0),
      asg z (.gaddm i m 2) (.lit 0), asg z (.gaddp i m 2) (.lit 0)]

/-- clawpack5_flux2.f:203-213. -/
def spillLeft5 (z : Shape) (n : ℤ) (dtdx1d : ℤ → Loc) : Prog :=
  doLoop 1 (n + 1) fun i => doLoop 1 z.meqn fun m =>
    seq [gupdate z (dtdx1d (i - 1)) (.bmasdq i m) (i - 1) m 1, gupdate z (dtdx1d (i - 1)) (.bpasdq i m) (i - 1) m 2]

/-- clawpack5_flux2.f:221-231. -/
def spillRight5 (z : Shape) (n : ℤ) (dtdx1d : ℤ → Loc) : Prog :=
  doLoop 1 (n + 1) fun i => doLoop 1 z.meqn fun m =>
    seq [gupdate z (dtdx1d i) (.bmasdq i m) i m 1, gupdate z (dtdx1d i) (.bpasdq i m) i m 2]

/-- `clawpack5_flux2`, lines 90-234; `fw` is `use_fwaves`. As in Clawpack 4.6: `limits` (90-95), `rpn2` (116), `godunov`
(120-125), `courant` (128-136), `second` (148-175), `addCorr` (184-189), `rpt2` (198, 216). -/
def flux5 (z : Shape) (o : Method) (R : Solver) (fw : Bool) (ixy : Nat) (n : ℤ) (dtdx1d : ℤ → Loc) : Prog :=
  seq [clear5 z n, rpn2 z R ixy n, godunov z 1 (n + 1), courant z n dtdx1d,
    when (decide (o.order ≠ 1)) (seq [when (limits z o) (inlinelimiter5 z o n), second z fw 1 (n + 1) dtdx1d]),
    when (decide (o.trans ≠ 0)) (seq [when (decide (1 < o.order ∧ o.trans = 2)) (addCorr z 1 (n + 1)),
      rpt2 z R ixy n 1 .amdq, spillLeft5 z n dtdx1d, rpt2 z R ixy n 2 .apdq, spillRight5 z n dtdx1d])]

/-! ### Step -/

/-- An assignment to a part of an array, `dst(:,lo:hi) = …`, element by element. (The right-hand sides below do not
depend on other elements of the left-hand side.) -/
def assign (z : Shape) (cnt : Nat) (lo hi : ℤ) (dst : ℤ → ℤ → Loc) (e : ℤ → ℤ → Ex) : Prog :=
  doLoop lo hi fun i => doLoop 1 cnt fun m => asg z (dst i m) (e i m)

/-- `dst = dst + src`, for a part of an array. -/
def addTo (z : Shape) (lo hi : ℤ) (dst src : ℤ → ℤ → Loc) : Prog :=
  assign z z.meqn lo hi dst fun i m => rd z (dst i m) + rd z (src i m)

/-- A slice in x, clawpack5_step2.f90:90-123. -/
def xSlice5 (z : Shape) (o : Method) (flux : Flux) (dtdx : ℚ) (j : ℤ) : Prog :=
  seq [assign z z.meqn (1 - z.mbc) (z.mx + z.mbc) .q1d (fun i m => rd z (.q i j m)),
    if 0 < o.mcapa then doLoop (1 - z.mbc) (z.mx + z.mbc) fun i => asg z (.dtdx1d i) (.lit dtdx / rd z (.aux i j o.mcapa))
    else doLoop (1 - z.mbc) (z.maxm + z.mbc) fun i => asg z (.dtdx1d i) (.lit dtdx),
    when (decide (0 < z.maux)) (seq [assign z z.maux (1 - z.mbc) (z.mx + z.mbc) .aux1 (fun i m => rd z (.aux i (j - 1) m)),
      assign z z.maux (1 - z.mbc) (z.mx + z.mbc) .aux2 (fun i m => rd z (.aux i j m)),
      assign z z.maux (1 - z.mbc) (z.mx + z.mbc) .aux3 (fun i m => rd z (.aux i (j + 1) m))]),
    flux 1 z.mx .dtdx1d,
    asg z .cflgrid (max (rd z .cflgrid) (rd z .cfl1d)),
    addTo z 1 (z.mx + 1) (fun i m => .fm i j m) .faddm,
    addTo z 1 (z.mx + 1) (fun i m => .fp i j m) .faddp,
    addTo z 1 (z.mx + 1) (fun i m => .gm i j m) (fun i m => .gaddm i m 1),
    addTo z 1 (z.mx + 1) (fun i m => .gp i j m) (fun i m => .gaddp i m 1),
    addTo z 1 (z.mx + 1) (fun i m => .gm i (j + 1) m) (fun i m => .gaddm i m 2),
    addTo z 1 (z.mx + 1) (fun i m => .gp i (j + 1) m) (fun i m => .gaddp i m 2)]

/-- A slice in y, lines 133-167. -/
def ySlice5 (z : Shape) (o : Method) (flux : Flux) (dtdy : ℚ) (i : ℤ) : Prog :=
  seq [assign z z.meqn (1 - z.mbc) (z.my + z.mbc) .q1d (fun j m => rd z (.q i j m)),
    if 0 < o.mcapa then doLoop (1 - z.mbc) (z.my + z.mbc) fun j => asg z (.dtdy1d j) (.lit dtdy / rd z (.aux i j o.mcapa))
    else doLoop (1 - z.mbc) (z.maxm + z.mbc) fun j => asg z (.dtdy1d j) (.lit dtdy),
    when (decide (0 < z.maux)) (seq [assign z z.maux (1 - z.mbc) (z.my + z.mbc) .aux1 (fun j m => rd z (.aux (i - 1) j m)),
      assign z z.maux (1 - z.mbc) (z.my + z.mbc) .aux2 (fun j m => rd z (.aux i j m)),
      assign z z.maux (1 - z.mbc) (z.my + z.mbc) .aux3 (fun j m => rd z (.aux (i + 1) j m))]),
    flux 2 z.my .dtdy1d,
    asg z .cflgrid (max (rd z .cflgrid) (rd z .cfl1d)),
    addTo z 1 (z.my + 1) (fun j m => .gm i j m) .faddm,
    addTo z 1 (z.my + 1) (fun j m => .gp i j m) .faddp,
    addTo z 1 (z.my + 1) (fun j m => .fm i j m) (fun j m => .gaddm j m 1),
    addTo z 1 (z.my + 1) (fun j m => .fp i j m) (fun j m => .gaddp j m 1),
    addTo z 1 (z.my + 1) (fun j m => .fm (i + 1) j m) (fun j m => .gaddm j m 2),
    addTo z 1 (z.my + 1) (fun j m => .fp (i + 1) j m) (fun j m => .gaddp j m 2)]

/-- `a = 0.d0`, for an array over all cells. -/
def zeros (z : Shape) (a : ℤ → ℤ → ℤ → Loc) : Prog :=
  doLoop (1 - z.mbc) (z.my + z.mbc) fun j => doLoop (1 - z.mbc) (z.mx + z.mbc) fun i => doLoop 1 z.meqn fun m =>
    asg z (a i j m) (.lit 0)

/-- `clawpack5_step2`, clawpack5_step2.f90:72-169. `fixCorners` is clawpack5_fix_corners (lines 177-245), which has the
same statements as clawpack46_fix_corners. It is called once, before the sweeps in x. -/
def step5 (z : Shape) (o : Method) (flux : Flux) (count : ℤ → ℤ) (dx dy dt : ℚ) : Prog :=
  seq [asg z .cflgrid (.lit 0), zeros z .fm, zeros z .fp, zeros z .gm, zeros z .gp,
    fixCorners z 0 count,
    doLoop (2 - z.mbc) (z.my + z.mbc - 1) (xSlice5 z o flux (dt / dx)),
    doLoop (2 - z.mbc) (z.mx + z.mbc - 1) (ySlice5 z o flux (dt / dy))]

/-- The update of the solution, clawpack5_step2_wrap.f:97-113. -/
def update5 (z : Shape) (o : Method) (dx dy dt : ℚ) : Prog :=
  doLoop 1 z.meqn fun m => doLoop 1 z.mx fun i => doLoop 1 z.my fun j =>
    if o.mcapa = 0 then
      asg z (.q i j m) (rd z (.q i j m) - .lit (dt / dx) * (rd z (.fm (i + 1) j m) - rd z (.fp i j m))
        - .lit (dt / dy) * (rd z (.gm i (j + 1) m) - rd z (.gp i j m)))
    else
      asg z (.q i j m) (rd z (.q i j m) - (.lit (dt / dx) * (rd z (.fm (i + 1) j m) - rd z (.fp i j m))
        + .lit (dt / dy) * (rd z (.gm i (j + 1) m) - rd z (.gp i j m))) / rd z (.aux i j o.mcapa))

/-- `clawpack5_step2_wrap`. `none` also stands for `ierror = 1` (lines 72-75). The pieces of `work` are counted (lines
56-69, as in Clawpack 4.6) but not used. `mwork` is the same, fc2d_clawpack5.cpp:313. Division by zero is `none`. -/
def step5Wrap (z : Shape) (o : Method) (flux : Flux) (count : ℤ → ℤ) (dx dy dt : ℚ) : Prog := fun M =>
  if dx = 0 ∨ dy = 0 then none
  else if mwork z < (wrapPieces z).sum then none
  else seq [step5 z o flux count dx dy dt, update5 z o dx dy dt] M

end Fclaw.Wave5
