import Verif.Wave.Mem
/-
Model of a step on one patch with clawpack 4.6: src/solvers/fc2d_clawpack4.6/fortran_source/
clawpack46_step2_wrap.f, clawpack46_step2.f, clawpack46_flux2.f, clawpack46_inlinelimiter.f, and the call in
fc2d_clawpack46.cpp:259-399.

`double` is `ℚ`: rounding is not modelled. The Riemann solvers are the user's; they are taken to solve each
Riemann problem by itself. `comxyt` and `comblock`, by which they could learn where they are, are left out.
-/
set_option autoImplicit false
namespace Fclaw.Wave

open Fort

abbrev Vec := ℤ → ℚ

/-- The part of a vector that exists. -/
def comps (n : Nat) (f : Vec) : Vec := fun m => if 1 ≤ m ∧ m ≤ n then f m else 0

/-- The user's Riemann solvers. Arguments: direction `ixy`, values in the two cells, auxiliary values in
the two cells. -/
structure Solver where
  /-- `rpn2`: wave number `w`, component `m` -/
  wave : Nat → Vec → Vec → Vec → Vec → ℤ → ℤ → ℚ
  /-- speed of wave `w` -/
  s : Nat → Vec → Vec → Vec → Vec → ℤ → ℚ
  /-- fluctuation that moves left -/
  amdq : Nat → Vec → Vec → Vec → Vec → Vec
  /-- fluctuation that moves right -/
  apdq : Nat → Vec → Vec → Vec → Vec → Vec
  /-- `rpt2`: splits a fluctuation (left going: `ilr = 1`, right going: `ilr = 2`); `aux 1`, `aux 2`, `aux 3`:
  auxiliary values in the slices below, of the edge, and above, in the cells to the left and to the right -/
  down : Nat → Nat → Vec → Vec → (Nat → Vec) → (Nat → Vec) → Vec → Vec
  up : Nat → Nat → Vec → Vec → (Nat → Vec) → (Nat → Vec) → Vec → Vec

/-- Options: `method(2)`, `method(3)`, `mthlim`, `mcapa`. -/
structure Method where
  order : ℤ
  trans : ℤ
  lim : ℤ → ℤ
  mcapa : ℤ

/-! ### Limiter -/

/-- The single precision number nearest to 1.3: `th = 1.3`, clawpack46_inlinelimiter.f:101. -/
def theta13 : ℚ := 10905190 / 8388608

/-- `go to (10,20,30,40,50,60) mthlim(mw)`, clawpack46_inlinelimiter.f:59-103. A number that is not in the
list goes on with the next statement, label 10. -/
def wlimitr (mth : ℤ) (r : ℚ) : ℚ :=
  if mth = 2 then max (max 0 (min 1 (2 * r))) (min 2 r)
  else if mth = 3 then (r + |r|) / (1 + |r|)
  else if mth = 4 then max 0 (min (min ((1 + r) / 2) 2) (2 * r))
  else if mth = 5 then r
  else if mth = 6 then max 0 (min (min (theta13 * r) ((1 + r) / 2)) theta13)
  else max 0 (min 1 r)

/-- Lines 43-49: the sums over the components; first `wnorm2`, then `dotr`. -/
def dots (z : Shape) (mw i : ℤ) (M : Mem) : Option (ℚ × ℚ) :=
  doLoop 1 z.meqn (fun m (acc : ℚ × ℚ) =>
    (rd z (.wave i m mw) M).bind fun a => (rd z (.wave (i + 1) m mw) M).bind fun b =>
      some (acc.1 + a ^ 2, acc.2 + a * b)) (0, 0)

/-- One edge, lines 43-113; carries `dotr`. -/
def limitEdge (z : Shape) (o : Method) (mw i : ℤ) (st : ℚ × Mem) : Option (ℚ × Mem) :=
  (dots z mw i st.2).bind fun d =>
  if i = 0 then some (d.2, st.2)
  else if d.1 = 0 then some (d.2, st.2)
  else (rd z (.s i mw) st.2).bind fun s =>
    let r := if 0 < s then st.1 / d.1 else d.2 / d.1
    (doLoop 1 z.meqn (fun m => asg z (.wave i m mw) (.lit (wlimitr (o.lim mw) r) * rd z (.wave i m mw))) st.2).bind
      fun M => some (d.2, M)

/-- `clawpack46_inlinelimiter`, lines 39-115; `n` is the argument `mx`. -/
def inlinelimiter (z : Shape) (o : Method) (n : ℤ) : Prog :=
  doLoop 1 z.mwaves fun mw M =>
    if o.lim mw = 0 then some M
    else (doLoop 0 (n + 1) (limitEdge z o mw) (0, M)).bind fun st => some st.2

/-! ### Fluxes of a slice -/

/-- The Riemann problems of a slice, `rpn2`: edges `2-mbc` to `n+mbc`. -/
def rpn2 (z : Shape) (R : Solver) (ixy : Nat) (n : ℤ) : Prog := fun M => some fun l =>
  let qv := fun i => comps z.meqn fun m => M (.q1d i m)
  let av := fun i => comps z.maux fun m => M (.aux2 i m)
  let edge := fun i : ℤ => 2 - (z.mbc : ℤ) ≤ i ∧ i ≤ n + z.mbc
  match l with
  | .wave i m w => if edge i ∧ (1 ≤ m ∧ m ≤ z.meqn) ∧ 1 ≤ w ∧ w ≤ z.mwaves then
      R.wave ixy (qv (i - 1)) (qv i) (av (i - 1)) (av i) w m else M l
  | .s i w => if edge i ∧ 1 ≤ w ∧ w ≤ z.mwaves then R.s ixy (qv (i - 1)) (qv i) (av (i - 1)) (av i) w else M l
  | .amdq i m => if edge i ∧ 1 ≤ m ∧ m ≤ z.meqn then R.amdq ixy (qv (i - 1)) (qv i) (av (i - 1)) (av i) m else M l
  | .apdq i m => if edge i ∧ 1 ≤ m ∧ m ≤ z.meqn then R.apdq ixy (qv (i - 1)) (qv i) (av (i - 1)) (av i) m else M l
  | l => M l

/-- The transverse Riemann problems, `rpt2`; `asdq` is the argument of this name. -/
def rpt2 (z : Shape) (R : Solver) (ixy : Nat) (n : ℤ) (ilr : Nat) (asdq : ℤ → ℤ → Loc) : Prog := fun M => some fun l =>
  let qv := fun i => comps z.meqn fun m => M (.q1d i m)
  let av := fun i (k : Nat) => comps z.maux fun m =>
    M (if k = 1 then .aux1 i m else if k = 2 then .aux2 i m else .aux3 i m)
  let dq := fun i => comps z.meqn fun m => M (asdq i m)
  let edge := fun i : ℤ => 2 - (z.mbc : ℤ) ≤ i ∧ i ≤ n + z.mbc
  match l with
  | .bmasdq i m => if edge i ∧ 1 ≤ m ∧ m ≤ z.meqn then R.down ixy ilr (qv (i - 1)) (qv i) (av (i - 1)) (av i) (dq i) m else M l
  | .bpasdq i m => if edge i ∧ 1 ≤ m ∧ m ≤ z.meqn then R.up ixy ilr (qv (i - 1)) (qv i) (av (i - 1)) (av i) (dq i) m else M l
  | l => M l

/-- clawpack46_flux2.f:101-110, clawpack46_flux2fw.f:116-125. -/
def clear (z : Shape) (n : ℤ) : Prog :=
  doLoop 1 2 fun jside => doLoop 1 z.meqn fun m => doLoop (1 - z.mbc) (n + z.mbc) fun i =>
    seq [asg z (.faddm i m) (.lit 0), asg z (.faddp i m) (.lit 0), asg z (.gaddm i m jside) (.lit 0),
      asg z (.gaddp i m jside) (.lit 0)]

/-- clawpack46_flux2.f:121-126 (for the edges `2-mbc` to `mx+mbc-1`), clawpack46_flux2fw.f:136-141 (1 to
`mx+1`). -/
def godunov (z : Shape) (lo hi : ℤ) : Prog :=
  doLoop lo hi fun i => doLoop 1 z.meqn fun m =>
    seq [asg z (.faddp i m) (rd z (.faddp i m) - rd z (.apdq i m)),
      asg z (.faddm i m) (rd z (.faddm i m) + rd z (.amdq i m))]

/-- clawpack46_flux2.f:129-137, clawpack46_flux2fw.f:144-152; `dtdx1d` is the argument of this name. -/
def courant (z : Shape) (n : ℤ) (dtdx1d : ℤ → Loc) : Prog :=
  seq [asg z .cfl1d (.lit 0),
    doLoop 1 z.mwaves fun mw => doLoop 1 (n + 1) fun i =>
      asg z .cfl1d (max (max (rd z .cfl1d) (rd z (dtdx1d i) * rd z (.s i mw))) (-rd z (dtdx1d (i - 1)) * rd z (.s i mw)))]

/-- `dsign(1.d0,s)`; zero has the sign plus here, see clawpack46_flux2fw.f:176. A `double` zero could have the
other one. -/
def sign1 (s : ℚ) : ℚ := if 0 ≤ s then 1 else -1

/-- clawpack46_flux2.f:150-169 (`2-mbc` to `mx+mbc`), clawpack46_flux2fw.f:165-183 (1 to `mx+1`). The first
factor is `dabs(s)` or, for f-waves, `dsign(1.d0,s)`. -/
def second (z : Shape) (fw : Bool) (lo hi : ℤ) (dtdx1d : ℤ → Loc) : Prog :=
  doLoop lo hi fun i => doLoop 1 z.meqn fun m =>
    seq [asg z (.cqxx i m) (.lit 0),
      doLoop 1 z.mwaves fun mw => asg z (.cqxx i m) (rd z (.cqxx i m) +
        (if fw then Ex.lift1 sign1 (rd z (.s i mw)) else (rd z (.s i mw)).abs) *
        (.lit 1 - (rd z (.s i mw)).abs * (.lit (1 / 2) * (rd z (dtdx1d (i - 1)) + rd z (dtdx1d i)))) * rd z (.wave i m mw)),
      asg z (.faddm i m) (rd z (.faddm i m) + .lit (1 / 2) * rd z (.cqxx i m)),
      asg z (.faddp i m) (rd z (.faddp i m) + .lit (1 / 2) * rd z (.cqxx i m))]

/-- clawpack46_flux2.f:176-181 (`2-mbc` to `mx+mbc-1`), clawpack46_flux2fw.f:192-197 (1 to `mx+1`). -/
def addCorr (z : Shape) (lo hi : ℤ) : Prog :=
  doLoop lo hi fun i => doLoop 1 z.meqn fun m =>
    seq [asg z (.amdq i m) (rd z (.amdq i m) + rd z (.cqxx i m)), asg z (.apdq i m) (rd z (.apdq i m) - rd z (.cqxx i m))]

/-- `gupdate = 0.5d0*dtdx1d(k) * b(i,m)`, subtracted from `gaddm(c,m,side)` and `gaddp(c,m,side)`. -/
def gupdate (z : Shape) (dt : Loc) (b : Loc) (c m side : ℤ) : Prog :=
  seq [asg z (.gaddm c m side) (rd z (.gaddm c m side) - .lit (1 / 2) * rd z dt * rd z b),
    asg z (.gaddp c m side) (rd z (.gaddp c m side) - .lit (1 / 2) * rd z dt * rd z b)]

/-- clawpack46_flux2.f:195-205 (`2-mbc` to `mx+mbc`), clawpack46_flux2fw.f:211-221 (1 to `mx+1`): `i-1` is the cell
to the left of the edge. -/
def spillLeft (z : Shape) (lo hi : ℤ) (dtdx1d : ℤ → Loc) : Prog :=
  doLoop 1 z.meqn fun m => doLoop lo hi fun i =>
    seq [gupdate z (dtdx1d (i - 1)) (.bmasdq i m) (i - 1) m 1, gupdate z (dtdx1d (i - 1)) (.bpasdq i m) (i - 1) m 2]

/-- clawpack46_flux2.f:214-224 (`2-mbc` to `mx+mbc`, with `dt i = dtdx1d(i)`), clawpack46_flux2fw.f:229-239 (1 to
`mx+1`, with `dt i = dtdx1d(i-1)`). -/
def spillRight (z : Shape) (lo hi : ℤ) (dt : ℤ → Loc) : Prog :=
  doLoop 1 z.meqn fun m => doLoop lo hi fun i =>
    seq [gupdate z (dt i) (.bmasdq i m) i m 1, gupdate z (dt i) (.bpasdq i m) i m 2]

/-- clawpack46_flux2.f:91-96, clawpack46_flux2fw.f:105-110. -/
def limits (z : Shape) (o : Method) : Bool := (range 1 z.mwaves).any fun mw => decide (0 < o.lim mw)

/-- `clawpack46_flux2`. -/
def flux2 (z : Shape) (o : Method) (R : Solver) (ixy : Nat) (n : ℤ) (dtdx1d : ℤ → Loc) : Prog :=
  seq [clear z n, rpn2 z R ixy n, godunov z (2 - z.mbc) (n + z.mbc - 1), courant z n dtdx1d,
    when (decide (o.order = 2)) (seq [when (limits z o) (inlinelimiter z o n), second z false (2 - z.mbc) (n + z.mbc) dtdx1d]),
    when (decide (0 < o.trans)) (seq [when (decide (1 < o.order ∧ o.trans = 2)) (addCorr z (2 - z.mbc) (n + z.mbc - 1)),
      rpt2 z R ixy n 1 .amdq, spillLeft z (2 - z.mbc) (n + z.mbc) dtdx1d,
      rpt2 z R ixy n 2 .apdq, spillRight z (2 - z.mbc) (n + z.mbc) dtdx1d])]

/-- `clawpack46_flux2fw`, for f-waves. -/
def flux2fw (z : Shape) (o : Method) (R : Solver) (ixy : Nat) (n : ℤ) (dtdx1d : ℤ → Loc) : Prog :=
  seq [clear z n, rpn2 z R ixy n, godunov z 1 (n + 1), courant z n dtdx1d,
    when (decide (o.order ≠ 1)) (seq [when (limits z o) (inlinelimiter z o n), second z true 1 (n + 1) dtdx1d]),
    when (decide (o.trans ≠ 0)) (seq [when (decide (1 < o.order ∧ o.trans = 2)) (addCorr z 1 (n + 1)),
      rpt2 z R ixy n 1 .amdq, spillLeft z 1 (n + 1) dtdx1d,
      rpt2 z R ixy n 2 .apdq, spillRight z 1 (n + 1) fun i => dtdx1d (i - 1)])]

/-! ### Step -/

/-- `clawpack46_fix_corners`, clawpack46_step2.f:242-310; `int(ihat(k)-jhat(k))` and `int(ihat(k)+jhat(k))`
are written out. -/
def fixCorners (z : Shape) (sweepDir : ℤ) (count : ℤ → ℤ) : Prog :=
  doLoop 0 3 fun k M =>
    if count k ≠ 3 then some M
    else
      let useB := (sweepDir = 0 ∧ (k = 0 ∨ k = 3)) ∨ (sweepDir = 1 ∧ (k = 1 ∨ k = 2))
      let dif : ℤ := if k = 0 then 0 else if k = 1 then z.mx else if k = 2 then -z.my else z.mx - z.my
      let sum : ℤ := if k = 0 then 1 else if k = 1 then z.mx + 1 else if k = 2 then z.my + 1 else z.mx + z.my + 1
      doLoop 1 z.mbc (fun ibc => doLoop 1 z.mbc fun jbc =>
        let i1 : ℤ := if k = 0 ∨ k = 2 then 1 - ibc else z.mx + ibc
        let j1 : ℤ := if k = 0 ∨ k = 1 then 1 - jbc else z.my + jbc
        let idata := if useB then j1 + dif else -j1 + sum
        let jdata := if useB then -i1 + sum else i1 - dif
        doLoop 1 z.meqn fun m => asg z (.q i1 j1 m) (rd z (.q idata jdata m))) M

/-- The routine for the fluxes of a slice, an argument of `clawpack46_step2`. -/
abbrev Flux := Nat → ℤ → (ℤ → Loc) → Prog

/-- A slice in x, clawpack46_step2.f:115-166. -/
def xSlice (z : Shape) (o : Method) (flux : Flux) (dtdx : ℚ) (j : ℤ) : Prog :=
  seq [doLoop 1 z.meqn fun m => doLoop (1 - z.mbc) (z.mx + z.mbc) fun i => asg z (.q1d i m) (rd z (.q i j m)),
    when (decide (0 < o.mcapa)) (doLoop (1 - z.mbc) (z.mx + z.mbc) fun i =>
      asg z (.dtdx1d i) (.lit dtdx / rd z (.aux i j o.mcapa))),
    when (decide (0 < z.maux)) (doLoop 1 z.maux fun ma => doLoop (1 - z.mbc) (z.mx + z.mbc) fun i =>
      seq [asg z (.aux1 i ma) (rd z (.aux i (j - 1) ma)), asg z (.aux2 i ma) (rd z (.aux i j ma)),
        asg z (.aux3 i ma) (rd z (.aux i (j + 1) ma))]),
    flux 1 z.mx .dtdx1d,
    asg z .cflgrid (max (rd z .cflgrid) (rd z .cfl1d)),
    doLoop 1 z.meqn fun m => doLoop (2 - z.mbc) (z.mx + z.mbc) fun i =>
      seq [asg z (.fm i j m) (rd z (.fm i j m) + rd z (.faddm i m)), asg z (.fp i j m) (rd z (.fp i j m) + rd z (.faddp i m)),
        asg z (.gm i j m) (rd z (.gm i j m) + rd z (.gaddm i m 1)), asg z (.gp i j m) (rd z (.gp i j m) + rd z (.gaddp i m 1)),
        asg z (.gm i (j + 1) m) (rd z (.gm i (j + 1) m) + rd z (.gaddm i m 2)),
        asg z (.gp i (j + 1) m) (rd z (.gp i (j + 1) m) + rd z (.gaddp i m 2))]]

/-- A slice in y, lines 184-235. -/
def ySlice (z : Shape) (o : Method) (flux : Flux) (dtdy : ℚ) (i : ℤ) : Prog :=
  seq [doLoop 1 z.meqn fun m => doLoop (1 - z.mbc) (z.my + z.mbc) fun j => asg z (.q1d j m) (rd z (.q i j m)),
    when (decide (0 < o.mcapa)) (doLoop (1 - z.mbc) (z.my + z.mbc) fun j =>
      asg z (.dtdy1d j) (.lit dtdy / rd z (.aux i j o.mcapa))),
    when (decide (0 < z.maux)) (doLoop 1 z.maux fun ma => doLoop (1 - z.mbc) (z.my + z.mbc) fun j =>
      seq [asg z (.aux1 j ma) (rd z (.aux (i - 1) j ma)), asg z (.aux2 j ma) (rd z (.aux i j ma)),
        asg z (.aux3 j ma) (rd z (.aux (i + 1) j ma))]),
    flux 2 z.my .dtdy1d,
    asg z .cflgrid (max (rd z .cflgrid) (rd z .cfl1d)),
    doLoop 1 z.meqn fun m => doLoop (2 - z.mbc) (z.my + z.mbc) fun j =>
      seq [asg z (.gm i j m) (rd z (.gm i j m) + rd z (.faddm j m)), asg z (.gp i j m) (rd z (.gp i j m) + rd z (.faddp j m)),
        asg z (.fm i j m) (rd z (.fm i j m) + rd z (.gaddm j m 1)), asg z (.fp i j m) (rd z (.fp i j m) + rd z (.gaddp j m 1)),
        asg z (.fm (i + 1) j m) (rd z (.fm (i + 1) j m) + rd z (.gaddm j m 2)),
        asg z (.fp (i + 1) j m) (rd z (.fp (i + 1) j m) + rd z (.gaddp j m 2))]]

/-- `clawpack46_step2`, clawpack46_step2.f:5-239, without the partition of `work`. -/
def step2 (z : Shape) (o : Method) (flux : Flux) (count : ℤ → ℤ) (dx dy dt : ℚ) : Prog :=
  seq [asg z .cflgrid (.lit 0),
    doLoop 1 z.meqn fun m => doLoop (1 - z.mbc) (z.mx + z.mbc) fun i => doLoop (1 - z.mbc) (z.my + z.mbc) fun j =>
      seq [asg z (.fm i j m) (.lit 0), asg z (.fp i j m) (.lit 0), asg z (.gm i j m) (.lit 0), asg z (.gp i j m) (.lit 0)],
    when (decide (o.mcapa = 0)) (doLoop (1 - z.mbc) (z.maxm + z.mbc) fun i =>
      seq [asg z (.dtdx1d i) (.lit (dt / dx)), asg z (.dtdy1d i) (.lit (dt / dy))]),
    fixCorners z 0 count,
    doLoop (2 - z.mbc) (z.my + z.mbc - 1) (xSlice z o flux (dt / dx)),
    fixCorners z 1 count,
    doLoop (2 - z.mbc) (z.mx + z.mbc - 1) (ySlice z o flux (dt / dy))]

/-- The update of the solution, clawpack46_step2_wrap.f:107-125. -/
def update (z : Shape) (o : Method) (dx dy dt : ℚ) : Prog :=
  doLoop 1 z.meqn fun m => doLoop (1 - z.mbc) (z.mx + z.mbc - 1) fun i => doLoop (1 - z.mbc) (z.my + z.mbc - 1) fun j =>
    if o.mcapa = 0 then
      asg z (.q i j m) (rd z (.q i j m) - .lit (dt / dx) * (rd z (.fm (i + 1) j m) - rd z (.fp i j m))
        - .lit (dt / dy) * (rd z (.gm i (j + 1) m) - rd z (.gp i j m)))
    else
      asg z (.q i j m) (rd z (.q i j m) - (.lit (dt / dx) * (rd z (.fm (i + 1) j m) - rd z (.fp i j m))
        + .lit (dt / dy) * (rd z (.gm i (j + 1) m) - rd z (.gp i j m))) / rd z (.aux i j o.mcapa))

/-- Length of a slice, `maxm+2*mbc`. -/
def Shape.slice (z : Shape) : ℤ := z.maxm + 2 * z.mbc

/-- The pieces of `work` and their lengths: first those of clawpack46_step2_wrap.f:56-69 (`faddm`, `faddp`,
`gaddm`, `gaddp`, `q1d`, `dtdx1d`, `dtdy1d`, `aux1`, `aux2`, `aux3`); -/
def wrapPieces (z : Shape) : List ℤ :=
  [z.slice * z.meqn, z.slice * z.meqn, 2 * z.slice * z.meqn, 2 * z.slice * z.meqn, z.slice * z.meqn, z.slice, z.slice,
    z.slice * z.maux, z.slice * z.maux, z.slice * z.maux]

/-- then those of clawpack46_step2.f:63-70 (`wave`, `s`, `amdq`, `apdq`, `cqxx`, `bmadq`, `bpadq`). -/
def stepPieces (z : Shape) : List ℤ :=
  [z.slice * z.meqn * z.mwaves, z.slice * z.mwaves, z.slice * z.meqn, z.slice * z.meqn, z.slice * z.meqn,
    z.slice * z.meqn, z.slice * z.meqn]

/-- `mwork`, fc2d_clawpack46.cpp:345. -/
def mwork (z : Shape) : ℤ := z.slice * (12 * z.meqn + (z.meqn + 1) * z.mwaves + 3 * z.maux + 2)

/-- `clawpack46_step2_wrap`. `none` also stands for `ierror = 1`, which makes an assertion in the caller fail.
Lines 72-75 and clawpack46_step2.f:72-75 check that the pieces fit into `work`. Division by zero does not stop
the program; what happens then is not modelled, and it is `none` here. -/
def step2Wrap (z : Shape) (o : Method) (flux : Flux) (count : ℤ → ℤ) (dx dy dt : ℚ) : Prog := fun M =>
  let mused := (wrapPieces z).sum
  if dx = 0 ∨ dy = 0 then none
  else if mwork z < mused then none
  else if mwork z - mused < (stepPieces z).sum then none
  else seq [step2 z o flux count dx dy dt, update z o dx dy dt] M

end Fclaw.Wave
