import Verif.Wave.Model
/-
Model of a step on one patch with clawpack 4.6 in three dimensions: src/solvers/fc3d_clawpack46/fortran_source/
fc3d_clawpack46_step3_wrap.f90, fc3d_clawpack46_step3.f90, fc3d_clawpack46_flux3.f,
fc3d_clawpack46_inlinelimiter.f90, and the call in fc3d_clawpack46.cpp:342-376.

`double` is `ℚ`: rounding is not modelled. The Riemann solvers are the user's; they are taken to solve each
Riemann problem by itself. Arrays are functions of their indices; bounds are not checked one by one: with at
least two layers of ghost cells the indices used (-1 to `mx+2` and so on) exist. With fewer, the step is `none`.
Arrays that a routine sets once, as `amdq`, are functions; those to which it adds are changed in loops.
-/
set_option autoImplicit false
namespace Fclaw.Wave3

open Fort (range)
open Wave (Vec comps theta13 sign1)

inductive Dir | x | y | z
  deriving DecidableEq, Repr

/-- The user's Riemann solvers. The direction stands for `ixyz`. `aux1`, `aux2`, `aux3` have an index for the slice:
auxiliary values around a cell are `A r s` for `aux_r(·,i,s)`. -/
structure Solver where
  /-- `rpn3`: values and auxiliary values in the two cells, number of the wave, component -/
  wave : Dir → Vec → Vec → Vec → Vec → ℤ → ℤ → ℚ
  s : Dir → Vec → Vec → Vec → Vec → ℤ → ℚ
  amdq : Dir → Vec → Vec → Vec → Vec → Vec
  apdq : Dir → Vec → Vec → Vec → Vec → Vec
  /-- `rpt3`: `icoor`, `imp`, values, auxiliary values around the two cells, what is to be split -/
  down : Dir → Nat → Nat → Vec → Vec → (Nat → Nat → Vec) → (Nat → Nat → Vec) → Vec → Vec
  up : Dir → Nat → Nat → Vec → Vec → (Nat → Nat → Vec) → (Nat → Nat → Vec) → Vec → Vec
  /-- `rptt3`: `icoor`, `imp`, `impt`, … -/
  down2 : Dir → Nat → Nat → Nat → Vec → Vec → (Nat → Nat → Vec) → (Nat → Nat → Vec) → Vec → Vec
  up2 : Dir → Nat → Nat → Nat → Vec → Vec → (Nat → Nat → Vec) → (Nat → Nat → Vec) → Vec → Vec

structure Shape where
  mx : Nat
  my : Nat
  mz : Nat
  mbc : Nat
  meqn : Nat
  maux : Nat
  mwaves : Nat

/-- fc3d_clawpack46.cpp:298. -/
def Shape.maxm (z : Shape) : Nat := max z.mx (max z.my z.mz)

/-- Options: `method(2)`, `method(3)`, `mthlim`, `mcapa`, `use_fwaves`. -/
structure Method where
  order : ℤ
  trans : ℤ
  lim : ℤ → ℤ
  mcapa : ℤ
  fw : Bool

/-- What `flux3` gets for a slice of `n` cells. -/
structure Slice where
  n : ℤ
  q1d : ℤ → Vec
  /-- the arguments `dtdx1d`, `dtdy1d`, `dtdz1d` -/
  dt1 : ℤ → ℚ
  dt2 : ℤ → ℚ
  dt3 : ℤ → ℚ
  /-- `aux r s i ma` for `aux_r(ma,i,s)` -/
  aux : Nat → Nat → ℤ → Vec

/-! ### Loops and sums -/

/-- `do k = lo,hi` around statements that cannot fail. -/
def loop {σ : Type} (lo hi : ℤ) (f : ℤ → σ → σ) (s : σ) : σ := (range lo hi).foldl (fun s k => f k s) s

/-- `a(l) = a(l) + v`. -/
def add {α : Type} [DecidableEq α] (l : α) (v : ℚ) (M : α → ℚ) : α → ℚ := fun l' => if l' = l then M l' + v else M l'

/-- One after the other. -/
def addAll {α : Type} [DecidableEq α] (xs : List (α × ℚ)) (M : α → ℚ) : α → ℚ := xs.foldl (fun M x => add x.1 x.2 M) M

/-! ### Limiter -/

/-- fc3d_clawpack46_inlinelimiter.f90:67-113. -/
def wlimitr (mth : ℤ) (r : ℚ) : ℚ :=
  if mth = 1 then max 0 (min 1 r)
  else if mth = 2 then max (max 0 (min 1 (2 * r))) (min 2 r)
  else if mth = 3 then (r + |r|) / (1 + |r|)
  else if mth = 4 then max 0 (min (min ((1 + r) / 2) 2) (2 * r))
  else if mth = 5 then r
  else if mth = 6 then max 0 (min (min (theta13 * r) ((1 + r) / 2)) theta13)
  else 1

/-- Lines 48, 50-54. -/
def dots (meqn : Nat) (u v : Vec) : ℚ × ℚ :=
  loop 1 meqn (fun m (acc : ℚ × ℚ) => (acc.1 + u m ^ 2, acc.2 + u m * v m)) (0, 0)

/-- Lines 48-119 for one edge and one family of waves; `W i m` is `wave(m,mw,i)`. Carries `dotr`. -/
def limitEdge (meqn : Nat) (mth : ℤ) (s : ℤ → ℚ) (i : ℤ) (st : ℚ × (ℤ → Vec)) : ℚ × (ℤ → Vec) :=
  let d := dots meqn (st.2 i) (st.2 (i + 1))
  if i = 0 ∨ d.1 = 0 then (d.2, st.2)
  else
    let r := if 0 < s i then st.1 / d.1 else d.2 / d.1
    (d.2, loop 1 meqn (fun m W => fun i' m' => if i' = i ∧ m' = m then wlimitr mth r * W i m else W i' m') st.2)

/-- `clawpack46_inlinelimiter`, lines 42-121, for one family. (`continue` in line 44 does nothing; the limiter 0 is 1.) -/
def inlinelimiter (meqn : Nat) (mth : ℤ) (n : ℤ) (s : ℤ → ℚ) (W : ℤ → Vec) : ℤ → Vec :=
  (loop 0 (n + 1) (limitEdge meqn mth s) (0, W)).2

/-! ### Fluxes of a slice -/

section
variable (z : Shape) (o : Method) (R : Solver) (d : Dir) (L : Slice)

def qv (i : ℤ) : Vec := comps z.meqn (L.q1d i)
/-- `aux2(·,i,2)`. -/
def av (i : ℤ) : Vec := comps z.maux (L.aux 2 2 i)
def avs (i : ℤ) (r s : Nat) : Vec := comps z.maux (L.aux r s i)

/-- The results of `rpn3`, fc3d_clawpack46_flux3.f:235-243. -/
def wave0 (mw : ℤ) (i m : ℤ) : ℚ := R.wave d (qv z L (i - 1)) (qv z L i) (av z L (i - 1)) (av z L i) mw m
def sp (mw : ℤ) (i : ℤ) : ℚ := R.s d (qv z L (i - 1)) (qv z L i) (av z L (i - 1)) (av z L i) mw
def amdq (i m : ℤ) : ℚ := R.amdq d (qv z L (i - 1)) (qv z L i) (av z L (i - 1)) (av z L i) m
def apdq (i m : ℤ) : ℚ := R.apdq d (qv z L (i - 1)) (qv z L i) (av z L (i - 1)) (av z L i) m

/-- Lines 191-196. -/
def limits : Bool := (range 1 z.mwaves).any fun mw => decide (0 < o.lim mw)

/-- Lines 273-277. -/
def wave1 (mw : ℤ) : ℤ → Vec :=
  if limits z o then inlinelimiter z.meqn (o.lim mw) L.n (sp z R d L mw) (wave0 z R d L mw) else wave0 z R d L mw

/-- `cqxx`, lines 279-310. -/
def cqxx (i m : ℤ) : ℚ :=
  loop 1 z.mwaves (fun mw c => c + 1 / 2 * (if o.fw then sign1 (sp z R d L mw i) else |sp z R d L mw i|) *
    (1 - |sp z R d L mw i| * (1 / 2 * (L.dt1 (i - 1) + L.dt1 i))) * wave1 z o R d L mw i m) 0

/-- The results of `rpt3` for `asdq`. -/
def rptDown (icoor imp : Nat) (asdq : ℤ → Vec) (i m : ℤ) : ℚ :=
  R.down d icoor imp (qv z L (i - 1)) (qv z L i) (avs z L (i - 1)) (avs z L i) (comps z.meqn (asdq i)) m
def rptUp (icoor imp : Nat) (asdq : ℤ → Vec) (i m : ℤ) : ℚ :=
  R.up d icoor imp (qv z L (i - 1)) (qv z L i) (avs z L (i - 1)) (avs z L i) (comps z.meqn (asdq i)) m
/-- The results of `rptt3` for `bsasdq`. -/
def rpttDown (icoor imp impt : Nat) (b : ℤ → Vec) (i m : ℤ) : ℚ :=
  R.down2 d icoor imp impt (qv z L (i - 1)) (qv z L i) (avs z L (i - 1)) (avs z L i) (comps z.meqn (b i)) m
def rpttUp (icoor imp impt : Nat) (b : ℤ → Vec) (i m : ℤ) : ℚ :=
  R.up2 d icoor imp impt (qv z L (i - 1)) (qv z L i) (avs z L (i - 1)) (avs z L i) (comps z.meqn (b i)) m

/-- Lines 220-227. -/
def m3 : ℤ := if o.trans < 0 then -1 else o.trans / 10
def m4 : ℤ := if o.trans < 0 then 0 else o.trans - 10 * (o.trans / 10)

/-- Lines 325-344. -/
def bmamdq := rptDown z R d L 2 1 (amdq z R d L)
def bpamdq := rptUp z R d L 2 1 (amdq z R d L)
def bmapdq := rptDown z R d L 2 2 (apdq z R d L)
def bpapdq := rptUp z R d L 2 2 (apdq z R d L)
def cmamdq := rptDown z R d L 3 1 (amdq z R d L)
def cpamdq := rptUp z R d L 3 1 (amdq z R d L)
def cmapdq := rptDown z R d L 3 2 (apdq z R d L)
def cpapdq := rptUp z R d L 3 2 (apdq z R d L)

/-- Lines 349-401: with auxiliary values both sides are split, otherwise one, with `imp = 0`. -/
def bmcqxxm := rptDown z R d L 2 (if 0 < z.maux then 1 else 0) (cqxx z o R d L)
def bpcqxxm := rptUp z R d L 2 (if 0 < z.maux then 1 else 0) (cqxx z o R d L)
def bmcqxxp := if 0 < z.maux then rptDown z R d L 2 2 (cqxx z o R d L) else bmcqxxm z o R d L
def bpcqxxp := if 0 < z.maux then rptUp z R d L 2 2 (cqxx z o R d L) else bpcqxxm z o R d L
def cmcqxxm := rptDown z R d L 3 (if 0 < z.maux then 1 else 0) (cqxx z o R d L)
def cpcqxxm := rptUp z R d L 3 (if 0 < z.maux then 1 else 0) (cqxx z o R d L)
def cmcqxxp := if 0 < z.maux then rptDown z R d L 3 2 (cqxx z o R d L) else cmcqxxm z o R d L
def cpcqxxp := if 0 < z.maux then rptUp z R d L 3 2 (cqxx z o R d L) else cpcqxxm z o R d L

/-- Lines 439-452: the arguments are `cpapdq` and so on; `cpapdq2` and so on, set before in lines 410-429, are not
used. -/
def bmcpapdq := rpttDown z R d L 2 2 2 (cpapdq z R d L)
def bpcpapdq := rpttUp z R d L 2 2 2 (cpapdq z R d L)
def bmcpamdq := rpttDown z R d L 2 1 2 (cpamdq z R d L)
def bpcpamdq := rpttUp z R d L 2 1 2 (cpamdq z R d L)
def bmcmapdq := rpttDown z R d L 2 2 1 (cmapdq z R d L)
def bpcmapdq := rpttUp z R d L 2 2 1 (cmapdq z R d L)
def bmcmamdq := rpttDown z R d L 2 1 1 (cmamdq z R d L)
def bpcmamdq := rpttUp z R d L 2 1 1 (cmamdq z R d L)

/-- Lines 546-555: `bpapdq` and so on are changed. -/
def bpapdq2 (i m : ℤ) : ℚ := if m4 o = 2 then bpapdq z R d L i m - 3 * bpcqxxp z o R d L i m else bpapdq z R d L i m
def bpamdq2 (i m : ℤ) : ℚ := if m4 o = 2 then bpamdq z R d L i m + 3 * bpcqxxm z o R d L i m else bpamdq z R d L i m
def bmapdq2 (i m : ℤ) : ℚ := if m4 o = 2 then bmapdq z R d L i m - 3 * bmcqxxp z o R d L i m else bmapdq z R d L i m
def bmamdq2 (i m : ℤ) : ℚ := if m4 o = 2 then bmamdq z R d L i m + 3 * bmcqxxm z o R d L i m else bmamdq z R d L i m

/-- Lines 569-578, where the results are kept in `bmcpapdq` and so on. -/
def cmbpapdq := rpttDown z R d L 3 2 2 (bpapdq2 z o R d L)
def cpbpapdq := rpttUp z R d L 3 2 2 (bpapdq2 z o R d L)
def cmbpamdq := rpttDown z R d L 3 1 2 (bpamdq2 z o R d L)
def cpbpamdq := rpttUp z R d L 3 1 2 (bpamdq2 z o R d L)
def cmbmapdq := rpttDown z R d L 3 2 1 (bmapdq2 z o R d L)
def cpbmapdq := rpttUp z R d L 3 2 1 (bmapdq2 z o R d L)
def cmbmamdq := rpttDown z R d L 3 1 1 (bmamdq2 z o R d L)
def cpbmamdq := rpttUp z R d L 3 1 1 (bmamdq2 z o R d L)

end

/-- The elements of the arrays for the changes of the fluxes: position, component, side, slice. -/
inductive AL
  | faddm (i m : ℤ)
  | faddp (i m : ℤ)
  | gadd (i m side slice : ℤ)
  | hadd (i m side slice : ℤ)
  deriving DecidableEq

abbrev Acc := AL → ℚ

section
variable (z : Shape) (o : Method) (R : Solver) (d : Dir) (L : Slice)

/-- Lines 245-251. -/
def godunov : Acc → Acc :=
  loop 1 (L.n + 1) fun i => loop 1 z.meqn fun m =>
    addAll [(.faddp i m, -apdq z R d L i m), (.faddm i m, amdq z R d L i m)]

/-- Lines 279-310. -/
def second : Acc → Acc :=
  loop 1 (L.n + 1) fun i => loop 1 z.meqn fun m =>
    addAll [(.faddm i m, cqxx z o R d L i m), (.faddp i m, cqxx z o R d L i m)]

/-- Lines 458-536. -/
def addG : Acc → Acc :=
  loop 1 (L.n + 1) fun i => loop 1 z.meqn fun m => addAll (
    [(.gadd (i - 1) m 1 0, -(1 / 2 * L.dt1 (i - 1) * bmamdq z R d L i m)),
     (.gadd (i - 1) m 2 0, -(1 / 2 * L.dt1 (i - 1) * bpamdq z R d L i m)),
     (.gadd i m 1 0, -(1 / 2 * L.dt1 i * bmapdq z R d L i m)),
     (.gadd i m 2 0, -(1 / 2 * L.dt1 i * bpapdq z R d L i m))] ++
    (if 0 < m4 o then
      [(.gadd i m 2 0, 1 / 6 * L.dt1 (i - 1) * L.dt3 i * (bpcpapdq z R d L i m - bpcmapdq z R d L i m)),
       (.gadd i m 1 0, 1 / 6 * L.dt1 i * L.dt3 i * (bmcpapdq z R d L i m - bmcmapdq z R d L i m)),
       (.gadd i m 2 1, -(1 / 6 * L.dt1 i * L.dt3 i * bpcpapdq z R d L i m)),
       (.gadd i m 1 1, -(1 / 6 * L.dt1 i * L.dt3 i * bmcpapdq z R d L i m)),
       (.gadd i m 2 (-1), 1 / 6 * L.dt1 i * L.dt3 i * bpcmapdq z R d L i m),
       (.gadd i m 1 (-1), 1 / 6 * L.dt1 i * L.dt3 i * bmcmapdq z R d L i m),
       (.gadd (i - 1) m 2 0, 1 / 6 * L.dt1 (i - 1) * L.dt3 i * (bpcpamdq z R d L i m - bpcmamdq z R d L i m)),
       (.gadd (i - 1) m 1 0, 1 / 6 * L.dt1 (i - 1) * L.dt3 i * (bmcpamdq z R d L i m - bmcmamdq z R d L i m)),
       (.gadd (i - 1) m 2 1, -(1 / 6 * L.dt1 (i - 1) * L.dt3 i * bpcpamdq z R d L i m)),
       (.gadd (i - 1) m 1 1, -(1 / 6 * L.dt1 (i - 1) * L.dt3 i * bmcpamdq z R d L i m)),
       (.gadd (i - 1) m 2 (-1), 1 / 6 * L.dt1 (i - 1) * L.dt3 i * bpcmamdq z R d L i m),
       (.gadd (i - 1) m 1 (-1), 1 / 6 * L.dt1 (i - 1) * L.dt3 i * bmcmamdq z R d L i m)]
    else []) ++
    (if 2 ≤ m3 o then
      [(.gadd i m 2 0, L.dt1 i * bpcqxxp z o R d L i m),
       (.gadd i m 1 0, L.dt1 i * bmcqxxp z o R d L i m),
       (.gadd (i - 1) m 2 0, -(L.dt1 (i - 1) * bpcqxxm z o R d L i m)),
       (.gadd (i - 1) m 1 0, -(L.dt1 (i - 1) * bmcqxxm z o R d L i m))]
    else []))

/-- Lines 584-659. -/
def addH : Acc → Acc :=
  loop 1 (L.n + 1) fun i => loop 1 z.meqn fun m => addAll (
    [(.hadd (i - 1) m 1 0, -(1 / 2 * L.dt1 (i - 1) * cmamdq z R d L i m)),
     (.hadd (i - 1) m 2 0, -(1 / 2 * L.dt1 (i - 1) * cpamdq z R d L i m)),
     (.hadd i m 1 0, -(1 / 2 * L.dt1 i * cmapdq z R d L i m)),
     (.hadd i m 2 0, -(1 / 2 * L.dt1 i * cpapdq z R d L i m))] ++
    (if 0 < m4 o then
      [(.hadd i m 2 0, 1 / 6 * L.dt1 i * L.dt2 i * (cpbpapdq z o R d L i m - cpbmapdq z o R d L i m)),
       (.hadd i m 1 0, 1 / 6 * L.dt1 i * L.dt2 i * (cmbpapdq z o R d L i m - cmbmapdq z o R d L i m)),
       (.hadd i m 2 1, -(1 / 6 * L.dt1 i * L.dt2 i * cpbpapdq z o R d L i m)),
       (.hadd i m 1 1, -(1 / 6 * L.dt1 i * L.dt2 i * cmbpapdq z o R d L i m)),
       (.hadd i m 2 (-1), 1 / 6 * L.dt1 i * L.dt2 i * cpbmapdq z o R d L i m),
       (.hadd i m 1 (-1), 1 / 6 * L.dt1 i * L.dt2 i * cmbmapdq z o R d L i m),
       (.hadd (i - 1) m 2 0, 1 / 6 * L.dt1 (i - 1) * L.dt2 i * (cpbpamdq z o R d L i m - cpbmamdq z o R d L i m)),
       (.hadd (i - 1) m 1 0, 1 / 6 * L.dt1 (i - 1) * L.dt2 i * (cmbpamdq z o R d L i m - cmbmamdq z o R d L i m)),
       (.hadd (i - 1) m 2 1, -(1 / 6 * L.dt1 (i - 1) * L.dt2 i * cpbpamdq z o R d L i m)),
       (.hadd (i - 1) m 1 1, -(1 / 6 * L.dt1 (i - 1) * L.dt2 i * cmbpamdq z o R d L i m)),
       (.hadd (i - 1) m 2 (-1), 1 / 6 * L.dt1 (i - 1) * L.dt2 i * cpbmamdq z o R d L i m),
       (.hadd (i - 1) m 1 (-1), 1 / 6 * L.dt1 (i - 1) * L.dt2 i * cmbmamdq z o R d L i m)]
    else []) ++
    (if 2 ≤ m3 o then
      [(.hadd i m 2 0, L.dt1 i * cpcqxxp z o R d L i m),
       (.hadd i m 1 0, L.dt1 i * cmcqxxp z o R d L i m),
       (.hadd (i - 1) m 2 0, -(L.dt1 (i - 1) * cpcqxxm z o R d L i m)),
       (.hadd (i - 1) m 1 0, -(L.dt1 (i - 1) * cmcqxxm z o R d L i m))]
    else []))

/-- Lines 253-264. -/
def cfl1d : ℚ :=
  loop 1 z.mwaves (fun mw => loop 1 (L.n + 1) fun i c =>
    max (max c (L.dt1 i * sp z R d L mw i)) (-L.dt1 (i - 1) * sp z R d L mw i)) 0

/-- Does the routine use elements of `work` that it has not set? `cqxx` is set for `method(2) ≠ 1`, its parts for
`m3 = 2`. -/
def unset : Bool := decide ((m3 o = 2 ∧ o.order = 1) ∨ 2 < m3 o ∨ (0 < m3 o ∧ m4 o = 2 ∧ m3 o ≠ 2))

/-- `flux3`: the changes of the fluxes. -/
def flux3 : Acc :=
  let a := godunov z R d L fun _ => 0
  let b := if o.order = 1 then a else second z o R d L a
  if m3 o ≤ 0 then b else addH z o R d L (addG z o R d L b)

end

/-! ### Step -/

/-- The elements of `qold` and of the fluxes: cell, component. -/
abbrev QArr := ℤ × ℤ × ℤ × ℤ → ℚ

/-- `a(c) = v`. -/
def assign {α : Type} [DecidableEq α] (c : α) (v : ℚ) (M : α → ℚ) : α → ℚ := fun l => if l = c then v else M l

inductive FL
  | fm (i j k m : ℤ)
  | fp (i j k m : ℤ)
  | gm (i j k m : ℤ)
  | gp (i j k m : ℤ)
  | hm (i j k m : ℤ)
  | hp (i j k m : ℤ)
  deriving DecidableEq

abbrev Fluxes := FL → ℚ

/-- `fc3d_clawpack46_fix_corners`, fc3d_clawpack46_step3.f90:557-630; `int(ihat(k)-jhat(k))` and
`int(ihat(k)+jhat(k))` are written out. -/
def fixCorners (z : Shape) (sweepDir : ℤ) (count : ℤ → ℤ) : QArr → QArr :=
  loop (1 - z.mbc) (z.mz + z.mbc) fun kz => loop 0 3 fun k q =>
    if count k ≠ 3 then q
    else
      let useB := (sweepDir = 0 ∧ (k = 0 ∨ k = 3)) ∨ (sweepDir = 1 ∧ (k = 1 ∨ k = 2))
      let dif : ℤ := if k = 0 then 0 else if k = 1 then z.mx else if k = 2 then -z.my else z.mx - z.my
      let sum : ℤ := if k = 0 then 1 else if k = 1 then z.mx + 1 else if k = 2 then z.my + 1 else z.mx + z.my + 1
      loop 1 z.mbc (fun ibc => loop 1 z.mbc fun jbc =>
        let i1 : ℤ := if k = 0 ∨ k = 2 then 1 - ibc else z.mx + ibc
        let j1 : ℤ := if k = 0 ∨ k = 1 then 1 - jbc else z.my + jbc
        let idata := if useB then j1 + dif else -j1 + sum
        let jdata := if useB then -i1 + sum else i1 - dif
        loop 1 z.meqn fun m q => assign (i1, j1, kz, m) (q (idata, jdata, kz, m)) q) q

/-- `dt/dx`, `dt/dy`, `dt/dz`. -/
structure Ratios where
  x : ℚ
  y : ℚ
  z : ℚ

section
variable (z : Shape) (o : Method) (R : Solver) (ρ : Ratios) (q : QArr) (aux : QArr)

/-- `dtdx1d(i)` and so on: lines 167-174 and, for example, 204-210. Division by zero gives zero
here; theorems assume capacities that are not zero. -/
def ratio (r : ℚ) (i j k : ℤ) : ℚ := if o.mcapa = 0 then r else r / aux (i, j, k, o.mcapa)

/-- The data of a slice in x, lines 197-226, as arguments of `flux3`, line 231. -/
def xSlice (j k : ℤ) : Slice :=
  { n := z.mx
    q1d := fun i m => q (i, j, k, m)
    dt1 := fun i => ratio o aux ρ.x i j k
    dt2 := fun i => ratio o aux ρ.y i j k
    dt3 := fun i => ratio o aux ρ.z i j k
    aux := fun r s i ma =>
      let j' := if r = 1 then j - 1 else if r = 2 then j else j + 1
      let k' := if s = 1 then k - 1 else if s = 2 then k else k + 1
      aux (i, j', k', ma) }

/-- A slice in y, lines 317-346. -/
def ySlice (i k : ℤ) : Slice :=
  { n := z.my
    q1d := fun j m => q (i, j, k, m)
    dt1 := fun j => ratio o aux ρ.y i j k
    dt2 := fun j => ratio o aux ρ.z i j k
    dt3 := fun j => ratio o aux ρ.x i j k
    aux := fun r s j ma =>
      let k' := if r = 1 then k - 1 else if r = 2 then k else k + 1
      let i' := if s = 1 then i - 1 else if s = 2 then i else i + 1
      aux (i', j, k', ma) }

/-- A slice in z, lines 443-472. -/
def zSlice (i j : ℤ) : Slice :=
  { n := z.mz
    q1d := fun k m => q (i, j, k, m)
    dt1 := fun k => ratio o aux ρ.z i j k
    dt2 := fun k => ratio o aux ρ.x i j k
    dt3 := fun k => ratio o aux ρ.y i j k
    aux := fun r s k ma =>
      let i' := if r = 1 then i - 1 else if r = 2 then i else i + 1
      let j' := if s = 1 then j - 1 else if s = 2 then j else j + 1
      aux (i', j', k, ma) }

/-- The sweep in x, lines 187-293; the fluxes of lines 258-291. -/
def xSweep : Fluxes → Fluxes :=
  loop 0 (z.mz + 1) fun k => loop 0 (z.my + 1) fun j =>
    let a := flux3 z o R .x (xSlice z o ρ q aux j k)
    loop 1 z.meqn fun m => loop (2 - z.mbc) (z.mx + z.mbc) fun i => addAll
      [(.fm i j k m, a (.faddm i m)),
       (.fp i j k m, a (.faddp i m)),
       (.gm i j (k - 1) m, a (.gadd i m 1 (-1))),
       (.gp i j (k - 1) m, a (.gadd i m 1 (-1))),
       (.gm i j k m, a (.gadd i m 1 0)),
       (.gp i j k m, a (.gadd i m 1 0)),
       (.gm i j (k + 1) m, a (.gadd i m 1 1)),
       (.gp i j (k + 1) m, a (.gadd i m 1 1)),
       (.gm i (j + 1) (k - 1) m, a (.gadd i m 2 (-1))),
       (.gp i (j + 1) (k - 1) m, a (.gadd i m 2 (-1))),
       (.gm i (j + 1) k m, a (.gadd i m 2 0)),
       (.gp i (j + 1) k m, a (.gadd i m 2 0)),
       (.gm i (j + 1) (k + 1) m, a (.gadd i m 2 1)),
       (.gp i (j + 1) (k + 1) m, a (.gadd i m 2 1)),
       (.hm i (j - 1) k m, a (.hadd i m 1 (-1))),
       (.hp i (j - 1) k m, a (.hadd i m 1 (-1))),
       (.hm i j k m, a (.hadd i m 1 0)),
       (.hp i j k m, a (.hadd i m 1 0)),
       (.hm i (j + 1) k m, a (.hadd i m 1 1)),
       (.hp i (j + 1) k m, a (.hadd i m 1 1)),
       (.hm i (j - 1) (k + 1) m, a (.hadd i m 2 (-1))),
       (.hp i (j - 1) (k + 1) m, a (.hadd i m 2 (-1))),
       (.hm i j (k + 1) m, a (.hadd i m 2 0)),
       (.hp i j (k + 1) m, a (.hadd i m 2 0)),
       (.hm i (j + 1) (k + 1) m, a (.hadd i m 2 1)),
       (.hp i (j + 1) (k + 1) m, a (.hadd i m 2 1))]

/-- The sweep in y, lines 307-419; the fluxes of lines 384-417. -/
def ySweep : Fluxes → Fluxes :=
  loop 0 (z.mz + 1) fun k => loop 0 (z.mx + 1) fun i =>
    let a := flux3 z o R .y (ySlice z o ρ q aux i k)
    loop 1 z.meqn fun m => loop 1 (z.my + 1) fun j => addAll
      [(.gm i j k m, a (.faddm j m)),
       (.gp i j k m, a (.faddp j m)),
       (.hm (i - 1) j k m, a (.gadd j m 1 (-1))),
       (.hp (i - 1) j k m, a (.gadd j m 1 (-1))),
       (.hm i j k m, a (.gadd j m 1 0)),
       (.hp i j k m, a (.gadd j m 1 0)),
       (.hm (i + 1) j k m, a (.gadd j m 1 1)),
       (.hp (i + 1) j k m, a (.gadd j m 1 1)),
       (.hm (i - 1) j (k + 1) m, a (.gadd j m 2 (-1))),
       (.hp (i - 1) j (k + 1) m, a (.gadd j m 2 (-1))),
       (.hm i j (k + 1) m, a (.gadd j m 2 0)),
       (.hp i j (k + 1) m, a (.gadd j m 2 0)),
       (.hm (i + 1) j (k + 1) m, a (.gadd j m 2 1)),
       (.hp (i + 1) j (k + 1) m, a (.gadd j m 2 1)),
       (.fm i j (k - 1) m, a (.hadd j m 1 (-1))),
       (.fp i j (k - 1) m, a (.hadd j m 1 (-1))),
       (.fm i j k m, a (.hadd j m 1 0)),
       (.fp i j k m, a (.hadd j m 1 0)),
       (.fm i j (k + 1) m, a (.hadd j m 1 1)),
       (.fp i j (k + 1) m, a (.hadd j m 1 1)),
       (.fm (i + 1) j (k - 1) m, a (.hadd j m 2 (-1))),
       (.fp (i + 1) j (k - 1) m, a (.hadd j m 2 (-1))),
       (.fm (i + 1) j k m, a (.hadd j m 2 0)),
       (.fp (i + 1) j k m, a (.hadd j m 2 0)),
       (.fm (i + 1) j (k + 1) m, a (.hadd j m 2 1)),
       (.fp (i + 1) j (k + 1) m, a (.hadd j m 2 1))]

/-- The sweep in z, lines 433-545; the fluxes of lines 510-543. -/
def zSweep : Fluxes → Fluxes :=
  loop 0 (z.my + 1) fun j => loop 0 (z.mx + 1) fun i =>
    let a := flux3 z o R .z (zSlice z o ρ q aux i j)
    loop 1 z.meqn fun m => loop 1 (z.mz + 1) fun k => addAll
      [(.hm i j k m, a (.faddm k m)),
       (.hp i j k m, a (.faddp k m)),
       (.fm i (j - 1) k m, a (.gadd k m 1 (-1))),
       (.fp i (j - 1) k m, a (.gadd k m 1 (-1))),
       (.fm i j k m, a (.gadd k m 1 0)),
       (.fp i j k m, a (.gadd k m 1 0)),
       (.fm i (j + 1) k m, a (.gadd k m 1 1)),
       (.fp i (j + 1) k m, a (.gadd k m 1 1)),
       (.fm (i + 1) (j - 1) k m, a (.gadd k m 2 (-1))),
       (.fp (i + 1) (j - 1) k m, a (.gadd k m 2 (-1))),
       (.fm (i + 1) j k m, a (.gadd k m 2 0)),
       (.fp (i + 1) j k m, a (.gadd k m 2 0)),
       (.fm (i + 1) (j + 1) k m, a (.gadd k m 2 1)),
       (.fp (i + 1) (j + 1) k m, a (.gadd k m 2 1)),
       (.gm (i - 1) j k m, a (.hadd k m 1 (-1))),
       (.gp (i - 1) j k m, a (.hadd k m 1 (-1))),
       (.gm i j k m, a (.hadd k m 1 0)),
       (.gp i j k m, a (.hadd k m 1 0)),
       (.gm (i + 1) j k m, a (.hadd k m 1 1)),
       (.gp (i + 1) j k m, a (.hadd k m 1 1)),
       (.gm (i - 1) (j + 1) k m, a (.hadd k m 2 (-1))),
       (.gp (i - 1) (j + 1) k m, a (.hadd k m 2 (-1))),
       (.gm i (j + 1) k m, a (.hadd k m 2 0)),
       (.gp i (j + 1) k m, a (.hadd k m 2 0)),
       (.gm (i + 1) (j + 1) k m, a (.hadd k m 2 1)),
       (.gp (i + 1) (j + 1) k m, a (.hadd k m 2 1))]

/-- `cflgrid`: in the sweeps, lines 254, 375 and 501, one after the other from 0 (line 147). -/
def cflX (c : ℚ) : ℚ :=
  loop 0 (z.mz + 1) (fun k => loop 0 (z.my + 1) fun j c => max c (cfl1d z R .x (xSlice z o ρ q aux j k))) c
def cflY (c : ℚ) : ℚ :=
  loop 0 (z.mz + 1) (fun k => loop 0 (z.mx + 1) fun i c => max c (cfl1d z R .y (ySlice z o ρ q aux i k))) c
def cflZ (c : ℚ) : ℚ :=
  loop 0 (z.my + 1) (fun j => loop 0 (z.mx + 1) fun i c => max c (cfl1d z R .z (zSlice z o ρ q aux i j))) c

/-- The update of the solution, fc3d_clawpack46_step3_wrap.f90:95-119. -/
def update (F : Fluxes) : QArr → QArr :=
  loop 1 z.meqn fun m => loop 1 z.mx fun i => loop 1 z.my fun j => loop 1 z.mz fun k q => assign (i, j, k, m)
    (if o.mcapa = 0 then
        q (i, j, k, m) - ρ.x * (F (.fm (i + 1) j k m) - F (.fp i j k m)) - ρ.y * (F (.gm i (j + 1) k m) - F (.gp i j k m))
          - ρ.z * (F (.hm i j (k + 1) m) - F (.hp i j k m))
      else
        q (i, j, k, m) - (ρ.x * (F (.fm (i + 1) j k m) - F (.fp i j k m)) + ρ.y * (F (.gm i (j + 1) k m) - F (.gp i j k m))
          + ρ.z * (F (.hm i j (k + 1) m) - F (.hp i j k m))) / aux (i, j, k, o.mcapa)) q

end

/-- `clawpack46_step3`, with the fluxes that it leaves, and the Courant number. The solution is changed in ghost cells
at corners. -/
def step3 (z : Shape) (o : Method) (R : Solver) (count : ℤ → ℤ) (ρ : Ratios) (q aux : QArr) : QArr × Fluxes × ℚ :=
  let q1 := fixCorners z 0 count q
  let F1 := xSweep z o R ρ q1 aux fun _ => 0
  let q2 := fixCorners z 1 count q1
  let F2 := ySweep z o R ρ q2 aux F1
  (q2, zSweep z o R ρ q2 aux F2, cflZ z o R ρ q2 aux (cflY z o R ρ q2 aux (cflX z o R ρ q1 aux 0)))

/-- The lengths of the pieces of `work`: fc3d_clawpack46_step3_wrap.f90:61-74, -/
def wrapPieces (z : Shape) : List ℤ :=
  let n : ℤ := z.maxm + 2 * z.mbc
  [n * z.meqn, n * z.meqn, 6 * n * z.meqn, 6 * n * z.meqn, n * z.meqn, n, n, n, n * z.maux * 3, n * z.maux * 3, n * z.maux * 3]

/-- fc3d_clawpack46_step3.f90:93-137. -/
def stepPieces (z : Shape) : List ℤ :=
  let n : ℤ := z.maxm + 2 * z.mbc
  [n * z.meqn * z.mwaves, n * z.mwaves] ++ List.replicate 31 (n * z.meqn)

/-- `mwork`, fc3d_clawpack46.cpp:343. -/
def mwork (z : Shape) : ℤ := (z.maxm + 2 * z.mbc) * (46 * z.meqn + (z.meqn + 1) * z.mwaves + 9 * z.maux + 3)

/-- `clawpack46_step3_wrap`: the new solution and the Courant number. `none`: the program stops or its behaviour is
not defined: too little work space (lines 77-80, fc3d_clawpack46_step3.f90:139-145), arrays with too few ghost
cells, elements of `work` that have not been set, a capacity that is not there (a number below 0, as the default
-1, is neither 0 nor greater than 0, and is used as an index in line 114), division by zero. -/
def step3Wrap (z : Shape) (o : Method) (R : Solver) (count : ℤ → ℤ) (dx dy dz dt : ℚ) (q aux : QArr) :
    Option (QArr × ℚ) :=
  let mused := (wrapPieces z).sum
  if dx = 0 ∨ dy = 0 ∨ dz = 0 then none
  else if mwork z < mused then none
  else if mwork z - mused < (stepPieces z).sum then none
  else if z.mbc < 2 then none
  else if unset o then none
  else if o.mcapa < 0 ∨ (z.maux : ℤ) < o.mcapa then none
  else
    let ρ : Ratios := ⟨dt / dx, dt / dy, dt / dz⟩
    let r := step3 z o R count ρ q aux
    some (update z o ρ aux r.2.1 r.1, r.2.2)

end Fclaw.Wave3
