import Mathlib.Analysis.SpecialFunctions.Pow.Real
import Mathlib.Analysis.SpecialFunctions.Trigonometric.Basic
/-
Model of a time step of a patch with GeoClaw:

* src/solvers/fc2d_geoclaw/riemann_source: geoclaw_riemann_utils.f (`riemanntype`, `riemann_aug_JCP`),
  rpn2_geoclaw.f, rpt2_geoclaw.f
* src/solvers/fc2d_geoclaw/fortran_source: geoclaw_flux2fw_fort.f, geoclaw_limiter_fort.f, philim.f,
  geoclaw_step2_fort.f90, geoclaw_step2_wrap_fort.f, geoclaw_b4step2_fort.f90, geoclaw_src2_fort.f90
* src/solvers/fc2d_geoclaw/fc2d_geoclaw.cpp: `geoclaw_step2`, `geoclaw_update`

Simplifications: numbers are real numbers, without rounding; a division by zero gives zero (the theorems about
denominators say when there is none). There are three equations and three waves. Arrays are functions of the
index; sums that are accumulated in loops are written as the sums, with the ranges of the loops where they
matter (at least two ghost cells are assumed). The Courant number that is returned is not modelled; neither are
wind and pressure. What `b4step2` does to `aux` while the ground moves is not modelled: `aux` is what it is
then. The switch `relimit` of `step2` and `flux2` is off, as in the code.
-/
set_option autoImplicit false
namespace Fclaw.GeoStep

noncomputable section

/-- Depth and two momenta: `q(1:3)`, indices from 0. -/
abbrev V := Fin 3 → ℝ

/-- Parameters of `geoclaw_module` and `amr_module`. -/
structure Params where
  g : ℝ
  /-- `dry_tolerance` -/
  tol : ℝ
  coordinateSystem : ℤ
  earthRadius : ℝ
  deg2rad : ℝ
  mcapa : ℤ
  maux : ℤ
  /-- `method(2)`, `method(3)` -/
  order : ℤ
  transOrder : ℤ
  mthlim : Fin 3 → ℤ

/-! ### Riemann problems -/

/-- What `riemanntype` returns; the switches `rare1` and `rare2` are not used. -/
structure RType where
  hm : ℝ
  s1m : ℝ
  s2m : ℝ

/-- One step of Newton's method for `sqrt(h)` (geoclaw_riemann_utils.f:576-585, `maxiter = 1`). -/
def newton (hL hR delu g h0 : ℝ) : ℝ :=
  let gL := Real.sqrt (1 / 2 * g * (1 / h0 + 1 / hL))
  let gR := Real.sqrt (1 / 2 * g * (1 / h0 + 1 / hR))
  let F0 := delu + (h0 - hL) * gL + (h0 - hR) * gR
  let dfdh := gL - g * (h0 - hL) / (4 * h0 ^ 2 * gL) + gR - g * (h0 - hR) / (4 * h0 ^ 2 * gR)
  let slope := 2 * Real.sqrt h0 * dfdh
  (Real.sqrt h0 - F0 / slope) ^ 2

/-- `riemanntype` with `maxiter = 1` (geoclaw_riemann_utils.f:514-625). -/
def riemanntype (hL hR uL uR tol g : ℝ) : RType :=
  let hmin := min hR hL
  let hmax := max hR hL
  let delu := uR - uL
  if hmin ≤ tol then
    let s := uR + uL - 2 * Real.sqrt (g * hR) + 2 * Real.sqrt (g * hL)
    ⟨0, s, s⟩
  else
    let Fmin := delu + 2 * (Real.sqrt (g * hmin) - Real.sqrt (g * hmax))
    let Fmax := delu + (hmax - hmin) * Real.sqrt (1 / 2 * g * (hmax + hmin) / (hmax * hmin))
    if 0 < Fmin then
      let hm := 1 / (16 * g) * (max 0 (-delu + 2 * (Real.sqrt (g * hL) + Real.sqrt (g * hR)))) ^ 2
      ⟨hm, uL + 2 * Real.sqrt (g * hL) - 3 * Real.sqrt (g * hm), uR - 2 * Real.sqrt (g * hR) + 3 * Real.sqrt (g * hm)⟩
    else if Fmax ≤ 0 then
      let hm := newton hL hR delu g hmax
      let u1m := uL - (hm - hL) * Real.sqrt (1 / 2 * g * (1 / hm + 1 / hL))
      let u2m := uR + (hm - hR) * Real.sqrt (1 / 2 * g * (1 / hm + 1 / hR))
      ⟨hm, u1m - Real.sqrt (g * hm), u2m + Real.sqrt (g * hm)⟩
    else
      let h0 := hmin
      let F0 := delu + 2 * (Real.sqrt (g * h0) - Real.sqrt (g * hmax)) +
        (h0 - hmin) * Real.sqrt (1 / 2 * g * (1 / h0 + 1 / hmin))
      let slope := (Fmax - F0) / (hmax - hmin)
      let hm := h0 - F0 / slope
      if hR < hL then
        ⟨hm, uL + 2 * Real.sqrt (g * hL) - 3 * Real.sqrt (g * hm), uL + 2 * Real.sqrt (g * hL) - Real.sqrt (g * hm)⟩
      else
        ⟨hm, uR - 2 * Real.sqrt (g * hR) + Real.sqrt (g * hm), uR - 2 * Real.sqrt (g * hR) + 3 * Real.sqrt (g * hm)⟩

/-- The state on one side of an edge: `hL`, `huL`, `hvL`, `bL`, `uL`, `vL`, `phiL`. -/
structure Side where
  h : ℝ
  hu : ℝ
  hv : ℝ
  b : ℝ
  u : ℝ
  v : ℝ
  phi : ℝ

/-- Speeds `sw(mw)` and waves `fw(m,mw)`. -/
structure Waves where
  s : Fin 3 → ℝ
  f : Fin 3 → Fin 3 → ℝ

/-- The determinant as it is written in `riemann_aug_JCP` (190-194 and 206-209). -/
def det3 (A : Fin 3 → Fin 3 → ℝ) : ℝ :=
  A 0 0 * (A 1 1 * A 2 2 - A 1 2 * A 2 1) - A 0 1 * (A 1 0 * A 2 2 - A 1 2 * A 2 0)
    + A 0 2 * (A 1 0 * A 2 1 - A 1 1 * A 2 0)

/-- Cramer's rule (196-210): `beta(k)`. -/
def cramer (r : Fin 3 → Fin 3 → ℝ) (del : Fin 3 → ℝ) (k : Fin 3) : ℝ :=
  det3 (fun m mw => if mw = k then del m else r m mw) / det3 r

/-- `criticaltol` (112). -/
def critical : ℝ := 1 / 1000000

/-- Lines 147-156: is this a sonic problem? -/
def sonic (g : ℝ) (L R : Side) (sE1 sE2 s1m s2m s1s2bar s1s2tilde : ℝ) : Prop :=
  |s1s2bar| ≤ critical ∨ s1s2bar * s1s2tilde ≤ critical ∨ s1s2bar * sE1 * sE2 ≤ critical ∨
  min |sE1| |sE2| < critical ∨ (sE1 < 0 ∧ 0 < s1m) ∨ (0 < sE2 ∧ s2m < 0) ∨
  (L.u + Real.sqrt (g * L.h)) * (R.u + Real.sqrt (g * R.h)) < 0 ∨
  (L.u - Real.sqrt (g * L.h)) * (R.u - Real.sqrt (g * R.h)) < 0

open Classical in
/-- The jump of the depth over the steady wave (158-174). -/
def steadyDepth (isSonic : Prop) (g delb hbar s1s2bar sE1 sE2 hstarHLL hL hR : ℝ) : ℝ :=
  let d := if isSonic then -delb else delb * g * hbar / s1s2bar
  if sE1 < -critical ∧ critical < sE2 then
    max (min d (hstarHLL * (sE2 - sE1) / sE2)) (hstarHLL * (sE2 - sE1) / sE1)
  else if critical ≤ sE1 then
    max (min d (hstarHLL * (sE2 - sE1) / sE1)) (-hL)
  else if sE2 ≤ -critical then
    max (min d hR) (hstarHLL * (sE2 - sE1) / sE2)
  else d

open Classical in
/-- The jump of the flux of momentum over the steady wave (176-184). -/
def steadyFlux (isSonic : Prop) (g delb hbar s1s2bar s1s2tilde hL hR : ℝ) : ℝ :=
  let d := if isSonic then -g * hbar * delb else -delb * g * hbar * s1s2tilde / s1s2bar
  max (min d (g * max (-hL * delb) (-hR * delb))) (g * min (-hL * delb) (-hR * delb))

/-- `riemann_aug_JCP` with `maxiter = 1` (geoclaw_riemann_utils.f:2-263). `rarecorrector` is false. The new
states that are computed for a further iteration (212-246) are not used. -/
def augJCP (tol g : ℝ) (L R : Side) (sE1 sE2 : ℝ) : Waves :=
  let delh := R.h - L.h
  let delhu := R.hu - L.hu
  let delphi := R.phi - L.phi
  let delb := R.b - L.b
  let t := riemanntype L.h R.h L.u R.u tol g
  let l1 := min sE1 t.s2m
  let l3 := max sE2 t.s1m
  let hstarHLL := max ((L.hu - R.hu + l3 * R.h - l1 * L.h) / (l3 - l1)) 0
  let l2 := 1 / 2 * (l1 + l3)
  let r (m mw : Fin 3) : ℝ :=
    if mw = 1 then (if m = 2 then 1 else 0)
    else
      let l := if mw = 0 then l1 else l3
      if m = 0 then 1 else if m = 1 then l else l ^ 2
  let hbar := max (1 / 2 * (L.h + R.h)) 0
  let s1s2bar := 1 / 4 * (L.u + R.u) ^ 2 - g * hbar
  let s1s2tilde := max 0 (L.u * R.u) - g * hbar
  let so := sonic g L R l1 l3 t.s1m t.s2m s1s2bar s1s2tilde
  let deldelh := steadyDepth so g delb hbar s1s2bar l1 l3 hstarHLL L.h R.h
  let deldelphi := steadyFlux so g delb hbar s1s2bar s1s2tilde L.h R.h
  let del (m : Fin 3) : ℝ := if m = 0 then delh - deldelh else if m = 1 then delhu else delphi - deldelphi
  let beta := cramer r del
  let fw31 := beta 0 * r 1 0 * L.v
  let fw33 := beta 2 * r 1 2 * R.v
  { s := fun mw => if mw = 0 then l1 else if mw = 1 then l2 else l3
    f := fun m mw =>
      if m = 0 then beta mw * r 1 mw
      else if m = 1 then beta mw * r 2 mw
      else if mw = 0 then fw31
      else if mw = 2 then fw33
      else R.h * R.u * R.v - L.h * L.u * L.v - fw31 - fw33 }

/-- Lines 94-105 of rpn2_geoclaw.f: negative depths become zero. -/
def clean (q : V) : V := if q 0 < 0 then 0 else q

/-- `mu` and `nv` (rpn2_geoclaw.f:85-92; also rpt2_geoclaw.f:39-45). -/
def muOf (ixy : ℤ) : Fin 3 := if ixy = 1 then 1 else 2
def nvOf (ixy : ℤ) : Fin 3 := if ixy = 1 then 2 else 1

/-- Lines 112-148 of rpn2_geoclaw.f for one side. -/
def side (g tol : ℝ) (ixy : ℤ) (q : V) (b : ℝ) : Side :=
  let h := q 0
  let hu := q (muOf ixy)
  let hv := q (nvOf ixy)
  if tol < h then ⟨h, hu, hv, b, hu / h, hv / h, 1 / 2 * g * h ^ 2 + hu ^ 2 / h⟩
  else ⟨0, 0, 0, b, 0, 0, 0⟩

/-- The state behind a wall (rpn2_geoclaw.f:161-166 and 178-183); `hv` of the dry cell stays. -/
def mirror (S : Side) (hv : ℝ) : Side := { S with hu := -S.hu, u := -S.u, hv := hv }

/-- Lines 150-187 of rpn2_geoclaw.f: what happens at the edge of the water. The first two results are the states, the third one
is `wall`. -/
def shore (g tol : ℝ) (L R : Side) : Side × Side × (Fin 3 → ℝ) :=
  if R.h ≤ tol then
    let t := riemanntype L.h L.h L.u (-L.u) tol g
    let hstartest := max L.h t.hm
    if hstartest + L.b < R.b then (L, mirror L R.hv, fun mw => if mw = 0 then 1 else 0)
    else if L.h + L.b < R.b then (L, { R with b := L.h + L.b }, fun _ => 1)
    else (L, R, fun _ => 1)
  else if L.h ≤ tol then
    let t := riemanntype R.h R.h (-R.u) R.u tol g
    let hstartest := max R.h t.hm
    if hstartest + R.b < L.b then (mirror R L.hv, R, fun mw => if mw = 2 then 1 else 0)
    else if R.h + R.b < L.b then ({ L with b := R.h + R.b }, R, fun _ => 1)
    else (L, R, fun _ => 1)
  else (L, R, fun _ => 1)

/-- Lines 189-199 of rpn2_geoclaw.f: Einfeldt speeds. -/
def einfeldt1 (g : ℝ) (L R : Side) : ℝ :=
  let sL := L.u - Real.sqrt (g * L.h)
  let uhat := (Real.sqrt (g * L.h) * L.u + Real.sqrt (g * R.h) * R.u) / (Real.sqrt (g * R.h) + Real.sqrt (g * L.h))
  let chat := Real.sqrt (g * (1 / 2) * (R.h + L.h))
  min sL (uhat - chat)

def einfeldt2 (g : ℝ) (L R : Side) : ℝ :=
  let sR := R.u + Real.sqrt (g * R.h)
  let uhat := (Real.sqrt (g * L.h) * L.u + Real.sqrt (g * R.h) * R.u) / (Real.sqrt (g * R.h) + Real.sqrt (g * L.h))
  let chat := Real.sqrt (g * (1 / 2) * (R.h + L.h))
  max sR (uhat + chat)

/-- The body of the first loop of `rpn2` for one edge (rpn2_geoclaw.f:150-223), in components normal and tangential to the
edge. -/
def edgeWaves (g tol : ℝ) (L R : Side) : Waves :=
  let p := shore g tol L R
  let w := augJCP tol g p.1 p.2.1 (einfeldt1 g p.1 p.2.1) (einfeldt2 g p.1 p.2.1)
  { s := fun mw => w.s mw * p.2.2 mw, f := fun m mw => w.f m mw * p.2.2 mw }

/-- `dxdc` (rpn2_geoclaw.f:241-245): the length of a degree. -/
def dxdc (P : Params) (ixy : ℤ) (lat : ℝ) : ℝ :=
  if ixy = 1 then P.earthRadius * P.deg2rad else P.earthRadius * Real.cos lat * P.deg2rad

/-- `rpn2` for the edge between two cells (rpn2_geoclaw.f:68-258): `qL`, `bL` belong to `qr(:,i-1)`, `auxr(1,i-1)`; `qR`, `bR`,
`lat` to `ql(:,i)`, `auxl(1,i)`, `auxl(3,i)`. -/
def rpn2 (P : Params) (ixy : ℤ) (qL qR : V) (bL bR lat : ℝ) : Waves :=
  let a := clean qL
  let b := clean qR
  let w : Waves :=
    if a 0 ≤ P.tol ∧ b 0 ≤ P.tol then ⟨fun _ => 0, fun _ _ => 0⟩
    else
      let w := edgeWaves P.g P.tol (side P.g P.tol ixy a bL) (side P.g P.tol ixy b bR)
      { s := w.s
        f := fun m mw =>
          if m = 0 then w.f 0 mw else if m = muOf ixy then w.f 1 mw else w.f 2 mw }
  if 0 < P.mcapa then
    { s := fun mw => dxdc P ixy lat * w.s mw, f := fun m mw => dxdc P ixy lat * w.f m mw }
  else w

/-- Fluctuations (rpn2_geoclaw.f:263-277). -/
def amdqOf (w : Waves) (m : Fin 3) : ℝ :=
  ∑ mw, if w.s mw < 0 then w.f m mw else if 0 < w.s mw then 0 else 1 / 2 * w.f m mw
def apdqOf (w : Waves) (m : Fin 3) : ℝ :=
  ∑ mw, if w.s mw < 0 then 0 else if 0 < w.s mw then w.f m mw else 1 / 2 * w.f m mw

/-- The numbers at the edge that `rpt2` needs of `aux1`, `aux2`, `aux3` at `i-1` and `i`. -/
structure AuxCell where
  b : ℝ
  lat : ℝ

/-- `rpt2` for one edge (rpt2_geoclaw.f:37-186). `lo`, `mid`, `hi` are `aux1`, `aux2`, `aux3` of the cell to the
left (`imp = 1`) or right of the edge. The result is `(bmasdq, bpasdq)`. -/
def rpt2 (P : Params) (ixy imp : ℤ) (qL qR : V) (lo mid hi : AuxCell) (asdq : V) : V × V :=
  let mu := muOf ixy
  let mv := nvOf ixy
  let hl := if qL 0 < P.tol then 0 else qL 0
  let ul := if qL 0 < P.tol then 0 else qL mu / qL 0
  let vl := if qL 0 < P.tol then 0 else qL mv / qL 0
  let hr := if qR 0 < P.tol then 0 else qR 0
  let ur := if qR 0 < P.tol then 0 else qR mu / qR 0
  let vr := if qR 0 < P.tol then 0 else qR mv / qR 0
  if hl ≤ P.tol ∧ hr ≤ P.tol then (0, 0)
  else
    let eta := (if imp = 1 then qL 0 else qR 0) + mid.b
    if eta < max lo.b hi.b then (0, 0)
    else
      let dxdcp := if P.coordinateSystem = 2 then
          (if ixy = 2 then P.earthRadius * P.deg2rad else P.earthRadius * Real.cos hi.lat * P.deg2rad) else 1
      let dxdcm := if P.coordinateSystem = 2 then
          (if ixy = 2 then P.earthRadius * P.deg2rad else P.earthRadius * Real.cos lo.lat * P.deg2rad) else 1
      let vhat := vr * Real.sqrt hr / (Real.sqrt hr + Real.sqrt hl) + vl * Real.sqrt hl / (Real.sqrt hr + Real.sqrt hl)
      let hhat := (hr + hl) / 2
      let s1 := min (vhat - Real.sqrt (P.g * hhat)) (vl - Real.sqrt (P.g * hl))
      let s3 := max (vhat + Real.sqrt (P.g * hhat)) (vr + Real.sqrt (P.g * hr))
      let s2 := 1 / 2 * (s1 + s3)
      let s (mw : Fin 3) : ℝ := if mw = 0 then s1 else if mw = 1 then s2 else s3
      let beta (mw : Fin 3) : ℝ :=
        if mw = 0 then s3 * asdq 0 / (s3 - s1) - asdq mv / (s3 - s1)
        else if mw = 1 then -s2 * asdq 0 + asdq mu
        else asdq mv / (s3 - s1) - s1 * asdq 0 / (s3 - s1)
      let r (k mw : Fin 3) : ℝ :=
        if mw = 1 then (if k = 1 then 1 else 0)
        else if k = 0 then 1 else if k = 1 then s2 else s mw
      let row (m : Fin 3) : Fin 3 := if m = 0 then 0 else if m = mu then 1 else 2
      (fun m => ∑ mw, if s mw < 0 then dxdcm * s mw * beta mw * r (row m) mw else 0,
       fun m => ∑ mw, if s mw < 0 then 0 else if 0 < s mw then dxdcp * s mw * beta mw * r (row m) mw else 0)

/-! ### One slice -/

/-- `philim` (philim.f:20-65). A number `meth` outside of 1 to 5 falls through the computed `go to`. -/
def philim (a b : ℝ) (meth : ℤ) : ℝ :=
  if a = 0 then 0
  else
    let r := b / a
    if meth = 2 then max 0 (max (min 1 (2 * r)) (min 2 r))
    else if meth = 3 then (r + |r|) / (1 + |r|)
    else if meth = 4 then max 0 (min ((1 + r) / 2) (min 2 (2 * r)))
    else if meth = 5 then r
    else max 0 (min 1 r)

/-- The inner product of a wave at the edges `i` and `i + 1`. -/
def dotRight (w : ℤ → Waves) (mw : Fin 3) (i : ℤ) : ℝ := ∑ m, (w i).f m mw * (w (i + 1)).f m mw

/-- `fc2d_geoclaw_limiter` (geoclaw_limiter_fort.f:34-58) at the edge `i` with `1 ≤ i ≤ mx + 1`. The waves of
the edges `i - 1` and `i + 1` in the inner products have not been limited. -/
def limiter (P : Params) (w : ℤ → Waves) (i : ℤ) : Waves :=
  { w i with
    f := fun m mw =>
      if P.mthlim mw = 0 then (w i).f m mw
      else
        let wnorm2 := ∑ m, (w i).f m mw ^ 2
        if wnorm2 = 0 then (w i).f m mw
        else
          let wlimitr := if 0 < (w i).s mw then philim wnorm2 (dotRight w mw (i - 1)) (P.mthlim mw)
            else philim wnorm2 (dotRight w mw i) (P.mthlim mw)
          wlimitr * (w i).f m mw }

/-- Fortran's `dsign(1.d0,s)`. -/
def sign1 (s : ℝ) : ℝ := if 0 ≤ s then 1 else -1

/-- A slice: `q1d`, `dtdx1d`, and what is needed of `aux1`, `aux2`, `aux3`. -/
structure Slice where
  q : ℤ → V
  dtdx : ℤ → ℝ
  lo : ℤ → AuxCell
  mid : ℤ → AuxCell
  hi : ℤ → AuxCell

/-- Results of `flux2`: `faddm`, `faddp`, `gaddm(:,:,side)`, `gaddp(:,:,side)`. -/
structure Fadd where
  fm : ℤ → V
  fp : ℤ → V
  gm : ℤ → ℤ → V
  gp : ℤ → ℤ → V

/-- The waves at the edge to the left of the cell `i`. -/
def edge (P : Params) (ixy : ℤ) (S : Slice) (i : ℤ) : Waves :=
  rpn2 P ixy (S.q (i - 1)) (S.q i) (S.mid (i - 1)).b (S.mid i).b (S.mid i).lat

/-- `limit` (geoclaw_flux2fw_fort.f:113-116). -/
def limits (P : Params) : Bool := decide (0 < P.mthlim 0 ∨ 0 < P.mthlim 1 ∨ 0 < P.mthlim 2)

/-- `dtdx1d(i-1)` after loop 120 (geoclaw_flux2fw_fort.f:193), which is skipped if `method(2) = 1`. -/
def dtdxEdge (P : Params) (S : Slice) (i : ℤ) : ℝ :=
  if P.order = 1 then S.dtdx (i - 1) else 1 / 2 * (S.dtdx (i - 1) + S.dtdx i)

/-- `cqxx` (geoclaw_flux2fw_fort.f:183-203). -/
def cqxx (P : Params) (ixy : ℤ) (S : Slice) (i : ℤ) : V :=
  let w := if limits P then limiter P (edge P ixy S) i else edge P ixy S i
  fun m => ∑ mw, sign1 (w.s mw) * (1 - |w.s mw| * dtdxEdge P S i) * w.f m mw

/-- `fc2d_geoclaw_flux2` (geoclaw_flux2fw_fort.f:111-263) for `n` cells, `n = mx` or `my`; `f` and `g` are those
at the indices `1, …, n + 1`, which are all that is used. `rpn2` has set negative depths to zero in `q1d`, which
`rpt2` sees. -/
def flux2 (P : Params) (ixy n : ℤ) (S : Slice) : Fadd :=
  let w := edge P ixy S
  let second := decide (P.order ≠ 1)
  let corr (i : ℤ) : V := if second then cqxx P ixy S i else 0
  let split := decide (1 < P.order ∧ P.transOrder = 2)
  let amdq (i : ℤ) : V := fun m => amdqOf (w i) m + (if split then cqxx P ixy S i m else 0)
  let apdq (i : ℤ) : V := fun m => apdqOf (w i) m - (if split then cqxx P ixy S i m else 0)
  let q (i : ℤ) : V := clean (S.q i)
  let left (i : ℤ) : V × V :=
    rpt2 P ixy 1 (q (i - 1)) (q i) (S.lo (i - 1)) (S.mid (i - 1)) (S.hi (i - 1)) (amdq i)
  let right (i : ℤ) : V × V := rpt2 P ixy 2 (q (i - 1)) (q i) (S.lo i) (S.mid i) (S.hi i) (apdq i)
  let gadd (i jside : ℤ) : V := fun m =>
    if P.transOrder = 0 then 0
    else
      (if i + 1 ≤ n + 1 then
        -(1 / 2 * dtdxEdge P S (i + 1) * (if jside = 1 then (left (i + 1)).1 m else (left (i + 1)).2 m)) else 0)
      - 1 / 2 * dtdxEdge P S i * (if jside = 1 then (right i).1 m else (right i).2 m)
  { fm := fun i m => amdqOf (w i) m + 1 / 2 * corr i m
    fp := fun i m => -apdqOf (w i) m + 1 / 2 * corr i m
    gm := gadd
    gp := gadd }

/-! ### One patch -/

/-- Sizes of a patch. -/
structure Dims where
  mx : ℤ
  my : ℤ
  mbc : ℤ

/-- `q(m,i,j)` and `aux(m,i,j)`. -/
abbrev Field := ℤ → ℤ → V
abbrev Aux := ℤ → ℤ → ℤ → ℝ

def auxCell (aux : Aux) (i j : ℤ) : AuxCell := ⟨aux 1 i j, aux 3 i j⟩

/-- `q1d` of an x-sweep (geoclaw_step2_fort.f90:91-121). -/
def rowX (d : Dims) (count : ℕ → ℤ) (q : Field) (j i : ℤ) : V :=
  if j = 0 ∧ count 0 = 3 ∧ 1 - d.mbc ≤ i ∧ i ≤ 0 then q (1 - i) 0
  else if j = 0 ∧ count 1 = 3 ∧ d.mx + 1 ≤ i ∧ i ≤ d.mx + d.mbc then q (2 * d.mx + 1 - i) 0
  else if j = d.my + 1 ∧ j ≠ 0 ∧ count 2 = 3 ∧ 1 - d.mbc ≤ i ∧ i ≤ 0 then q (1 - i) (d.my + 1)
  else if j = d.my + 1 ∧ j ≠ 0 ∧ count 3 = 3 ∧ d.mx + 1 ≤ i ∧ i ≤ d.mx + d.mbc then q (2 * d.mx + 1 - i) (d.my + 1)
  else q i j

/-- `q1d` of a y-sweep (geoclaw_step2_fort.f90:165-195). -/
def rowY (d : Dims) (count : ℕ → ℤ) (q : Field) (i j : ℤ) : V :=
  if i = 0 ∧ count 0 = 3 ∧ 1 - d.mbc ≤ j ∧ j ≤ 0 then q 0 (1 - j)
  else if i = 0 ∧ count 2 = 3 ∧ d.my + 1 ≤ j ∧ j ≤ d.my + d.mbc then q 0 (2 * d.my + 1 - j)
  else if i = d.mx + 1 ∧ i ≠ 0 ∧ count 1 = 3 ∧ 1 - d.mbc ≤ j ∧ j ≤ 0 then q (d.mx + 1) (1 - j)
  else if i = d.mx + 1 ∧ i ≠ 0 ∧ count 3 = 3 ∧ d.my + 1 ≤ j ∧ j ≤ d.my + d.mbc then q (d.mx + 1) (2 * d.my + 1 - j)
  else q i j

/-- The sweep over row `j` (geoclaw_step2_fort.f90:89-145). -/
def sweepX (P : Params) (d : Dims) (count : ℕ → ℤ) (q : Field) (aux : Aux) (dtdx : ℝ) (j : ℤ) : Fadd :=
  flux2 P 1 d.mx
    { q := rowX d count q j
      dtdx := fun i => if 0 < P.mcapa then dtdx / aux P.mcapa i j else dtdx
      lo := fun i => auxCell aux i (j - 1)
      mid := fun i => auxCell aux i j
      hi := fun i => auxCell aux i (j + 1) }

/-- The sweep over column `i` (geoclaw_step2_fort.f90:163-219). -/
def sweepY (P : Params) (d : Dims) (count : ℕ → ℤ) (q : Field) (aux : Aux) (dtdy : ℝ) (i : ℤ) : Fadd :=
  flux2 P 2 d.my
    { q := rowY d count q i
      dtdx := fun j => if 0 < P.mcapa then dtdy / aux P.mcapa i j else dtdy
      lo := fun j => auxCell aux (i - 1) j
      mid := fun j => auxCell aux i j
      hi := fun j => auxCell aux (i + 1) j }

/-- `fm`, `fp`, `gm`, `gp` after `fc2d_geoclaw_step2` (geoclaw_step2_fort.f90:78-232), at the edges of the cells of
the patch. -/
structure Fluxes where
  fm : ℤ → ℤ → V
  fp : ℤ → ℤ → V
  gm : ℤ → ℤ → V
  gp : ℤ → ℤ → V

def step2 (P : Params) (d : Dims) (count : ℕ → ℤ) (q : Field) (aux : Aux) (dtdx dtdy : ℝ) : Fluxes :=
  let x := sweepX P d count q aux dtdx
  let y := sweepY P d count q aux dtdy
  { fm := fun i j m => (x j).fm i m + (y i).gm j 1 m + (y (i - 1)).gm j 2 m
    fp := fun i j m => (x j).fp i m + (y i).gp j 1 m + (y (i - 1)).gp j 2 m
    gm := fun i j m => (y i).fm j m + (x j).gm i 1 m + (x (j - 1)).gm i 2 m
    gp := fun i j m => (y i).fp j m + (x j).gp i 1 m + (x (j - 1)).gp i 2 m }

/-- `fc2d_geoclaw_step2_wrap` (geoclaw_step2_wrap_fort.f:90-113): `none` if the index `mcapa` is outside of the
bounds of `aux`. -/
def step2Wrap (P : Params) (d : Dims) (count : ℕ → ℤ) (q : Field) (aux : Aux) (dx dy dt : ℝ) : Option Field :=
  let F := step2 P d count q aux (dt / dx) (dt / dy)
  if P.mcapa = 0 then
    some fun i j m =>
      if 1 ≤ i ∧ i ≤ d.mx ∧ 1 ≤ j ∧ j ≤ d.my then
        q i j m - dt / dx * (F.fm (i + 1) j m - F.fp i j m) - dt / dy * (F.gm i (j + 1) m - F.gp i j m)
      else q i j m
  else if 1 ≤ P.mcapa ∧ P.mcapa ≤ P.maux then
    some fun i j m =>
      if 1 ≤ i ∧ i ≤ d.mx ∧ 1 ≤ j ∧ j ≤ d.my then
        q i j m - (dt / dx * (F.fm (i + 1) j m - F.fp i j m) + dt / dy * (F.gm i (j + 1) m - F.gp i j m))
          / aux P.mcapa i j
      else q i j m
  else none

/-- `fc2d_geoclaw_b4step2` (geoclaw_b4step2_fort.f90:50-56) for one cell. -/
def b4step2 (P : Params) (q : V) : V :=
  if q 0 < P.tol then fun m => if m = 0 then max (q 0) 0 else 0 else q

/-! ### Source terms -/

/-- Parameters of the source terms. `manningBreak`, `manningCoefficient` have indices from 1. -/
structure Source where
  srcTerm : Bool
  frictionForcing : Bool
  frictionDepth : ℝ
  variableFriction : Bool
  frictionIndex : ℤ
  numManning : ℕ
  manningBreak : ℕ → ℝ
  manningCoefficient : ℕ → ℝ
  coriolisForcing : Bool
  theta0 : ℝ
  omega : ℝ

/-- The loop over `nman = num_manning, 1, -1` (geoclaw_src2_fort.f90:56-60). `init` is what `coeff` was before:
not set at the first cell. -/
def manning (S : Source) (b init : ℝ) : ℝ :=
  (List.range S.numManning).reverse.foldl
    (fun c k => if b < S.manningBreak (k + 1) then S.manningCoefficient (k + 1) else c) init

/-- Friction in a cell (geoclaw_src2_fort.f90:49-72). -/
def friction (P : Params) (S : Source) (dt coeff : ℝ) (q : V) : V :=
  if q 0 < 1 / 10 ^ 30 then fun m => if m = 0 then q 0 else 0
  else if q 0 ≤ S.frictionDepth then
    let gamma := Real.sqrt (q 1 ^ 2 + q 2 ^ 2) * P.g * coeff ^ 2 / (q 0) ^ ((7 : ℝ) / 3)
    let dgamma := 1 + dt * gamma
    fun m => if m = 0 then q 0 else q m / dgamma
  else q

/-- `coriolis` (geolib_source/geoclaw_module.f90:171-192). -/
def coriolis (P : Params) (S : Source) (y : ℝ) : ℝ :=
  if P.coordinateSystem = 1 then
    let theta := y / 111000 * P.deg2rad + S.theta0
    2 * S.omega * (Real.sin S.theta0 + (theta - S.theta0) * Real.cos S.theta0)
  else if P.coordinateSystem = 2 then 2 * S.omega * Real.sin (y * P.deg2rad)
  else 0

/-- The Coriolis term in a cell (geoclaw_src2_fort.f90:86-94). The second line uses what the first one has changed. -/
def coriolisStep (fdt : ℝ) (q : V) : V :=
  let a11 := 1 - 1 / 2 * fdt ^ 2 + fdt ^ 4 / 24
  let a12 := fdt - fdt ^ 3 / 6
  let a21 := -fdt + fdt ^ 3 / 6
  let a22 := a11
  let q2 := q 1 * a11 + q 2 * a12
  let q3 := q2 * a21 + q 2 * a22
  fun m => if m = 0 then q 0 else if m = 1 then q2 else q3

/-- `coeff` (geoclaw_src2_fort.f90:55-63). -/
def frictionCoeff (S : Source) (aux : Aux) (i j : ℤ) (init : ℝ) : ℝ :=
  if S.variableFriction then aux S.frictionIndex i j else manning S (aux 1 i j) init

/-- `fc2d_geoclaw_src2` without wind and pressure (geoclaw_src2_fort.f90:45-98). `init i j` is the value of
`coeff` when the loops come to the cell. -/
def src2 (P : Params) (S : Source) (d : Dims) (aux : Aux) (ylower dy dt : ℝ) (init : ℤ → ℤ → ℝ) (q : Field) : Field :=
  fun i j =>
    if 1 ≤ i ∧ i ≤ d.mx ∧ 1 ≤ j ∧ j ≤ d.my then
      let q1 := if S.frictionForcing then friction P S dt (frictionCoeff S aux i j (init i j)) (q i j) else q i j
      if S.coriolisForcing then coriolisStep (coriolis P S (ylower + (j - 1 / 2) * dy) * dt) q1 else q1
    else q i j

/-- `geoclaw_update` (fc2d_geoclaw.cpp:350-381). -/
def update (P : Params) (S : Source) (d : Dims) (count : ℕ → ℤ) (aux : Aux) (ylower dx dy dt : ℝ)
    (init : ℤ → ℤ → ℝ) (q : Field) : Option Field :=
  (step2Wrap P d count (fun i j => b4step2 P (q i j)) aux dx dy dt).map fun q' =>
    if S.srcTerm then src2 P S d aux ylower dy dt init q' else q'

end

end Fclaw.GeoStep
