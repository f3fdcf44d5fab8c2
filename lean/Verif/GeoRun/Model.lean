import Verif.Run.Model
import Mathlib.Data.Rat.Floor
/-
Model of the run loops of GeoClaw, src/solvers/fc2d_geoclaw/fc2d_geoclaw_run.c: `step_dtopo`,
`outstyle_1`, `outstyle_3`, `outstyle_4`, and `fc2d_geoclaw_get_dtopo_interval`.

Arithmetic is exact. The state `D` of the forest is arbitrary, and so is what a step, the
restoration of saved data and regridding do to it and which CFL number a step reports (`World`).
The loops need not end, so they are given by the body of the loop and its repetition. Undefined
behaviour (conversion of a quotient 0/0 to `int`, division by zero) and `exit` are `none`.
-/
set_option autoImplicit false
namespace Fclaw.GeoRun

open Run (Opts counts3)

/-- A call of `fclaw2d_advance_all_levels`: start, length and the CFL number it returned. -/
structure Call where
  t : ℚ
  dt : ℚ
  cfl : ℚ

inductive Ev where
  /-- `fclaw2d_output_frame`: number and `glob->curr_time`. -/
  | frame (i : Nat) (t : ℚ)
  /-- `fclaw2d_diagnostics_gather`. -/
  | diagnostics (init : Bool)
  /-- A pass through the loop whose calls are kept. -/
  | accept (calls : List Call)
  /-- A pass that is undone by `restore_time_step`. -/
  | reject (calls : List Call)
  | regrid (n : Nat)

structure World (D : Type) where
  advance : D → ℚ → ℚ → D × ℚ
  /-- `restore_time_step`: from the data that was saved and the current data. -/
  restore : D → D → D
  regrid : D → D

/-- Motion of the ground: `dtopo_interval[0]`, `dtopo_interval[1]`, `dt_max_dtopo`. -/
structure Motion where
  lo : ℚ
  hi : ℚ
  dtMax : ℚ

/-- `fc2d_geoclaw_get_dtopo_interval`, fortran_source/geoclaw_b4step2_fort.f90:90-109, with the times
`t0dtopo, tfdtopo` of the files; `big` is 1.d99. -/
def dtopoInterval (big : ℚ) (files : List (ℚ × ℚ)) : ℚ × ℚ :=
  files.foldl (fun r f => (if f.1 < r.1 then f.1 else r.1, if f.2 ≥ r.2 then f.2 else r.2)) (big, 0)

section
variable {D : Type}

/-- The loop over `n`, fc2d_geoclaw_run.c:155-164: `M` calls of length `dt1` from `curr_time`. Returns data, `curr_time`,
`maxcfl` and the calls. -/
def subSteps (w : World D) (dt1 : ℚ) : Nat → D → ℚ → ℚ → D × ℚ × ℚ × List Call
  | 0, d, currTime, maxcfl => (d, currTime, maxcfl, [])
  | m + 1, d, currTime, maxcfl =>
    let a := w.advance d currTime dt1
    let r := subSteps w dt1 m a.1 (currTime + dt1) (if a.2 > maxcfl then a.2 else maxcfl)
    (r.1, r.2.1, r.2.2.1, ⟨currTime, dt1, a.2⟩ :: r.2.2.2)

/-- Step 1 of `step_dtopo`, lines 112-132: data, `curr_time`, `maxcfl`, calls, `tstart_local`. -/
def stepTo (w : World D) (g : Motion) (d : D) (currTime tstart : ℚ) : D × ℚ × ℚ × List Call × ℚ :=
  if g.lo > tstart then
    let dt0 := g.lo - tstart
    let a := w.advance d tstart dt0
    (a.1, tstart + dt0, a.2, [⟨tstart, dt0, a.2⟩], tstart + dt0)
  else (d, currTime, 0, [], tstart)

/-- `tend_local`, lines 138-145. -/
def tendLocal (g : Motion) (tstart tend : ℚ) : ℚ :=
  let tl := if g.hi < tend then g.hi else tend
  if |tend - tl| < 1 / 100 * (tend - tstart) then tend else tl

/-- `step_dtopo`, lines 93-183. -/
def stepDtopo (w : World D) (g : Motion) (d : D) (currTime tstart tend : ℚ) :
    Option (D × ℚ × ℚ × List Call) :=
  if g.hi ≤ tstart ∨ tend ≤ g.lo then none else
  let r1 := stepTo w g d currTime tstart
  let tl := tendLocal g tstart tend
  let dtD := tl - r1.2.2.2.2
  let dtmin := if dtD < g.dtMax then dtD else g.dtMax
  if dtmin = 0 then none else
  let M : ℤ := ⌈dtD / dtmin⌉ + 1
  let dt1 := dtD / M
  let r2 := subSteps w dt1 M.toNat r1.1 r1.2.1 r1.2.2.1
  if tl < tend then
    let dt2 := tend - tl
    let a := w.advance r2.1 tl dt2
    some (a.1, r2.2.1 + dt2, if a.2 > r2.2.2.1 then a.2 else r2.2.2.1,
      r1.2.2.2.1 ++ r2.2.2.2 ++ [⟨tl, dt2, a.2⟩])
  else some (r2.1, r2.2.1, r2.2.2.1, r1.2.2.2.1 ++ r2.2.2.2)

/-- The variables of the loops. -/
structure St (D : Type) where
  data : D
  n : Nat
  nInner : Nat
  iframe : Nat
  t : ℚ
  tend : ℚ
  dtMin : ℚ
  currTime : ℚ
  log : List Ev

/-- What both loops do for a step, lines 281-303 and 486-507: data, `curr_time`, `maxcfl_step`, calls, `tc`,
`took_step`. -/
def takeStep (w : World D) (g : Motion) (d : D) (currTime t dt : ℚ) :
    Option (D × ℚ × ℚ × List Call × ℚ × Bool) :=
  let tend := t + dt
  if ¬ (g.hi ≤ t ∨ tend ≤ g.lo) then
    (stepDtopo w g d currTime t tend).map fun r => (r.1, r.2.1, r.2.2.1, r.2.2.2, r.2.1, true)
  else
    let a := w.advance d t dt
    some (a.1, currTime, a.2, [⟨t, dt, a.2⟩], t + dt, false)

/-- `if (regrid_interval > 0) if (n % regrid_interval == 0) fclaw2d_regrid`. -/
def regridStep (o : Opts) (w : World D) (n : Nat) (s : St D) : St D :=
  if o.regridInterval > 0 then
    if n % o.regridInterval = 0 then
      { s with data := w.regrid s.data, log := s.log ++ [.regrid n] }
    else s
  else s

/-! ### Output style 1 -/

/-- Lines 192-217 and 231-236 for the first pass. -/
def start1 (o : Opts) (data : D) : St D :=
  { data := data, n := 0, nInner := 0, iframe := 0, t := 0,
    tend := 0 + (o.tfinal - 0) / (o.nout : ℚ), dtMin := o.initialDt, currTime := 0,
    log := [.frame 0 0, .diagnostics true] }

/-- `dt_step` and whether it was cut, lines 253-279. -/
def chooseStep (o : Opts) (s : St D) : ℚ × Bool :=
  let dt := if o.advanceOneStep then s.dtMin / (o.levelFactor : ℚ) else s.dtMin
  let tol := 1 / 100 * dt
  if o.fixedDt then (dt, false)
  else
    let smallStep := s.tend - (s.t + dt)
    if smallStep < tol then (s.tend - s.t, decide (smallStep < 0)) else (dt, false)

/-- The body of the inner loop, lines 238-388. The maximum of the CFL numbers over all processes is part of
`World.advance`. -/
def inner1 (o : Opts) (w : World D) (g : Motion) (s : St D) : Option (St D) :=
  let r := chooseStep o s
  let dt := r.1
  let tookSmall := r.2
  match takeStep w g s.data s.currTime s.t dt with
  | none => none
  | some (d, ct, c, calls, _, took) =>
    if !took && (decide (c > o.maxCfl) && o.reduceCfl && !o.fixedDt) then
      some { s with
        data := w.restore s.data d
        currTime := ct
        dtMin := s.dtMin * o.desiredCfl / c
        log := s.log ++ [.reject calls] }
    else
      some (regridStep o w (s.nInner + 1)
        { s with
          data := d
          nInner := s.nInner + 1
          t := s.t + dt
          currTime := s.t + dt
          dtMin := if !o.fixedDt && !tookSmall then s.dtMin * o.desiredCfl / c else s.dtMin
          log := s.log ++ [.accept calls] ++ (if o.advanceOneStep then [.diagnostics false] else []) })

/-- One pass through the inner loop, or its end with output and the start of the next pass of the outer loop,
lines 231-236 and 390-396. -/
def next1 (o : Opts) (w : World D) (g : Motion) (s : St D) : Option (St D) :=
  if s.t < s.tend then inner1 o w g s
  else
    some { s with
      n := s.n + 1
      iframe := s.iframe + 1
      tend := s.t + (o.tfinal - 0) / (o.nout : ℚ)
      currTime := s.t
      log := s.log ++ [.diagnostics false, .frame (s.iframe + 1) s.t] }

/-- `outstyle_1` up to at most `k` passes. -/
def run1 (o : Opts) (w : World D) (g : Motion) : Nat → St D → Option (St D)
  | 0, s => some s
  | k + 1, s => if s.n < o.nout then
      match next1 o w g s with
      | none => none
      | some s => run1 o w g k s
    else some s

/-! ### Output styles 3 and 4 -/

/-- Lines 416-434 and 466-467. -/
def start3 (o : Opts) (data : D) : St D :=
  { data := data, n := 0, nInner := 0, iframe := 0, t := 0, tend := 0, dtMin := o.initialDt,
    currTime := 0, log := [.diagnostics true, .frame 0 0] }

/-- The output at the end of a pass, lines 582-587 (`diag` is false) and 646-651 (`diag` is true). -/
def outputStep (diag : Bool) (nstepInner : Nat) (s : St D) : Option (St D) :=
  if nstepInner = 0 then none
  else if s.n % nstepInner = 0 then
    some { s with
      iframe := s.iframe + 1
      log := s.log ++ (if diag then [.diagnostics false] else []) ++ [.frame (s.iframe + 1) s.currTime] }
  else some s

/-- The body of the loop of `outstyle_3`, lines 469-588. `nstep_outer, nstep_inner` are as in `Run.counts3`
(lines 437-457). -/
def body3 (o : Opts) (w : World D) (g : Motion) (s : St D) : Option (St D) :=
  let dt := if !o.subcycle && o.advanceOneStep then s.dtMin / (o.levelFactor : ℚ) else s.dtMin
  match takeStep w g s.data s.currTime s.t dt with
  | none => none
  | some (d, ct, c, calls, tc, took) =>
    if !took && (o.reduceCfl && decide (c > o.maxCfl) && !o.fixedDt) then
      some { s with
        data := w.restore s.data d
        currTime := ct
        dtMin := s.dtMin * o.desiredCfl / c
        log := s.log ++ [.reject calls] }
    else
      let s1 := regridStep o w (s.n + 1)
        { s with
          data := d
          n := s.n + 1
          t := tc
          currTime := tc
          dtMin := if !o.fixedDt then s.dtMin * o.desiredCfl / c else s.dtMin
          log := s.log ++ [.accept calls] }
      outputStep false (counts3 o).2
        { s1 with log := s1.log ++ (if o.advanceOneStep then [.diagnostics false] else []) }

/-- `outstyle_3` up to at most `k` passes. -/
def run3 (o : Opts) (w : World D) (g : Motion) : Nat → St D → Option (St D)
  | 0, s => some s
  | k + 1, s => if s.n < (counts3 o).1 then
      match body3 o w g s with
      | none => none
      | some s => run3 o w g k s
    else some s

/-- The body of the loop of `outstyle_4`, lines 617-652; the motion of the ground is not looked at. -/
def body4 (o : Opts) (w : World D) (s : St D) : Option (St D) :=
  let a := w.advance s.data s.t s.dtMin
  outputStep true o.nstep (regridStep o w (s.n + 1)
    { s with
      data := a.1
      n := s.n + 1
      t := s.t + s.dtMin
      currTime := s.t + s.dtMin
      log := s.log ++ [.accept [⟨s.t, s.dtMin, a.2⟩]] })

/-- `outstyle_4` up to at most `k` passes. -/
def run4 (o : Opts) (w : World D) : Nat → St D → Option (St D)
  | 0, s => some s
  | k + 1, s => if s.n < o.nout then
      match body4 o w s with
      | none => none
      | some s => run4 o w k s
    else some s

end

end Fclaw.GeoRun
