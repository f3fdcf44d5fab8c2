/-
Model of the run loops, src/fclaw2d_run.c: save_time_step, restore_time_step, outstyle_1,
outstyle_3, outstyle_4, with `clawpatch_save_step` and `clawpatch_restore_step`
(src/patches/clawpatch/fclaw2d_clawpatch.cpp:445-471).

Arithmetic is exact. What the solver does to the patches, which CFL number it reports, and how
regridding changes the patches is arbitrary (`Solver`); it may depend on everything that happened
before. The loops need not end, so they are given by the body of the loop and its repetition. A
division by zero is the outcome `none`.
-/
import Mathlib.Data.Rat.Defs
import Mathlib.Algebra.Order.Ring.Rat

set_option autoImplicit false
namespace Fclaw.Run

/-- The options that are used (fclaw_options_t); `levelFactor` is
`pow_int(2,maxlevel - minlevel)`. -/
structure Opts where
  fixedDt : Bool
  advanceOneStep : Bool
  reduceCfl : Bool
  subcycle : Bool
  outstyleUsesMaxlevel : Bool
  saveAux : Bool
  levelFactor : Nat
  nout : Nat
  nstep : Nat
  regridInterval : Nat
  tfinal : ℚ
  initialDt : ℚ
  maxCfl : ℚ
  desiredCfl : ℚ

inductive Ev where
  /-- `fclaw2d_output_frame`: number and `glob->curr_time`. -/
  | frame (i : Nat) (t : ℚ)
  /-- `fclaw2d_diagnostics_gather`. -/
  | diagnostics (init : Bool)
  /-- An accepted step from `t` by `dt`. -/
  | accept (t dt cfl : ℚ)
  /-- A rejected step. -/
  | reject (t dt cfl : ℚ)
  /-- `fclaw2d_regrid` at a step number. -/
  | regrid (n : Nat)
  deriving DecidableEq

/-- The data of a patch that is saved and restored: `griddata`, `griddata_save`, `aux`,
`aux_save`. -/
structure Patch (Q A : Type) where
  grid : Q
  gridSave : Q
  aux : A
  auxSave : A

structure Solver (Q A : Type) where
  /-- New solution and aux data of patch number `i`. -/
  advance : List Ev → List (Patch Q A) → ℚ → ℚ → Nat → Q × A
  cfl : List Ev → List (Patch Q A) → ℚ → ℚ → ℚ
  regrid : List Ev → List (Patch Q A) → List (Patch Q A)

section
variable {Q A : Type}

/-- `clawpatch_save_step`, src/patches/clawpatch/fclaw2d_clawpatch.cpp:445-457. -/
def savePatch (saveAux : Bool) (p : Patch Q A) : Patch Q A :=
  { p with gridSave := p.grid, auxSave := if saveAux then p.aux else p.auxSave }

/-- `clawpatch_restore_step`, lines 460-471. -/
def restorePatch (saveAux : Bool) (p : Patch Q A) : Patch Q A :=
  { p with grid := p.gridSave, aux := if saveAux then p.auxSave else p.aux }

/-- `fclaw2d_advance_all_levels`, the effect on the patches. -/
def advanceData (sv : Solver Q A) (log : List Ev) (data : List (Patch Q A)) (t dt : ℚ) :
    List (Patch Q A) :=
  data.mapIdx fun i p =>
    { p with grid := (sv.advance log data t dt i).1, aux := (sv.advance log data t dt i).2 }

/-- The variables of the loops. -/
structure St (Q A : Type) where
  data : List (Patch Q A)
  n : Nat                 -- `n`: outer iterations (style 1) or accepted steps (styles 3, 4)
  nInner : Nat            -- `n_inner` (style 1)
  iframe : Nat
  t : ℚ                   -- `t_curr`
  tend : ℚ                -- `tend` (style 1)
  dtMin : ℚ               -- `dt_minlevel`
  currTime : ℚ            -- `glob->curr_time`
  log : List Ev

/-- `if (regrid_interval > 0) if (n % regrid_interval == 0) fclaw2d_regrid`. -/
def regridStep (o : Opts) (sv : Solver Q A) (n : Nat) (s : St Q A) : St Q A :=
  if o.regridInterval > 0 then
    if n % o.regridInterval = 0 then
      { s with data := sv.regrid s.log s.data, log := s.log ++ [.regrid n] }
    else s
  else s

/-! ### Output style 1 -/

/-- src/fclaw2d_run.c:122-147 (`glob->curr_time` is zero, src/fclaw2d_global.c:106), and lines
149-152 for the first pass. -/
def start1 (o : Opts) (data : List (Patch Q A)) : St Q A :=
  { data := data, n := 0, nInner := 0, iframe := 0, t := 0,
    tend := 0 + (o.tfinal - 0) / (o.nout : ℚ), dtMin := o.initialDt, currTime := 0,
    log := [.diagnostics true, .frame 0 0] }

/-- `dt_step` and whether it was cut, lines 171-197. -/
def chooseStep (o : Opts) (s : St Q A) : ℚ × Bool :=
  let dt := if o.advanceOneStep then s.dtMin / (o.levelFactor : ℚ) else s.dtMin
  let tol := 1 / 100 * dt
  if o.fixedDt then (dt, false)
  else
    let smallStep := s.tend - (s.t + dt)
    if smallStep < tol then (s.tend - s.t, decide (smallStep < 0)) else (dt, false)

/-- The body of the inner loop, lines 155-287. -/
def inner1 (o : Opts) (sv : Solver Q A) (s : St Q A) : St Q A :=
  let data0 := if o.fixedDt then s.data else s.data.map (savePatch o.saveAux)
  let r := chooseStep o s
  let dt := r.1
  let tookSmall := r.2
  let c := sv.cfl s.log data0 s.t dt
  let data1 := advanceData sv s.log data0 s.t dt
  if decide (c > o.maxCfl) && o.reduceCfl && !o.fixedDt then
    { s with
      data := data1.map (restorePatch o.saveAux)
      dtMin := s.dtMin * o.desiredCfl / c
      log := s.log ++ [.reject s.t dt c] }
  else
    regridStep o sv (s.nInner + 1)
      { s with
        data := data1
        nInner := s.nInner + 1
        t := s.t + dt
        currTime := s.t + dt
        dtMin := if !o.fixedDt && !tookSmall then s.dtMin * o.desiredCfl / c else s.dtMin
        log := s.log ++ [.accept s.t dt c] ++
          (if o.advanceOneStep then [.diagnostics false] else []) }

/-- One pass through the inner loop, or its end with output and the start of the next pass of the
outer loop, lines 149-152, 289-295. -/
def next1 (o : Opts) (sv : Solver Q A) (s : St Q A) : St Q A :=
  if s.t < s.tend then inner1 o sv s
  else
    { s with
      n := s.n + 1
      iframe := s.iframe + 1
      tend := s.t + (o.tfinal - 0) / (o.nout : ℚ)
      currTime := s.t
      log := s.log ++ [.diagnostics false, .frame (s.iframe + 1) s.t] }

/-- `outstyle_1` up to at most `k` passes. -/
def run1 (o : Opts) (sv : Solver Q A) : Nat → St Q A → St Q A
  | 0, s => s
  | k + 1, s => if s.n < o.nout then run1 o sv k (next1 o sv s) else s

/-! ### Output styles 3 and 4 -/

/-- Lines 331-349: `nstep_outer`, `nstep_inner`. -/
def counts3 (o : Opts) : Nat × Nat :=
  if !o.subcycle && (o.advanceOneStep && !o.outstyleUsesMaxlevel) then
    (o.nout * o.levelFactor, o.nstep * o.levelFactor)
  else (o.nout, o.nstep)

def start3 (o : Opts) (data : List (Patch Q A)) : St Q A :=
  { data := data, n := 0, nInner := 0, iframe := 0, t := 0, tend := 0, dtMin := o.initialDt,
    currTime := 0, log := [.diagnostics true, .frame 0 0] }

/-- The output at the end of a pass, lines 438-443 and 504-509. -/
def outputStep (nstepInner : Nat) (s : St Q A) : Option (St Q A) :=
  if nstepInner = 0 then none
  else if s.n % nstepInner = 0 then
    some { s with
      iframe := s.iframe + 1
      log := s.log ++ [.diagnostics false, .frame (s.iframe + 1) s.currTime] }
  else some s

/-- The body of the loop of `outstyle_3`, lines 353-445. -/
def body3 (o : Opts) (sv : Solver Q A) (s : St Q A) : Option (St Q A) :=
  let dt := if !o.subcycle && o.advanceOneStep then s.dtMin / (o.levelFactor : ℚ) else s.dtMin
  let data0 := if o.fixedDt then s.data else s.data.map (savePatch o.saveAux)
  let c := sv.cfl s.log data0 s.t dt
  let data1 := advanceData sv s.log data0 s.t dt
  if o.reduceCfl && decide (c > o.maxCfl) && !o.fixedDt then
    some { s with
      data := data1.map (restorePatch o.saveAux)
      dtMin := s.dtMin * o.desiredCfl / c
      log := s.log ++ [.reject s.t dt c] }
  else
    outputStep (counts3 o).2 (regridStep o sv (s.n + 1)
      { s with
        data := data1
        n := s.n + 1
        t := s.t + dt
        currTime := s.t + dt
        dtMin := if !o.fixedDt then s.dtMin * o.desiredCfl / c else s.dtMin
        log := s.log ++ [.accept s.t dt c] })

/-- `outstyle_3` up to at most `k` passes. -/
def run3 (o : Opts) (sv : Solver Q A) : Nat → St Q A → Option (St Q A)
  | 0, s => some s
  | k + 1, s => if s.n < (counts3 o).1 then
      match body3 o sv s with
      | none => none
      | some s => run3 o sv k s
    else some s

def start4 (o : Opts) (data : List (Patch Q A)) : St Q A :=
  { data := data, n := 0, nInner := 0, iframe := 0, t := 0, tend := 0, dtMin := o.initialDt,
    currTime := 0, log := [.frame 0 0, .diagnostics true] }

/-- The body of the loop of `outstyle_4`, lines 473-511. -/
def body4 (o : Opts) (sv : Solver Q A) (s : St Q A) : Option (St Q A) :=
  outputStep o.nstep (regridStep o sv (s.n + 1)
    { s with
      data := advanceData sv s.log s.data s.t s.dtMin
      n := s.n + 1
      t := s.t + s.dtMin
      currTime := s.t + s.dtMin
      log := s.log ++ [.accept s.t s.dtMin (sv.cfl s.log s.data s.t s.dtMin)] })

/-- `outstyle_4` up to at most `k` passes. -/
def run4 (o : Opts) (sv : Solver Q A) : Nat → St Q A → Option (St Q A)
  | 0, s => some s
  | k + 1, s => if s.n < o.nout then
      match body4 o sv s with
      | none => none
      | some s => run4 o sv k s
    else some s
end

end Fclaw.Run
