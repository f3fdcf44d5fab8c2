/-
Model of the time stepping of one global step, `fclaw2d_advance_all_levels`
(src/fclaw2d_advance.c), on one process.

The work done on patches is recorded as a list of events. Times are rational numbers (no rounding).
The CFL number reported by the update of a level is an arbitrary function of what has happened
before. Reading an uninitialised counter, a failed assertion or a division by zero is the outcome
`none`.
-/
import Mathlib.Data.Rat.Defs
import Mathlib.Algebra.Order.Ring.Rat

set_option autoImplicit false
namespace Fclaw.Advance

/-- What the scheduler makes happen. -/
inductive Ev where
  /-- `fclaw2d_update_single_step` of all patches of a level from time `t` by `dt`; `cfl` reported. -/
  | update (level : Nat) (t dt cfl : ℚ)
  /-- `fclaw2d_timeinterp`: store time interpolated data for the patches of a level. -/
  | interp (level : Nat) (alpha : ℚ)
  /-- `fclaw2d_ghost_update` for levels `lo` to `hi` at time `t`, with or without interpolation
  from the time interpolated data of level `lo - 1`. -/
  | ghost (lo hi : Nat) (t : ℚ) (timeInterp : Bool)
  /-- `fclaw2d_time_sync` for levels `lo` to `hi`. -/
  | sync (lo hi : Nat)
  deriving DecidableEq

/-- `fclaw2d_level_data_t`, src/fclaw2d_advance.c:39-48 (`initial_time` is never read). -/
structure Counter where
  lastStep : Nat
  stepInc : Nat
  totalSteps : Nat
  currentTime : ℚ
  dtStep : ℚ

/-- The array `ts_counter`; `none` where nothing has been written. -/
abbrev Counters := Nat → Option Counter

def setLevel (ts : Counters) (level : Nat) (c : Counter) : Counters :=
  fun l => if l = level then some c else ts l

/-- The options and the levels of the domain that are used. -/
structure Setup where
  subcycle : Bool
  advanceOneStep : Bool
  timeSync : Bool
  minlevel : Nat           -- options
  maxlevel : Nat           -- options
  globalMinlevel : Nat     -- domain
  globalMaxlevel : Nat     -- domain
  localMinlevel : Nat      -- domain, on this process

/-- Loop over `n` levels starting at `level`, src/fclaw2d_advance.c:81-89 with 72-77. -/
def fillSubcycle (t : ℚ) : Nat → Nat → ℚ → Nat → Nat → Counters → Counters
  | 0, _, _, _, _, ts => ts
  | n + 1, level, dt, inc, total, ts =>
    fillSubcycle t n (level + 1) (dt / 2) (inc / 2) (total * 2)
      (setLevel ts level ⟨0, inc, total, t, dt⟩)

/-- Loop over `n` levels starting at `level`, lines 94-115 with 72-77. -/
def fillGlobal (t dt : ℚ) (rf : Nat) (oneStep : Bool) : Nat → Nat → Counters → Counters
  | 0, _, ts => ts
  | n + 1, level, ts =>
    fillGlobal t dt rf oneStep n (level + 1)
      (setLevel ts level (if oneStep then ⟨0, 1, 1, t, dt⟩ else ⟨0, 1, rf, t, dt / rf⟩))

/-- `initialize_timestep_counters`, src/fclaw2d_advance.c:53-118. `pow_int (2, n)` is `2 ^ n`
(C05; the exponents are at most 29 and not negative). -/
def initCounters (S : Setup) (t dt : ℚ) : Counters :=
  let n := S.maxlevel + 1 - S.minlevel
  if S.subcycle then
    fillSubcycle t n S.minlevel dt (2 ^ (S.globalMaxlevel - S.minlevel)) 1 (fun _ => none)
  else
    fillGlobal t dt (2 ^ (S.maxlevel - S.minlevel)) S.advanceOneStep n S.minlevel (fun _ => none)

structure St where
  ts : Counters
  log : List Ev

/-- `timeinterp_level`, src/fclaw2d_advance.c:142-152: the loop, at level `ti`. Going below level 0
or a zero step increment is `none`. -/
def timeinterpLevel (ts : Counters) (lastStep : Nat) : Nat → Option Nat
  | 0 => match ts 0 with
    | none => none
    | some c => if c.stepInc = 0 then none
      else if lastStep % c.stepInc = 0 then none else some 0
  | ti + 1 => match ts (ti + 1) with
    | none => none
    | some c => if c.stepInc = 0 then none
      else if lastStep % c.stepInc = 0 then timeinterpLevel ts lastStep ti else some (ti + 1)

/-- `compute_alpha`, src/fclaw2d_advance.c:154-172. -/
def computeAlpha (ts : Counters) (level : Nat) : Option ℚ :=
  match ts (level - 1), ts level with
  | some cc, some c =>
    if cc.stepInc = 0 then none else some (((c.lastStep % cc.stepInc : Nat) : ℚ) / (cc.stepInc : ℚ))
  | _, _ => none

/-- The first part of `advance_level`, src/fclaw2d_advance.c:203-217: update, increment step counter
and time; the new maximum CFL number. -/
def stepLevel (cfl : List Ev → ℚ) (level : Nat) (maxcfl : ℚ) (s : St) : Option (St × ℚ) :=
  match s.ts level with
  | none => none
  | some c =>
    let cflStep := cfl s.log
    some (⟨setLevel s.ts level
            { c with lastStep := c.lastStep + c.stepInc, currentTime := c.currentTime + c.dtStep },
           s.log ++ [.update level c.currentTime c.dtStep cflStep]⟩, max maxcfl cflStep)

/-- `advance_level`, src/fclaw2d_advance.c:191-247. -/
def advanceLevel (S : Setup) (cfl : List Ev → ℚ) : Nat → Nat → ℚ → St → Option (St × ℚ)
  | 0, _, maxcfl, s => stepLevel cfl 0 maxcfl s
  | level + 1, currFineStep, maxcfl, s =>
    match stepLevel cfl (level + 1) maxcfl s with
    | none => none
    | some (s, maxcfl) =>
      if level + 1 > S.localMinlevel then
        match s.ts level with
        | none => none
        | some cc =>
          if cc.lastStep = currFineStep then
            match advanceLevel S cfl level cc.lastStep maxcfl s with
            | none => none
            | some (s, cflStep) =>
              let maxcfl := max maxcfl cflStep
              if S.subcycle then
                match computeAlpha s.ts (level + 1) with
                | none => none
                | some alpha => some (⟨s.ts, s.log ++ [.interp level alpha]⟩, maxcfl)
              else some (s, maxcfl)
          else some (s, maxcfl)
      else some (s, maxcfl)

/-- The exchange after a fine step that is not the last one, lines 293-333. -/
def intermediate (S : Setup) (s : St) (c : Counter) : Option St :=
  if S.subcycle then
    match S.globalMaxlevel with
    | 0 => none                       -- reads ts_counter[-1]
    | m + 1 =>
      match timeinterpLevel s.ts c.lastStep m with
      | none => none
      | some ti =>
        some ⟨s.ts, s.log ++ [.ghost (ti + 1) S.globalMaxlevel c.currentTime true] ++
          (if S.timeSync then [.sync (ti + 1) S.globalMaxlevel] else [])⟩
  else
    some ⟨s.ts, s.log ++ [.ghost S.globalMinlevel S.globalMaxlevel c.currentTime false] ++
      (if S.timeSync then [.sync S.globalMinlevel S.globalMaxlevel] else [])⟩

/-- The loop over fine steps, lines 280-334: `n` steps, the first one has number `nf`. -/
def fineLoop (S : Setup) (cfl : List Ev → ℚ) : Nat → Nat → ℚ → St → Option (St × ℚ)
  | 0, _, maxcfl, s => some (s, maxcfl)
  | n + 1, nf, maxcfl, s =>
    match advanceLevel S cfl S.globalMaxlevel nf maxcfl s with
    | none => none
    | some (s, cflStep) =>
      let maxcfl := max cflStep maxcfl
      match s.ts S.globalMaxlevel with
      | none => none
      | some c =>
        if c.lastStep < c.totalSteps then
          match intermediate S s c with
          | none => none
          | some s => fineLoop S cfl n (nf + 1) maxcfl s
        else fineLoop S cfl n (nf + 1) maxcfl s

/-- The assertions on lines 338-342, for `n` levels starting at `level`. -/
def checkFinal (ts : Counters) : Nat → Nat → Bool
  | 0, _ => true
  | n + 1, level => match ts level with
    | none => false
    | some c => decide (c.lastStep = c.stepInc * c.totalSteps) && checkFinal ts n (level + 1)

/-- `fclaw2d_advance_all_levels`, src/fclaw2d_advance.c:253-374: the events and the CFL number
returned. -/
def advanceAllLevels (S : Setup) (cfl : List Ev → ℚ) (t dt : ℚ) : Option (List Ev × ℚ) :=
  let s : St := ⟨initCounters S t dt, []⟩
  match s.ts S.globalMaxlevel with
  | none => none
  | some c =>
    if c.stepInc ≠ 1 then none
    else match fineLoop S cfl c.totalSteps 0 0 s with
    | none => none
    | some (s, maxcfl) =>
      if checkFinal s.ts (S.globalMaxlevel + 1 - S.localMinlevel) S.localMinlevel then
        match s.ts S.globalMaxlevel with
        | none => none
        | some c =>
          some (s.log ++ [.ghost S.globalMinlevel S.globalMaxlevel c.currentTime false] ++
            (if S.timeSync then [.sync S.globalMinlevel S.globalMaxlevel] else []), maxcfl)
      else none

end Fclaw.Advance
