/-
Model of the timers, src/fclaw_timer.c and .h, and of where the library uses them.

Readings of the clock (`fclaw2d_timer_wtime`) are rational numbers and added exactly.
-/
import Mathlib.Data.Rat.Defs
import Mathlib.Data.Rat.Floor
import Mathlib.Data.Finset.Insert
import Mathlib.Algebra.BigOperators.Group.List.Basic

set_option autoImplicit false
namespace Fclaw.Timer

/-- `fclaw2d_timer_names_t`, src/fclaw_timer.h:53-105, without the counters and derived numbers that are kept in
the same array but are never started (UNACCOUNTED, …_COUNTER, GRIDS_…, LOCAL_COMM, GLOBAL_COMM), and the
unused EXTRA2 to EXTRA4 and CUDA timers. -/
inductive Name where
  | init | advance | ellipticSolve | ghostfill | regrid | diagnostics | output
  | ghostpatchComm | adaptComm | partitionComm | diagnosticsComm | cflComm
  | walltime
  | regridBuild | regridTagging | timesync | ghostpatchBuild | partition | partitionBuild
  | advanceStep2 | advanceB4step2
  | ghostfillCopy | ghostfillAverage | ghostfillInterp | ghostfillPhysbc
  | ghostfillStep1 | ghostfillStep2 | ghostfillStep3
  | neighborSearch | extra1
  deriving DecidableEq, Repr

/-- All of them. -/
def Name.all : List Name :=
  [.init, .advance, .ellipticSolve, .ghostfill, .regrid, .diagnostics, .output, .ghostpatchComm, .adaptComm,
   .partitionComm, .diagnosticsComm, .cflComm, .walltime, .regridBuild, .regridTagging, .timesync, .ghostpatchBuild,
   .partition, .partitionBuild, .advanceStep2, .advanceB4step2, .ghostfillCopy, .ghostfillAverage, .ghostfillInterp,
   .ghostfillPhysbc, .ghostfillStep1, .ghostfillStep2, .ghostfillStep3, .neighborSearch, .extra1]

/-- `fclaw2d_timer_t`, src/fclaw_timer.h:119-125. -/
structure Timer where
  running : Bool
  started : Rat
  stopped : Rat
  cumulative : Rat
  deriving DecidableEq, Repr

/-- `fclaw2d_timer_init`, src/fclaw_timer.c:74-78: all bytes are zero. -/
def zero : Timer := ⟨false, 0, 0, 0⟩

/-- `fclaw2d_timer_start`, lines 80-93; `none` is an abort. -/
def start (w : Rat) (t : Timer) : Option Timer :=
  if !t.running then some { t with started := w, stopped := 0, running := true } else none

/-- `fclaw2d_timer_stop`, lines 95-108. -/
def stop (w : Rat) (t : Timer) : Option Timer :=
  if t.running then some { t with stopped := w, cumulative := t.cumulative + (w - t.started), running := false } else none

/-- What is done with the array of timers. -/
inductive Ev where
  /-- lines 97-101 of src/fclaw2d_initialize.c: all timers are initialised -/
  | reset
  | start (n : Name)
  | stop (n : Name)
  /-- `FCLAW2D_STATS_SET`, src/fclaw_timer.c:50-55, for several timers: abort if one is running -/
  | check (ns : List Name)
  deriving DecidableEq, Repr

abbrev State := Name → Timer

def State.set (s : State) (n : Name) (t : Timer) : State := fun k => if k = n then t else s k

/-- One call, with the clock showing `w`. -/
def step (s : State) : Ev × Rat → Option State
  | (.reset, _) => some fun _ => zero
  | (.start n, w) => (start w (s n)).map (s.set n)
  | (.stop n, w) => (stop w (s n)).map (s.set n)
  | (.check ns, _) => if ns.all fun n => !(s n).running then some s else none

def run (s : State) (es : List (Ev × Rat)) : Option State := es.foldlM step s

/-! ### Use by the library

Functions of the library as programs of which we see only what they do with timers: sequences, alternatives
(whatever decides between them) and loops (of any number of iterations). -/

inductive Prog where
  | skip
  | ev (e : Ev)
  | seq (p q : Prog)
  | alt (p q : Prog)
  | loop (p : Prog)
  deriving Repr

infixr:60 " ;; " => Prog.seq

/-- The sequences of calls that a program can make. -/
inductive Trace : Prog → List Ev → Prop where
  | skip : Trace .skip []
  | ev (e : Ev) : Trace (.ev e) [e]
  | seq {p q : Prog} {a b : List Ev} : Trace p a → Trace q b → Trace (.seq p q) (a ++ b)
  | left {p : Prog} (q : Prog) {a : List Ev} : Trace p a → Trace (.alt p q) a
  | right (p : Prog) {q : Prog} {a : List Ev} : Trace q a → Trace (.alt p q) a
  | done (p : Prog) : Trace (.loop p) []
  | more {p : Prog} {a b : List Ev} : Trace p a → Trace (.loop p) b → Trace (.loop p) (a ++ b)

def Prog.opt (p : Prog) : Prog := .alt p .skip

/-- Between start and stop of a timer. -/
def timed (n : Name) (p : Prog) : Prog := .ev (.start n) ;; p ;; .ev (.stop n)

/-- `running`, the timer that the caller has running and that is stopped meanwhile: `none` is
FCLAW2D_TIMER_NONE. -/
def paused (running : Option Name) (p : Prog) : Prog :=
  match running with
  | none => p
  | some r => .ev (.stop r) ;; p ;; .ev (.start r)

/-- `fclaw2d_exchange_setup`, src/fclaw2d_exchange.c:170-260. -/
def exchangeSetup (running : Option Name) : Prog :=
  timed .ghostpatchBuild .skip ;;
  paused running (timed .ghostpatchComm .skip) ;;
  timed .ghostpatchBuild .skip ;;
  paused running (timed .ghostpatchComm .skip)

/-- `fclaw2d_exchange_delete`, lines 262-300, from `fclaw2d_domain_reset`, src/fclaw2d_domain.c:241-245. -/
def domainReset : Prog := (timed .ghostpatchBuild .skip).opt

/-- `fclaw2d_exchange_ghost_patches_begin`, lines 308-370. -/
def exchangeBegin (running : Option Name) : Prog :=
  timed .ghostpatchBuild .skip ;; paused running (timed .ghostpatchComm .skip)

/-- `fclaw2d_exchange_ghost_patches_end`, lines 372-413. -/
def exchangeEnd (running : Option Name) : Prog :=
  paused running (timed .ghostpatchComm .skip) ;; timed .ghostpatchBuild .skip

/-- `cb_face_fill` and `cb_corner_fill` on any patches: `get_face_neighbors`, src/fclaw2d_face_neighbors.c:95-105, and
`get_corner_neighbor`, src/fclaw2d_corner_neighbors.c:155-167. -/
def sweep : Prog := .loop (timed .neighborSearch .skip)

/-- `average_fine2coarse_ghost`, src/fclaw2d_ghost_fill.c:372-401. -/
def averageGhost : Prog := timed .ghostfillAverage sweep
/-- `copy_samelevel`, lines 341-366. -/
def copyGhost : Prog := timed .ghostfillCopy sweep
/-- `fill_physical_ghost`, lines 433-460; boundary conditions use no timers. -/
def physicalGhost : Prog := timed .ghostfillPhysbc .skip
/-- `interpolate_coarse2fine_ghost`, lines 403-430. -/
def interpolateGhost : Prog := timed .ghostfillInterp sweep

/-- `fclaw2d_ghost_update` → `fclaw2d_ghost_update_async`, lines 611-830. `fclaw2d_face_neighbor_ghost` uses no timers. -/
def ghostUpdate (running : Option Name) : Prog :=
  paused running (timed .ghostfill (
    timed .ghostfillStep1 (averageGhost ;; copyGhost ;; physicalGhost) ;;
    exchangeBegin (some .ghostfill) ;;
    timed .ghostfillStep2 (averageGhost ;; copyGhost ;; physicalGhost ;; interpolateGhost ;; physicalGhost) ;;
    exchangeEnd (some .ghostfill) ;;
    timed .ghostfillStep3 (averageGhost ;; copyGhost ;; physicalGhost ;; interpolateGhost ;; physicalGhost)))

/-- `fclaw2d_time_sync`, src/fclaw2d_time_sync.c:157-209. -/
def timeSync : Prog := timed .timesync sweep

/-- `fclaw2d_partition_domain`, src/fclaw2d_partition.c:113-193. Note that the timer PARTITION is started again
before `running`. -/
def partitionDomain (running : Name) : Prog :=
  .ev (.start .partition) ;; timed .partitionBuild .skip ;; .ev (.stop .partition) ;;
  .ev (.stop running) ;; timed .partitionComm .skip ;; .ev (.start .partition) ;; .ev (.start running) ;;
  (timed .partitionBuild domainReset).opt ;;
  .ev (.stop .partition)

/-- `fclaw2d_regrid_set_neighbor_types`, src/fclaw2d_regrid.c:394-400; the callback calls the search directly. -/
def setNeighborTypes : Prog := timed .neighborSearch .skip

/-- `fclaw2d_regrid`, src/fclaw2d_regrid.c:234-336. Functions of the user (`fclaw2d_after_regrid`) use no timers. -/
def regrid : Prog :=
  timed .regrid (
    timed .regridTagging .skip ;;
    paused (some .regrid) (timed .adaptComm .skip) ;;
    (timed .regridBuild .skip ;; domainReset ;; partitionDomain .regrid ;; exchangeSetup (some .regrid) ;; setNeighborTypes ;;
      ghostUpdate (some .regrid)).opt)

/-- `fclaw2d_update_single_step`, src/fclaw2d_update_single_step.c:75-115, with `clawpack46_update`,
src/solvers/fc2d_clawpack4.6/fc2d_clawpack46.cpp:402-450, on any patches. With OpenMP (`omp`) the timers are not
used, src/fclaw_timer.c:111-123. -/
def singleStep (omp : Bool) : Prog :=
  if omp then .skip else .loop ((timed .advanceB4step2 .skip).opt ;; timed .advanceStep2 .skip)

/-- `advance_level`, src/fclaw2d_advance.c:185-240, with `n` coarser levels. -/
def advanceLevel (omp : Bool) : Nat → Prog
  | 0 => singleStep omp
  | n + 1 => singleStep omp ;; (advanceLevel omp n ;; (timed .extra1 .skip).opt).opt

/-- `fclaw2d_advance_all_levels`, lines 246-356. -/
def advanceAll (omp : Bool) (n : Nat) : Prog :=
  timed .advance (
    .loop (advanceLevel omp n ;; (ghostUpdate (some .advance) ;; timeSync.opt).opt) ;;
    ghostUpdate (some .advance) ;; timeSync.opt)

/-- `fclaw2d_initialize`, src/fclaw2d_initialize.c:80-249, after the timers have been initialised. -/
def initRest : Prog :=
  .ev (.start .walltime) ;;
  timed .init (
    timed .regridBuild .skip ;;
    exchangeSetup (some .init) ;;
    setNeighborTypes ;;
    (ghostUpdate (some .init)).opt ;;
    (.loop (
      timed .regridTagging .skip ;;
      paused (some .init) (timed .adaptComm .skip) ;;
      (timed .regridBuild .skip ;; domainReset ;; partitionDomain .init ;; exchangeSetup (some .init) ;; setNeighborTypes).opt)) ;;
    (ghostUpdate (some .init)).opt)

/-- `fclaw2d_diagnostics_gather`, src/fclaw2d_diagnostics.c:121-181, with the reset at its end. -/
def diagnosticsGather : Prog :=
  timed .diagnostics .skip ;; timed .diagnosticsComm .skip ;; timed .diagnostics .skip

/-- `fclaw2d_output_frame`, src/fclaw2d_output.c:36-70. -/
def outputFrame : Prog := (timed .output .skip).opt

/-- `fclaw2d_elliptic_solve`, src/fclaw2d_elliptic_solver.c:100-119. -/
def ellipticSolve : Prog := timed .ellipticSolve .skip

/-- A time step in `outstyle_1` and `outstyle_3`, src/fclaw2d_run.c:140-270 and 330-440, of a mesh with any
number of levels up to `n`: it may be rejected, in which case nothing follows. -/
def timeStep (omp : Bool) : Nat → Prog
  | 0 => advanceAll omp 0
  | n + 1 => .alt (advanceAll omp (n + 1)) (timeStep omp n)

/-- `fclaw2d_run`, src/fclaw2d_run.c:516-545, in any output style. -/
def runProg (omp : Bool) (n : Nat) : Prog :=
  /- style 0 -/
  .alt (outputFrame ;; diagnosticsGather)
  /- style 1 -/
  (.alt (diagnosticsGather ;; outputFrame ;;
      .loop (.loop (timeStep omp n ;; (timed .cflComm .skip).opt ;; diagnosticsGather.opt ;; regrid.opt) ;; diagnosticsGather ;; outputFrame))
  /- style 3 -/
  (.alt (diagnosticsGather ;; outputFrame ;;
      .loop (timeStep omp n ;; (timed .cflComm .skip).opt ;; regrid.opt ;; (diagnosticsGather ;; outputFrame).opt))
  /- style 4 -/
    (outputFrame ;; diagnosticsGather ;;
      .loop (timeStep omp n ;; regrid.opt ;; (diagnosticsGather ;; outputFrame).opt))))

/-- `fclaw2d_timer_report`, src/fclaw_timer.c:126-170. -/
def report : Prog := .ev (.stop .walltime) ;; .ev (.check Name.all)

/-- `fclaw2d_finalize`, src/fclaw2d_finalize.c, last lines. -/
def finalizeBefore : Prog := timed .diagnostics .skip

/-- A program that uses the library: initialisation, then runs, single steps, regridding, elliptic solves,
ghost updates and output in any order, then `fclaw2d_finalize` up to the report. -/
def library (omp : Bool) (n : Nat) : Prog :=
  .ev .reset ;; initRest ;;
  .loop (.alt (runProg omp n) (.alt (timeStep omp n) (.alt regrid (.alt ellipticSolve (.alt (ghostUpdate none) (.alt outputFrame diagnosticsGather)))))) ;;
  finalizeBefore ;; report

/-- `time_ex1` and `time_ex2`, src/fclaw_timer.c:208-222, are `int`s: sums of cumulative times, cut off. -/
def trunc (x : Rat) : Int := if 0 ≤ x then ⌊x⌋ else ⌈x⌉

def ex1 : List Name := [.regrid, .advance, .ghostfill, .adaptComm, .ellipticSolve, .ghostpatchComm]
def ex2 : List Name := [.init, .output, .diagnostics, .partitionComm, .diagnosticsComm, .cflComm]

def State.sum (s : State) (ns : List Name) : Rat := (ns.map fun n => (s n).cumulative).sum

/-- UNACCOUNTED as reported, lines 227-239, with all timers (`summary` false) or the first six only. -/
def unaccounted (s : State) (summary : Bool) : Rat :=
  if summary then (s .walltime).cumulative - trunc (s.sum ex1)
  else (s .walltime).cumulative - trunc (s.sum ex1) - trunc (s.sum ex2)

end Fclaw.Timer
