/-
Vocabulary for C28-C30 and C61: what can be seen from the list of events alone.
-/
import Verif.Run.Model

set_option autoImplicit false
namespace Fclaw.Run

/-- The simulation time: the sum of the accepted steps. -/
def timeOf (log : List Ev) : ℚ :=
  (log.map fun e => match e with | .accept _ dt _ => dt | _ => 0).sum

/-- The number of accepted steps. -/
def accepted (log : List Ev) : Nat :=
  log.countP fun e => match e with | .accept .. => true | _ => false

/-- The frames written, with number and time. -/
def frames (log : List Ev) : List (Nat × ℚ) :=
  log.filterMap fun e => match e with | .frame i t => some (i, t) | _ => none

/-- The steps at which regridding was done. -/
def regrids (log : List Ev) : List Nat :=
  log.filterMap fun e => match e with | .regrid n => some n | _ => none

/-- `P` holds for every event of the list together with what has happened before it. -/
def Always (P : List Ev → Ev → Prop) (log : List Ev) : Prop :=
  ∀ pre ev post, log = pre ++ ev :: post → P pre ev

/-- The solution on all patches. -/
def grids {Q A : Type} (data : List (Patch Q A)) : List Q := data.map fun p => p.grid

/-- The aux data of all patches. -/
def auxs {Q A : Type} (data : List (Patch Q A)) : List A := data.map fun p => p.aux

/-- What C28 asks of each event of output style 1, given what has happened before it: a step starts
at the current time, moves forward, and does not pass the next output time (there are as many output
times behind us as frames written, the first one at time zero). -/
def Timely (o : Opts) (pre : List Ev) : Ev → Prop
  | .accept s h _ => s = timeOf pre ∧ 0 < h ∧ s + h ≤ (frames pre).length * (o.tfinal / o.nout)
  | _ => True

/-- What C30 asks of each event: frame `i` comes after `i * every` accepted steps, with the time
reached; regridding is done when its number is the number of accepted steps; a step starts at the
time reached. -/
def Regular (every : Nat) (pre : List Ev) : Ev → Prop
  | .frame i t => accepted pre = i * every ∧ t = timeOf pre
  | .regrid n => accepted pre = n
  | .accept s _ _ => s = timeOf pre
  | _ => True

/-- Unit in which output style 3 counts steps: `nout` and `nstep` are numbers of coarse steps if the
steps are those of the finest level and the options do not say that they are counted. -/
def unit3 (o : Opts) : Nat :=
  if o.subcycle = false ∧ o.advanceOneStep = true ∧ o.outstyleUsesMaxlevel = false then
    o.levelFactor
  else 1

end Fclaw.Run
