import Verif.GeoRun.Model
/-
Vocabulary for C99: what can be seen from the list of events alone.
-/
set_option autoImplicit false
namespace Fclaw.GeoRun

open Run (Opts)

/-- The steps that were kept, in order. -/
def kept (log : List Ev) : List Call :=
  log.flatMap fun e => match e with | .accept calls => calls | _ => []

/-- The frames written, with number and time. -/
def frames (log : List Ev) : List (Nat × ℚ) :=
  log.filterMap fun e => match e with | .frame i t => some (i, t) | _ => none

/-- The number of passes that were kept. -/
def accepts (log : List Ev) : Nat :=
  log.countP fun e => match e with | .accept _ => true | _ => false

/-- The steps go forward and cover the time from `a` to `b` without gap and overlap. -/
def Tiles : ℚ → ℚ → List Call → Prop
  | a, b, [] => a = b
  | a, b, c :: l => c.t = a ∧ 0 < c.dt ∧ Tiles (a + c.dt) b l

/-- A step resolves the motion of the ground: it does not cross the time when the motion begins, and
if a part of it lies within the motion then it is not longer than allowed. -/
def Resolves (g : Motion) (c : Call) : Prop :=
  c.t < g.hi → g.lo < c.t + c.dt → g.lo ≤ c.t ∧ c.dt ≤ g.dtMax

/-- The motion takes some time, or there is none (after the start of the run). -/
def Motion.Proper (g : Motion) : Prop := (g.lo < g.hi ∧ 0 < g.dtMax) ∨ g.hi ≤ 0

/-- Every frame is written at the time that has been reached. -/
def Punctual : List Ev → Prop := fun log =>
  ∀ pre i t post, log = pre ++ Ev.frame i t :: post → Tiles 0 t (kept pre)

/-- The steps, made one after the other on data `d`, lead to `d'`, and their CFL numbers are those
which the solver reported. -/
def Plays {D : Type} (w : World D) : D → List Call → D → Prop
  | d, [], d' => d' = d
  | d, c :: l, d' => c.cfl = (w.advance d c.t c.dt).2 ∧ Plays w (w.advance d c.t c.dt).1 l d'

/-- The data that result from what was kept: the kept steps and the changes of the mesh, in
order. Steps that were undone have no effect. -/
def Replay {D : Type} (w : World D) : D → List Ev → D → Prop
  | d, [], d' => d' = d
  | d, .accept calls :: l, d' => ∃ d1, Plays w d calls d1 ∧ Replay w d1 l d'
  | d, .regrid _ :: l, d' => Replay w (w.regrid d) l d'
  | d, _ :: l, d' => Replay w d l d'

end Fclaw.GeoRun
