/-
What C44 and C64 claim.
-/
import Verif.Timer.Model

set_option autoImplicit false
namespace Fclaw.Timer

/-- Readings of the clock at calls for one timer. -/
inductive Call where
  | start
  | stop
  deriving DecidableEq, Repr

/-- The calls for timer `n`, as long as timers are not initialised anew. -/
def calls (n : Name) : List (Ev × Rat) → List (Call × Rat)
  | [] => []
  | (.start k, w) :: es => if k = n then (.start, w) :: calls n es else calls n es
  | (.stop k, w) :: es => if k = n then (.stop, w) :: calls n es else calls n es
  | (.reset, _) :: es => calls n es
  | (.check _, _) :: es => calls n es

/-- The intervals between a start and the stop that follows; `none` if starts and stops do not alternate,
beginning with a start. -/
def spans : List (Call × Rat) → Option (List (Rat × Rat))
  | [] => some []
  | [(.start, _)] => some []
  | (.start, a) :: (.stop, b) :: es => (spans es).map ((a, b) :: ·)
  | _ => none

/-- Total length. -/
def lengths (l : List (Rat × Rat)) : Rat := (l.map fun p => p.2 - p.1).sum

/-- Sequences of starts and stops only. -/
def plain : Ev → Bool
  | .start _ => true
  | .stop _ => true
  | _ => false

/-- The timers that the report presents as exclusive of each other: groups EXCLUSIVE1 and EXCLUSIVE2,
src/fclaw_timer.c:290-311, apart from UNACCOUNTED. -/
def exclusive : List Name := ex1 ++ ex2

/-- Readings of a clock that does not run backwards. -/
def Monotone (es : List (Ev × Rat)) : Prop := es.Pairwise fun a b => a.2 ≤ b.2

/-- The time until `w` during which a timer has been running. -/
def elapsed (t : Timer) (w : Rat) : Rat := t.cumulative + if t.running then w - t.started else 0

end Fclaw.Timer
