/-
Vocabulary for C24-C27 and C59: what a list of events means for the data of a level. Nothing here
refers to the step counters of the scheduler.
-/
import Verif.Advance.Model

set_option autoImplicit false
namespace Fclaw.Advance

/-- The data of one level: time of the solution before the last update and of the current solution,
the time that the time interpolated data belongs to, if it was made from these two solutions, and
the number of updates. -/
structure Data where
  prev : ℚ
  cur : ℚ
  interp : Option ℚ
  steps : Nat

/-- An update of the level makes the current solution the previous one and advances it; time
interpolation with weight `alpha` stores `(1 - alpha) * previous + alpha * current`. -/
def Data.step (l : Nat) (d : Data) : Ev → Data
  | .update l' _ dt _ => if l' = l then ⟨d.cur, d.cur + dt, none, d.steps + 1⟩ else d
  | .interp l' alpha =>
    if l' = l then { d with interp := some ((1 - alpha) * d.prev + alpha * d.cur) } else d
  | .ghost _ _ _ _ => d
  | .sync _ _ => d

/-- The data of level `l` after the events, all levels starting at time `t`. -/
def dataOf (t : ℚ) (l : Nat) (log : List Ev) : Data := log.foldl (Data.step l) ⟨t, t, none, 0⟩

/-- `P` holds for every event of the list together with what has happened before it. -/
def Always (P : List Ev → Ev → Prop) (log : List Ev) : Prop :=
  ∀ pre ev post, log = pre ++ ev :: post → P pre ev

/-- The setup is one that can occur: the finest level of the domain is within the bounds of the
options, and so are the levels on this process (a process without patches has a `localMinlevel`
beyond the finest level). -/
def Setup.Ok (S : Setup) : Prop :=
  S.minlevel ≤ S.globalMinlevel ∧ S.globalMinlevel ≤ S.globalMaxlevel ∧
  S.globalMaxlevel ≤ S.maxlevel ∧ S.globalMinlevel ≤ S.localMinlevel

/-- The levels that can have patches on this process. -/
def Setup.HasLevel (S : Setup) (l : Nat) : Prop := S.localMinlevel ≤ l ∧ l ≤ S.globalMaxlevel

/-- The largest CFL number reported by any update (at least zero). -/
def maxCfl : List Ev → ℚ
  | [] => 0
  | .update _ _ _ c :: es => max c (maxCfl es)
  | _ :: es => maxCfl es

end Fclaw.Advance
