/-
What gauges shall do.
-/
import Verif.Gauge.Model

set_option autoImplicit false
namespace Fclaw.Gauge

variable {V : Type}

/-- The gauge is sampled at time `t` if `t` is in its window and far enough from the last time. -/
def Due (c : Cfg) (last t : ℚ) : Prop := c.t1 ≤ t ∧ t ≤ c.t2 ∧ c.minIncrement ≤ t - last

instance (c : Cfg) (last t : ℚ) : Decidable (Due c last t) := by unfold Due; infer_instance

/-- The samples taken in a history on `P` processes: whenever a sample is due, the process (if any) that has the gauge
takes it. `last` is the last time a sample was due, `own` says who has the gauge. -/
def taken (c : Cfg) (P : Nat) : ℚ → (Nat → Bool) → List (Op V) → List (ℚ × V)
  | _, _, [] => []
  | last, _, .locate patchno :: ops => taken c P last (fun r => decide (patchno r ≥ 0)) ops
  | last, own, .update t v :: ops =>
    if Due c last t then
      (((List.range P).filter own).map fun r => (t, v r)) ++ taken c P t own ops
    else taken c P last own ops

/-- The times at which a sample was due. -/
def dueTimes (c : Cfg) : ℚ → List (Op V) → List ℚ
  | _, [] => []
  | last, .locate _ :: ops => dueTimes c last ops
  | last, .update t _ :: ops => if Due c last t then t :: dueTimes c t ops else dueTimes c last ops

/-- The last time a sample was due, or `t1`. -/
def lastDue (c : Cfg) (ops : List (Op V)) : ℚ := (dueTimes c c.t1 ops).getLastD c.t1

/-- The times and values of the updates in a history in which all processes see the same values. -/
def updates (ops : List (Op V)) (v : ℚ → V) : List (ℚ × V) :=
  ops.filterMap fun o => match o with
    | .locate _ => none
    | .update t _ => some (t, v t)

/-- The samples due in a sequence of updates. -/
def due (c : Cfg) : ℚ → List (ℚ × V) → List (ℚ × V)
  | _, [] => []
  | last, u :: us => if Due c last u.1 then u :: due c u.1 us else due c last us

/-- A search finds the gauge on at most one of the processes (C17). -/
def Unique (P : Nat) (patchno : Nat → Int) : Prop := ∀ r s, r < P → s < P → 0 ≤ patchno r → 0 ≤ patchno s → r = s

/-- A proper history: the gauge is located first (at the end of `fclaw2d_initialize`), searches find it on at most one
process, and each operation is done by all processes, once, in any order. -/
structure Proper (P : Nat) (ops : List (Op V × List Nat)) : Prop where
  first : ∃ patchno order rest, ops = (.locate patchno, order) :: rest
  order : ∀ o ∈ ops, o.2.Perm (List.range P)
  unique : ∀ o ∈ ops, ∀ patchno, o.1 = .locate patchno → Unique P patchno

end Fclaw.Gauge
