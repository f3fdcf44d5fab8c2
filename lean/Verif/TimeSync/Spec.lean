/-
What C35 claims: which corrections are made, with what, and which registers are empty afterwards.
-/
import Verif.TimeSync.Model

set_option autoImplicit false
namespace Fclaw.TimeSync

open GhostFill

/-- The registers at face `f` of `x` are of no more use after a synchronisation of the levels from `minl`
on: the patch takes part, and so does whatever is on the other side. -/
def Done (M : Mesh) (minl : Int) (x f : Nat) : Prop :=
  minl ≤ M.level x ∧ ∀ y rf g hk, M.face x f = .double y rf g hk → minl ≤ M.level y

/-- The corrections that are due at face `f` of `x`, given all registers: one with a patch of the same
size, one with each of two smaller ones, none at the physical boundary or to a larger patch. -/
def due {V : Type} (M : Mesh) (R : Nat → Nat → V) (x f : Nat) : List (Event V) :=
  match M.face x f with
  | .same y rf => [⟨x, f, y, rf, R x f, R y rf⟩]
  | .half y0 y1 rf => [⟨x, f, y0, rf, R x f, R y0 rf⟩, ⟨x, f, y1, rf, R x f, R y1 rf⟩]
  | .double _ _ _ _ => []
  | .boundary => []

/-- What a process did at one face. -/
def doneAt {V : Type} (s : State V) (x f : Nat) : List (Event V) :=
  s.log.filter fun e => decide (e.x = x ∧ e.f = f)

/-- Patches whose registers a process has: its own and those it received. -/
def Has (M : Mesh) (p x : Nat) : Prop :=
  x ∈ M.patches ∧ (M.owner x = p ∨ ∃ y ∈ M.patches, M.owner y = p ∧ x ∈ nbrs M y)

end Fclaw.TimeSync
