/-
Vocabulary for C31.
-/
import Verif.Ledger.Model

set_option autoImplicit false
namespace Fclaw.Ledger

/-- How often data number `h` was created and deleted. -/
def created (h : Nat) (log : List Ev) : Nat := log.count (.create h)
def deleted (h : Nat) (log : List Ev) : Nat := log.count (.delete h)

/-- At no time has any data been created twice or deleted more often than created: there is no double
delete and no use of a number that is in use. -/
def Sound (log : List Ev) : Prop :=
  ∀ pre post, log = pre ++ post → ∀ h, created h pre ≤ 1 ∧ deleted h pre ≤ created h pre

/-- All data that was created has been deleted. -/
def Clean (log : List Ev) : Prop := ∀ h, deleted h log = created h log

/-- Whenever a domain is given up its numbers of set and of deleted patches agree. -/
def Compared (log : List Ev) : Prop := ∀ a b, Ev.compare a b ∈ log → a = b

/-- A regridding fits the domain it is applied to, with `n` patches: the events of the adaptation use
up the old patches and make the new ones. -/
def Regrid.Fits (r : Regrid) (n : Nat) : Prop :=
  (r.kinds.map Kind.old).sum = n ∧ (r.kinds.map Kind.new).sum = r.np

/-- Number of local patches afterwards. -/
def Regrid.size (r : Regrid) : Nat :=
  match r.part with
  | none => r.np
  | some (_, _, np, _) => np

/-- A history of regriddings fits a first domain with `n` patches. -/
def Fit : List Regrid → Nat → Prop
  | [], _ => True
  | r :: rs, n => r.Fits n ∧ Fit rs r.size

end Fclaw.Ledger
