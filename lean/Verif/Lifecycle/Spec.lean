/-
The documented protocol (src/fclaw2d_convenience.h:95-140): there is one current domain. It may be
adapted; if this gives a new domain, that one must be partitioned next; if this gives a new domain,
that one must be completed next. Superseded domains may only be destroyed. The current domain may
be destroyed when it is neither freshly adapted nor freshly partitioned, and then nothing is left.
-/
import Verif.Lifecycle.Model

set_option autoImplicit false
namespace Fclaw.Lifecycle

inductive Phase where
  | idle (d : Nat)            -- `d` is current
  | adapted (d : Nat)         -- `d` is the result of a successful adapt
  | partitioned (d : Nat)     -- `d` is the result of a successful partition
  | gone                      -- the current domain has been destroyed
  deriving DecidableEq

/-- `num` domains have been created; `old` are the superseded ones still to be destroyed. -/
structure PState where
  phase : Phase
  num : Nat
  old : List Nat
  deriving DecidableEq

def pstart : PState := ⟨.idle 0, 1, []⟩

/-- Which calls are allowed, and what they lead to. -/
def allowed (p : PState) : Op → Option PState
  | .adapt d changed =>
    if p.phase = .idle d then
      some (if changed then ⟨.adapted p.num, p.num + 1, d :: p.old⟩ else p)
    else none
  | .partition d changed =>
    if p.phase = .adapted d then
      some (if changed then ⟨.partitioned p.num, p.num + 1, d :: p.old⟩ else ⟨.idle d, p.num, p.old⟩)
    else none
  | .complete d => if p.phase = .partitioned d then some ⟨.idle d, p.num, p.old⟩ else none
  | .destroy d =>
    if p.phase = .idle d then some ⟨.gone, p.num, p.old⟩
    else if d ∈ p.old then some ⟨p.phase, p.num, p.old.erase d⟩
    else none

def legal (p : PState) : List Op → Option PState
  | [] => some p
  | o :: os => match allowed p o with
    | none => none
    | some q => legal q os

/-- The domains that own the wrap. -/
def owners (s : St) : List Nat :=
  (List.range s.doms.length).filter fun i =>
    match s.doms[i]? with
    | some x => x.live && x.owned
    | none => false

end Fclaw.Lifecycle
