/-
Model of the life cycle of domains, src/fclaw2d_convenience.c: fclaw2d_domain_new (130-134),
fclaw2d_domain_destroy (433-462), fclaw2d_domain_adapt (499-679), fclaw2d_domain_partition
(681-710) and fclaw2d_domain_complete (736-753).

Only the flags, the ownership of the p4est wrap and its destruction are modelled. All domains of
one history share one wrap (and one attribute list, destroyed with it). Whether p4est changed the
mesh or the partition is an argument of the call. A failed assertion or the use of a destroyed
domain is the outcome `none`.
-/
set_option autoImplicit false
namespace Fclaw.Lifecycle

/-- The fields `pp_owned`, `just_adapted`, `just_partitioned` of `fclaw2d_domain_t`
(src/forestclaw2d.h:199-230); `live` until the memory is freed. -/
structure Dom where
  live : Bool
  owned : Bool
  justAdapted : Bool
  justPartitioned : Bool
  deriving DecidableEq

/-- All domains ever created, in order, and how often the wrap has been destroyed. -/
structure St where
  doms : List Dom
  wrapDestroyed : Nat
  deriving DecidableEq

inductive Op where
  | adapt (d : Nat) (changed : Bool)
  | partition (d : Nat) (changed : Bool)
  | complete (d : Nat)
  | destroy (d : Nat)

/-- `fclaw2d_domain_new` (src/fclaw2d_convenience.c:130-134): flags are zero, the wrap is owned. -/
def newDom : Dom := ⟨true, true, false, false⟩

/-- Any of the creating functions, e.g. `fclaw2d_domain_new_unitsquare`. -/
def start : St := ⟨[newDom], 0⟩

def exec (s : St) : Op → Option St
  | .adapt d changed =>
    match s.doms[d]? with
    | none => none
    | some x =>
      if !x.live then none
      else if !x.owned then none                    -- line 504
      else if x.justAdapted then none               -- line 505
      else if x.justPartitioned then none           -- line 506
      else if changed then                          -- lines 645-656
        some ⟨s.doms.set d { x with owned := false } ++ [{ newDom with justAdapted := true }],
          s.wrapDestroyed⟩
      else some s
  | .partition d changed =>
    match s.doms[d]? with
    | none => none
    | some x =>
      if !x.live then none
      else if !x.owned then none                    -- line 687
      else if !x.justAdapted then none              -- line 688
      else if x.justPartitioned then none           -- line 689
      else
        let x := { x with justAdapted := false }    -- line 691
        if changed then                             -- lines 692-705
          some ⟨s.doms.set d { x with owned := false } ++ [{ newDom with justPartitioned := true }],
            s.wrapDestroyed⟩
        else some ⟨s.doms.set d x, s.wrapDestroyed⟩
  | .complete d =>
    match s.doms[d]? with
    | none => none
    | some x =>
      if !x.live then none
      else if !x.owned then none                    -- line 741
      else if x.justAdapted then none               -- line 742
      else if !x.justPartitioned then none          -- line 743
      else some ⟨s.doms.set d { x with justPartitioned := false }, s.wrapDestroyed⟩
  | .destroy d =>
    match s.doms[d]? with
    | none => none
    | some x =>
      if !x.live then none
      else if x.justAdapted then none               -- line 438
      else if x.justPartitioned then none           -- line 439
      else some ⟨s.doms.set d { x with live := false },
        if x.owned then s.wrapDestroyed + 1 else s.wrapDestroyed⟩  -- lines 455-460

def run (s : St) : List Op → Option St
  | [] => some s
  | o :: os => match exec s o with
    | none => none
    | some t => run t os

end Fclaw.Lifecycle
