import Verif.Search.Model
/-
Model of the diagnostics of a run (src/fclaw2d_diagnostics.c:88-234) and of rays, one of them (src/fclaw2d_rays.c:49-266).

The functions of the table of virtual functions may be missing (NULL). A call of one of them is an event. Timers are left out.

For rays all processes are modelled together; the forest of a process, which `p4est_search_local` goes through, is as in `Search`. `none` is a failed
assertion, an access through NULL, the use of a value that has not been set, or processes that do not take part in the same
communication. Numbers are rational. The user's callback for a patch and a ray gives whether to go on, the integral and whether it marks the ray as
untrustworthy; it does not take a mark back (as in applications/clawpack/advection/2d/swirl_rays/swirl.cpp).
-/
set_option autoImplicit false
namespace Fclaw.Rays

open Search (Forest searchLocal upd)

/-! ### The cycle of diagnostics -/

/-- Those who take part. -/
inductive Comp
  | patch
  | gauges
  | rays
  | solver
  | user
  deriving DecidableEq

/-- The functions of the table, by what they do. -/
inductive Kind
  | init
  | compute
  | gather
  | reset
  | finalize
  deriving DecidableEq

/-- A call, for `gather` with `init_flag` (zero for the others). -/
structure Ev where
  comp : Comp
  kind : Kind
  flag : ℤ
  deriving DecidableEq

/-- `fclaw2d_diagnostics_vtable_t` (which functions are set) and `run_user_diagnostics`. -/
structure Table where
  set : Comp → Kind → Bool
  runUser : ℤ

/-- `if (diag_vt->… != NULL) diag_vt->… (…)` -/
def Table.call (vt : Table) (c : Comp) (k : Kind) (flag : ℤ) : List Ev := if vt.set c k then [⟨c, k, flag⟩] else []

/-- `if (fclaw_opt->run_user_diagnostics != 0 && diag_vt->user_… != NULL) …` -/
def Table.callUser (vt : Table) (k : Kind) (flag : ℤ) : List Ev :=
  if vt.runUser ≠ 0 ∧ vt.set .user k = true then [⟨.user, k, flag⟩] else []

/-- `fclaw2d_diagnostics_initialize` (lines 88-115) -/
def Table.initialize (vt : Table) : List Ev :=
  vt.call .patch .init 0 ++ vt.call .gauges .init 0 ++ vt.call .rays .init 0 ++ vt.call .solver .init 0 ++
    vt.callUser .init 0

/-- `fclaw2d_diagnostics_reset` (lines 180-205) -/
def Table.reset (vt : Table) : List Ev :=
  vt.call .patch .reset 0 ++ vt.call .gauges .reset 0 ++ vt.call .rays .reset 0 ++ vt.call .solver .reset 0 ++
    vt.callUser .reset 0

/-- `fclaw2d_diagnostics_gather` (lines 119-178) -/
def Table.gather (vt : Table) (initFlag : ℤ) : List Ev :=
  vt.call .patch .compute 0 ++ vt.call .gauges .compute 0 ++ vt.call .rays .compute 0 ++ vt.call .solver .compute 0 ++
    vt.callUser .compute 0 ++
  (vt.call .patch .gather initFlag ++ vt.call .gauges .gather initFlag ++ vt.call .rays .gather initFlag ++
    vt.call .solver .gather initFlag ++ vt.callUser .gather initFlag) ++
  vt.reset

/-- `fclaw2d_diagnostics_finalize` (lines 207-234) -/
def Table.finalize (vt : Table) : List Ev :=
  vt.call .patch .finalize 0 ++ vt.call .gauges .finalize 0 ++ vt.call .rays .finalize 0 ++ vt.call .solver .finalize 0 ++
    vt.callUser .finalize 0

/-- The calls of a program that initializes, gathers any number of times and finalizes. -/
def Table.run (vt : Table) (flags : List ℤ) : List Ev := vt.initialize ++ flags.flatMap vt.gather ++ vt.finalize

/-! ### Rays -/

section
variable {Q U : Type}

/-- `fclaw2d_ray_t` (fclaw2d_rays.h:50-57). `integral` is `none` before it is set. -/
structure Ray (U : Type) where
  num : ℤ
  data : U
  integral : Option ℚ
  untrustworthy : Bool

/-- `fclaw2d_ray_acc_t` (lines 38-44); `none` is NULL. -/
structure Acc (U : Type) where
  numRays : ℕ
  rays : Option (List (Ray U))

/-- The callback `integrate` of the user. -/
structure Answer where
  hit : Bool
  value : ℚ
  mark : Bool

/-- `ray_initialize` (lines 76-120). `define` are the rays of the user's function (numbers and data), `none` if it is not set; neither
`integral` nor `untrustworthy` is set by it. -/
def rayInit (outputRays : Bool) (define : Option (List (ℤ × U))) : Option (Acc U) :=
  if !outputRays then some ⟨0, none⟩
  else match define with
    | none => none
    | some l => some ⟨l.length, some (l.map fun d => ⟨d.1, d.2, none, false⟩)⟩

/-- `ray_reset` (lines 122-144) -/
def rayReset (a : Acc U) : Option (Acc U) :=
  if a.numRays = 0 then some a
  else match a.rays with
    | none => none
    | some l => some { a with rays := some (l.map fun r => { r with untrustworthy := false }) }

/-- `integrate_ray_fn` (fclaw2d_convenience.c:1168-1223) with the mark that the callback may leave at the ray. The state holds `lints` and the marks
in `sc_rays`. -/
def rayFn (cb : Q → Option Nat → U → Answer) (q : Q) (localNum : Option Nat) (s : Nat → ℚ × Bool) (ri : U × Nat) :
    (Nat → ℚ × Bool) × Bool :=
  let r := cb q localNum ri.1
  (upd s ri.2 (if localNum.isSome then (s ri.2).1 + r.value else (s ri.2).1, (s ri.2).2 || r.mark), r.hit)

/-- The local part of `fclaw2d_domain_integrate_rays` with the copies `sc_rays` (fclaw2d_rays.c:157-186). -/
def rayLocal (cb : Q → Option Nat → U → Answer) (F : Forest Q) (l : List (Ray U)) : Nat → ℚ × Bool :=
  searchLocal (rayFn cb) F (l.map fun r => r.data).zipIdx (fun _ => (0, false))

/-- The arrays of rays of all processes, if they are all there and have the length that is stored. -/
def arrays : List (Acc U) → Option (List (List (Ray U)))
  | [] => some []
  | a :: as => match a.rays with
    | none => none
    | some l => if l.length = a.numRays then (arrays as).map fun ls => l :: ls else none

/-- `ray_integrate` (lines 147-207) on all processes: they all have no rays, or the same number of them. -/
def rayIntegrate (cb : Q → Option Nat → U → Answer) (W : List (Forest Q)) (as : List (Acc U)) : Option (List (Acc U)) :=
  if as.all (fun a => decide (a.numRays = 0)) then some as
  else if ¬ as.all (fun a => decide (some a.numRays = (as.head?).map fun b => b.numRays)) then none
  else (arrays as).map fun ls =>
    let locals := (W.zip ls).map fun p => rayLocal cb p.1 p.2
    let integrals : Nat → ℚ := fun i => (locals.map fun f => (f i).1).sum
    (ls.zip locals).map fun p =>
      ⟨p.1.length, some (p.1.zipIdx.map fun r =>
        { r.1 with integral := some (integrals r.2), untrustworthy := (p.2 r.2).2 })⟩

/-- Lines of output. -/
inductive Line
  | warning (num : ℤ)
  | value (num : ℤ) (integral : ℚ)
  deriving DecidableEq

/-- The loop that prints (lines 238-249), with `global_untrustworthy`. -/
def printRays (glob : Nat → Bool) : List (Ray U × Nat) → Option (List Line)
  | [] => some []
  | r :: rs => match r.1.integral with
    | none => none
    | some v => (printRays glob rs).map fun l =>
        (if glob r.2 then [Line.warning r.1.num] else []) ++ [Line.value r.1.num v] ++ l

/-- `local_untrustworthy[i]` (lines 226-231). -/
def markAt (l : List (Ray U)) (i : Nat) : Bool :=
  match l[i]? with
  | none => false
  | some r => r.untrustworthy

/-- `ray_gather` (lines 209-253) on all processes: what the first one prints. -/
def rayGather (as : List (Acc U)) : Option (List Line) :=
  if as.all (fun a => decide (a.numRays = 0)) then some []
  else if ¬ as.all (fun a => decide (some a.numRays = (as.head?).map fun b => b.numRays)) then none
  else match arrays as with
    | none => none
    | some ls =>
      let marks : Nat → Bool := fun i => ls.any fun l => markAt l i
      match ls with
      | [] => none
      | l :: _ => printRays marks l.zipIdx

/-- `ray_reset` on all processes. -/
def resetAll : List (Acc U) → Option (List (Acc U))
  | [] => some []
  | a :: as => match rayReset a with
    | none => none
    | some b => (resetAll as).map fun bs => b :: bs

/-- What `fclaw2d_diagnostics_gather` does to rays: the rays afterwards and what is printed. -/
def rayCycle (cb : Q → Option Nat → U → Answer) (W : List (Forest Q)) (as : List (Acc U)) :
    Option (List (Acc U) × List Line) :=
  match rayIntegrate cb W as with
  | none => none
  | some bs => match rayGather bs with
    | none => none
    | some out => (resetAll bs).map fun cs => (cs, out)

/-- A run that gathers diagnostics with a forest (and a solution, which the callback sees) for each time. -/
def rayRun : List ((Q → Option Nat → U → Answer) × List (Forest Q)) → List (Acc U) → Option (List (List Line))
  | [], _ => some []
  | w :: ws, as => match rayCycle w.1 w.2 as with
    | none => none
    | some r => (rayRun ws r.1).map fun outs => r.2 :: outs

end

end Fclaw.Rays
