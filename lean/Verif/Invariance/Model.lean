/-
Complete runs, with time steps that may be taken back, regridding, repartitioning and the ghost update after it. This puts together models
of single parts:

* time steps on all processes: Verif/Parallel (C72);
* src/fclaw2d_regrid.c:233-329 (`fclaw2d_regrid`): tagging; new patches from old ones, Verif/Repopulate (C74); repartitioning,
  Verif/Lifetime (C75); update of ghost cells, Verif/GhostAll (C69); if the mesh did not change, nothing else happens;
* src/fclaw2d_run.c:86-334: the main loop, with a state of its own (time, time step, step counter, ...).

What p4est does, to adapt a mesh that has been tagged, is not part of the library; it is a function here that is the same in all runs. p4est
merges only families that are on one process. The library partitions after every adaptation, and p4est then keeps families together, so that
the families that can be merged do not depend on the distribution either.

Where patches lie, what their neighbours and auxiliary data are, depends on the mesh only: `Scene`. The areas of mapped patches do not
depend on their history by C73.
-/
import Verif.Lifetime.Spec
import Verif.Parallel.Spec
import Verif.Tag.Model

set_option autoImplicit false
namespace Fclaw.Invariance

open Fort CopyGhost Transfer Adapt Metric Repopulate
open Fclaw.Domain (Path)

variable {K P : Type} [Field K]

/-- Places of patches, for every block. -/
abbrev Places := List (List (Path 4))

/-- A mesh with all that follows from it. Its owners do not matter. -/
structure Scene where
  M : GhostFill.Mesh
  place : Nat → Nat × Path 4
  B : Parallel.Problem
  sched : Advance.Setup

/-- The mesh with other owners. -/
def Scene.on (sc : Scene) (o : Nat → Nat) : GhostFill.Mesh := { sc.M with owner := o }

/-- What determines a run, except for processes and memory. -/
structure Rules (σ : Type) where
  control : Parallel.Control σ
  /-- Is the mesh to be adapted next? Then also the state afterwards. -/
  adaptNow : σ → Option σ
  /-- tags of a patch for refinement and of a family for merging -/
  refineTag : Places → Nat → Path 4 → Grid ℚ → Bool
  coarsenTag : Places → Nat → Path 4 → (Nat → Grid ℚ) → Bool
  /-- what p4est makes of the tags -/
  adapt : Places → (Nat → Path 4 → Bool) → (Nat → Path 4 → Bool) → List (List (Event 4))
  scene : Places → Scene

/-- Child number `n`. -/
def child (q : Path 4) (n : Nat) : Path 4 := q ++ [Fin.ofNat 4 n]

/-- All four children of `q` are patches. -/
def isFamily (qs : Places) (i : Nat) (q : Path 4) : Bool := (List.range 4).all fun n => decide (child q n ∈ qs[i]?.getD [])

section
variable {σ : Type} (R : Rules σ)

/-- The tags, `cb_regrid_tag4coarsening` and `cb_fclaw2d_regrid_tag4refinement`, and what follows from them. -/
def Rules.events (qs : Places) (D : Repopulate.World) : List (List (Event 4)) :=
  R.adapt qs (fun i q => decide (q ∈ qs[i]?.getD []) && R.refineTag qs i q (D i q).q)
    (fun i q => isFamily qs i q && R.coarsenTag qs i q fun n => (D i (child q n)).q)

/-- The mesh is not changed by the events. -/
def NoChange (E : List (List (Event 4))) : Prop := ∀ es ∈ E, ∀ e ∈ es, ∃ q, e = .keep q

/-- The data `D` of patches is what their owners have. -/
def Holds (sc : Scene) (o : Nat → Nat) (D : Repopulate.World) (w : Nat → Parallel.Proc) : Prop :=
  ∀ x ∈ sc.M.patches, (w (o x)).g x false = (D (sc.place x).1 (sc.place x).2).q

/-- The data `D'` is `D` with the solution of the owners. -/
def Takes (sc : Scene) (o : Nat → Nat) (D D' : Repopulate.World) (w : Nat → Parallel.Proc) : Prop :=
  ∀ x ∈ sc.M.patches, D' (sc.place x).1 (sc.place x).2 = { D (sc.place x).1 (sc.place x).2 with q := (w (o x)).g x false }

/-- One turn of the main loop on `P` processes: a time step, or regridding. Owners, the contents of new memory, and everything else that processes
have besides the solution is arbitrary. -/
inductive Turn (S : Setting K P) (np : Nat) : Places → σ → Repopulate.World → Places → σ → Repopulate.World → Prop
  | accept (qs : Places) (a b : σ) (D D' : Repopulate.World) (o : Nat → Nat) (w w' : Nat → Parallel.Proc) (mc : Nat → ℚ) (c : ℚ) :
      R.adaptNow a = none → (∀ x ∈ (R.scene qs).M.patches, o x < np) → Holds (R.scene qs) o D w →
      Parallel.GlobalStep (R.scene qs).B ((R.scene qs).on o) np (R.scene qs).sched (R.control.time a) (R.control.dt a) w w' mc →
      Parallel.Largest np mc c → R.control.next a c = (false, b) → Takes (R.scene qs) o D D' w' → Turn S np qs a D qs b D'
  /-- the step is taken back -/
  | reject (qs : Places) (a b : σ) (D : Repopulate.World) (o : Nat → Nat) (w w' : Nat → Parallel.Proc) (mc : Nat → ℚ) (c : ℚ) :
      R.adaptNow a = none → (∀ x ∈ (R.scene qs).M.patches, o x < np) → Holds (R.scene qs) o D w →
      Parallel.GlobalStep (R.scene qs).B ((R.scene qs).on o) np (R.scene qs).sched (R.control.time a) (R.control.dt a) w w' mc →
      Parallel.Largest np mc c → R.control.next a c = (true, b) → Turn S np qs a D qs b D
  /-- the mesh is not changed -/
  | unchanged (qs : Places) (a b : σ) (D : Repopulate.World) : R.adaptNow a = some b → NoChange (R.events qs D) → Turn S np qs a D qs b D
  /-- the mesh is changed -/
  | regrid (qs qs' : Places) (a b : σ) (D N N' D' : Repopulate.World) (bes : Nat → List (List (Event 4))) (mem : Nat → Nat → Nat → Memory P)
      (cut cut' : Nat → Nat) (mem' : Nat → Path 4 → Memory P) (o : Nat → Nat) (w w' : Nat → Parallel.Proc) :
      R.adaptNow a = some b → ¬ NoChange (R.events qs D) → qs' = (R.events qs D).map newPatches →
      Distribution np (R.events qs D) bes → Regridded S false np bes mem D N →
      Lifetime.Cuts np qs' cut → Lifetime.Cuts np qs' cut' → Lifetime.Repartitioned S mem' np cut cut' qs' N N' →
      (∀ x ∈ (R.scene qs').M.patches, o x < np) → Holds (R.scene qs') o N' w →
      Parallel.Together (R.scene qs').B ((R.scene qs').on o) np
        (.ghost (R.scene qs').sched.globalMinlevel (R.scene qs').sched.globalMaxlevel (R.control.time a) false) w w' →
      Takes (R.scene qs') o N' D' w' → Turn S np qs a D qs' b D'

/-- `n` turns. -/
inductive Run (S : Setting K P) (np : Nat) : Nat → Places → σ → Repopulate.World → Places → σ → Repopulate.World → Prop
  | zero (qs : Places) (a : σ) (D : Repopulate.World) : Run S np 0 qs a D qs a D
  | more (n : Nat) (qs qs1 qs2 : Places) (a a1 a2 : σ) (D D1 D2 : Repopulate.World) : Run S np n qs a D qs1 a1 D1 →
      Turn R S np qs1 a1 D1 qs2 a2 D2 → Run S np (n + 1) qs a D qs2 a2 D2


end

end Fclaw.Invariance
