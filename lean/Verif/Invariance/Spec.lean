/-
What C76 claims: complete runs do not depend on the number of processes, on how patches are distributed and on when they move.
-/
import Verif.Invariance.Model

set_option autoImplicit false
namespace Fclaw.Invariance

open Fort CopyGhost Transfer Adapt Metric Repopulate
open Fclaw.Domain (Path)

variable {K P : Type} [Field K]

/-- The scene is one for this mesh. -/
structure Scene.Fits (S : Setting K P) (qs : Places) (sc : Scene) : Prop where
  good : Parallel.Good sc.B sc.M sc.sched
  dims : sc.B.d = S.d
  inj : ∀ x ∈ sc.M.patches, ∀ y ∈ sc.M.patches, sc.place x = sc.place y → x = y
  all : ∀ (i : Nat) (q : Path 4), q ∈ qs[i]?.getD [] ↔ ∃ x ∈ sc.M.patches, sc.place x = (i, q)

/-- Interior cells, and ghost cells that are filled (all but those at corners where three blocks meet). -/
def Scene.filled (sc : Scene) (x : Nat) (i j : ℤ) : Prop :=
  interior sc.B.d i j ∨ GhostAll.Due sc.B.d sc.M sc.sched.globalMinlevel false x i j

/-- The same solution in these cells. -/
def Scene.Same (sc : Scene) (x : Nat) (g g' : Grid ℚ) : Prop :=
  ∀ i j m, sc.filled x i j → comp sc.B.d m → g (i, j, m) = g' (i, j, m)

section
variable {σ : Type} (R : Rules σ)

/-- What is asked of the rules: time steps are positive; all meshes that can occur (`okay`) are in order; tags depend on cells that are
filled. -/
structure Rules.Ok (S : Setting K P) (okay : Places → Prop) : Prop where
  dt : ∀ a, 0 < R.control.dt a
  fits : ∀ qs, okay qs → (R.scene qs).Fits S qs
  once : ∀ qs, okay qs → ∀ i : Nat, (qs[i]?.getD []).Nodup
  level : ∀ qs, okay qs → ∀ i : Nat, ∀ q ∈ qs[i]?.getD [], q.length ≤ S.maxlevel
  old : ∀ qs, okay qs → ∀ r c, (R.adapt qs r c).map oldPatches = qs
  new : ∀ qs, okay qs → ∀ r c, okay ((R.adapt qs r c).map newPatches)
  refineReads : ∀ qs, okay qs → ∀ x ∈ (R.scene qs).M.patches, ∀ g g', (R.scene qs).Same x g g' →
    R.refineTag qs ((R.scene qs).place x).1 ((R.scene qs).place x).2 g = R.refineTag qs ((R.scene qs).place x).1 ((R.scene qs).place x).2 g'
  coarsenReads : ∀ qs, okay qs → ∀ i q (x : Nat → Nat), (∀ n, n < 4 → x n ∈ (R.scene qs).M.patches ∧ (R.scene qs).place (x n) = (i, child q n)) →
    ∀ g g', (∀ n, n < 4 → (R.scene qs).Same (x n) (g n) (g' n)) → R.coarsenTag qs i q g = R.coarsenTag qs i q g'

/-- At the beginning: the areas are right and registers are empty (they are not used). -/
def Ready (S : Setting K P) (qs : Places) (D : Repopulate.World) : Prop :=
  ∀ i : Nat, ∀ q ∈ qs[i]?.getD [], Valid S i q (D i q) ∧ FreshReg S i q (D i q)

/-- The same solution. -/
def Alike (qs : Places) (D D' : Repopulate.World) : Prop :=
  ∀ x ∈ (R.scene qs).M.patches, (R.scene qs).Same x (D ((R.scene qs).place x).1 ((R.scene qs).place x).2).q
    (D' ((R.scene qs).place x).1 ((R.scene qs).place x).2).q

end

end Fclaw.Invariance
