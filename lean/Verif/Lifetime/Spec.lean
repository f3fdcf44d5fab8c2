/-
What C75 claims: a whole run with time steps, synchronisation, regridding and repartitioning.
-/
import Verif.Lifetime.Model
import Verif.Repopulate.Spec
import Verif.Conserve.Spec
import Verif.GhostFill.Spec

set_option autoImplicit false
namespace Fclaw.Lifetime

open Fort CopyGhost Transfer Adapt Metric Repopulate
open Fclaw.Domain (Path)

variable {K P : Type} [Field K]

/-- The patches of a mesh with their data. -/
def items (qs : List (List (Path 4))) (D : Repopulate.World) : List (List Item) :=
  qs.zipIdx.map fun x => x.1.map fun q => ⟨x.2, q, some (D x.2 q)⟩

/-- Process `p` owns the patches numbered `[cut p, cut (p + 1))`. -/
structure Cuts (nproc : Nat) (qs : List (List (Path 4))) (cut : Nat → Nat) : Prop where
  mono : ∀ p, cut p ≤ cut (p + 1)
  first : cut 0 = 0
  last : cut nproc = qs.flatten.length

/-- All processes repartition: the data was `D` and becomes `N`. -/
def Repartitioned (S : Setting K P) (mem : Nat → Path 4 → Memory P) (nproc : Nat) (cut cut' : Nat → Nat) (qs : List (List (Path 4)))
    (D N : Repopulate.World) : Prop :=
  ∀ p < nproc, ∃ s, repartition S mem (items qs D) (cut p) (cut (p + 1)) (cut' p) (cut' (p + 1)) = some s ∧
    ∀ i j : Nat, s.new i j = (((Partition.localPart (cut' p) (cut' (p + 1)) 0 qs)[i]?.getD [])[j]?).map fun q => ⟨i, q, some (N i q)⟩

/-- `M` is the mesh `qs`, with patch `x` in the place `place x`. The faces at the physical boundary are `bd`. -/
structure Shows (S : Setting K P) (bd : Nat → Path 4 → Nat → Bool) (qs : List (List (Path 4))) (D : Repopulate.World)
    (M : GhostFill.Mesh) (place : Nat → Nat × Path 4) (G : Nat → Correction.Geom S.d) : Prop where
  ok : M.Ok
  nodup : M.patches.Nodup
  inj : ∀ x ∈ M.patches, ∀ y ∈ M.patches, place x = place y → x = y
  all : ∀ (i : Nat) (q : Path 4), q ∈ qs[i]?.getD [] ↔ ∃ x ∈ M.patches, place x = (i, q)
  boundary : ∀ x ∈ M.patches, ∀ f < 4, GhostFill.isBoundary (M.face x f) = bd (place x).1 (place x).2 f
  areas : ∀ x ∈ M.patches, ∀ c ∈ coarseCells S.d, (G x).area c.1 c.2 = areaOf S (place x).2 (D (place x).1 (place x).2) c

/-- A run. `B` is what has entered through the physical boundary, according to the registers. -/
inductive Life (S : Setting K P) (bd : Nat → Path 4 → Nat → Bool) (rpn : Correction.Rpn) (qs0 : List (List (Path 4)))
    (D0 : Repopulate.World) : List (List (Path 4)) → Repopulate.World → (ℤ → ℚ) → Prop
  | start : Life S bd rpn qs0 D0 qs0 D0 (fun _ => 0)
  /-- Time steps: any steps of any patches and synchronisations of any levels, as in C63; at the end all levels are synchronised. -/
  | advance (qs : List (List (Path 4))) (D D' : Repopulate.World) (B B' : ℤ → ℚ) (M : GhostFill.Mesh) (L : Conserve.Links)
      (place : Nat → Nat × Path 4) (G : Nat → Correction.Geom S.d) (minl top : Int) (W0 W W' : Conserve.World) :
      Life S bd rpn qs0 D0 qs D B → Shows S bd qs D M place G → Conserve.Linked S.d M L →
      (∀ x ∈ M.patches, minl ≤ M.level x ∧ M.level x ≤ top) →
      (∀ x ∈ M.patches, W0.q x = (D (place x).1 (place x).2).q ∧ W0.r x = (D (place x).1 (place x).2).reg) →
      Conserve.History S.d M L G rpn top W0 W B' → Conserve.Synced S.d M L minl top W W' →
      (∀ x ∈ M.patches, D' (place x).1 (place x).2 = ⟨W'.q x, (D (place x).1 (place x).2).area, W'.r x⟩) →
      Life S bd rpn qs0 D0 qs D' (fun m => B m + B' m)
  /-- Whatever happens to ghost cells. -/
  | ghosts (qs : List (List (Path 4))) (D D' : Repopulate.World) (B : ℤ → ℚ) : Life S bd rpn qs0 D0 qs D B →
      (∀ i : Nat, ∀ q ∈ qs[i]?.getD [], (D' i q).area = (D i q).area ∧ (D' i q).reg = (D i q).reg ∧
        ∀ a b m, interior S.d a b → (D' i q).q (a, b, m) = (D i q).q (a, b, m)) →
      Life S bd rpn qs0 D0 qs D' B
  | regrid (D N : Repopulate.World) (B : ℤ → ℚ) (E : List (List (Event 4))) (nproc : Nat) (bes : Nat → List (List (Event 4)))
      (mem : Nat → Nat → Nat → Memory P) : Life S bd rpn qs0 D0 (E.map oldPatches) D B → Distribution nproc E bes →
      (∀ i : Nat, (newPatches (E[i]?.getD [])).Nodup) → (∀ i : Nat, ∀ q ∈ newPatches (E[i]?.getD []), q.length ≤ S.maxlevel) →
      Regridded S false nproc bes mem D N → Life S bd rpn qs0 D0 (E.map newPatches) N B
  | partition (qs : List (List (Path 4))) (D N : Repopulate.World) (B : ℤ → ℚ) (nproc : Nat) (cut cut' : Nat → Nat)
      (mem : Nat → Path 4 → Memory P) : Life S bd rpn qs0 D0 qs D B → Cuts nproc qs cut → Cuts nproc qs cut' →
      Repartitioned S mem nproc cut cut' qs D N → Life S bd rpn qs0 D0 qs N B

/-- At the beginning: all patches are new. -/
structure Starts (S : Setting K P) (qs : List (List (Path 4))) (D : Repopulate.World) : Prop where
  once : ∀ i : Nat, (qs[i]?.getD []).Nodup
  level : ∀ i : Nat, ∀ q ∈ qs[i]?.getD [], q.length ≤ S.maxlevel
  fresh : ∀ i : Nat, ∀ q ∈ qs[i]?.getD [], Valid S i q (D i q) ∧ FreshReg S i q (D i q)

end Fclaw.Lifetime
